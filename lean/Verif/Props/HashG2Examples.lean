import Verif.Lemmas.HashExample

/-!
# Concrete cases for the properties of `Props/HashG2.lean`

Non-vacuity of C52, C54, C57, C59 on explicit inputs (the message `00 01 … 1f`), the concrete deviation
from the RFC sign rule, and two different hashes of the same message.
-/

namespace Spark.HashProps
open Spark Circ Spec G2 CurveProps NC
set_option maxRecDepth 100000
set_option exponentiation.threshold 10000

/-- **The sign rule is not the RFC's**: for `u = 0 + 1·I` the honest `MapElementToCurve2` returns the
negative of the point RFC 9380 prescribes. -/
theorem c52_sign_false : ∃ x y, (mapElementToCurve2 ⟨0, 1⟩).run = some ⟨x, y⟩ ∧
    ¬ Rfc.IsSswu ⟨0, 1⟩ x y ∧ Rfc.IsSswu ⟨0, 1⟩ x (-y) := by
  have hu : e2 exUI = ⟨0, 1⟩ := by decide +kernel
  have hd := (swuCheck_spec exI_check).1
  rw [hu] at hd
  obtain ⟨x, y, hr, hx, hy, hs⟩ := c52_swu hd
  have htie := (swuCheck_spec exI_check)
  rw [hu] at htie
  obtain ⟨-, hX, hY, h0, -⟩ := htie
  have hA : y.A0 ≠ 0 := by
    rw [hx, ← hX, ← hY] at hy
    rcases sq_eq_sq_iff_eq_or_eq_neg.1 hy with e | e
    · rw [e]; exact h0
    · rw [e]; exact neg_ne_zero.2 h0
  have hy0 : y ≠ 0 := fun e => hA (by rw [e]; rfl)
  have hsy : Rfc.sgn0 y = 0 := by
    rw [sgn0_cases, if_neg hA, hs hA]; decide +kernel
  have hsu : Rfc.sgn0 ⟨0, 1⟩ = 1 := c50_false.2
  refine ⟨x, y, hr, fun h => ?_, hx, by rw [neg_sq, hy], fun _ => ?_⟩
  · have := h.2.2 hy0
    rw [hsy, hsu] at this
    exact absurd this (by decide)
  · rw [sgn0_neg hy0, hsy, hsu]

/-- non-vacuity of `c52_rfc_partial`, `c57_map_rfc` -/
example : Rfc.den (e2 exU0) ≠ 0 ∧ NoSignTie (e2 exU0) ∧ Rfc.den (e2 exU1) ≠ 0 ∧ NoSignTie (e2 exU1) := by
  obtain ⟨R, hR⟩ := Option.isSome_iff_exists.1 ex_some
  obtain ⟨d0, d1, s0, s1, -, -⟩ := nHash_spec hR
  exact ⟨d0, noTie_of s0 (by decide +kernel), d1, noTie_of s1 (by decide +kernel)⟩

/-- non-vacuity of `c59_off_curve` (`u = 1`) and of `c54_isogeny` -/
example : Rfc.den (e2 exUA) ≠ 0 ∧ IsSquare (Rfc.g (Rfc.x1 (e2 exUA))) ∧
    e2 exYA ^ 2 = Rfc.g (e2 (nX exUA exYA)) := by
  have hc : swuCheck exUA exYA = true := by decide +kernel
  obtain ⟨hd, hX, hy, -, -⟩ := swuCheck_spec hc
  have hf : nX exUA exYA = nX1 exUA := by decide +kernel
  refine ⟨hd, ?_, hy⟩
  by_contra hn
  have h2 : Rfc.sswuX (e2 exUA) = Rfc.x2 (e2 exUA) := if_neg hn
  have hx1 : Rfc.x1 (e2 exUA) = e2 (nX1 exUA) := by
    refine x1_of_check hd ?_
    have h3 : mul (mul (nX1 exUA) (0, 240)) (nDen exUA) =
        neg (mul (1012, 1012) (add (nDen exUA) (1, 0))) := by decide +kernel
    have := congrArg e2 h3
    simp only [e2_mul, e2_neg, e2_add, nDen_spec, nA_spec, nB_spec, n1_spec] at this
    exact this
  rw [hf, ← hx1] at hy
  exact hn ⟨_, by rw [← hy, pow_two]⟩

/-- **C57 on an explicit message**: its two field elements, the two points, all hypotheses of
`c57_hash_to_g2` hold, and both variants return the same explicit point. -/
theorem c57_example : ∃ u0 u1 q,
    Rfc.hashToFieldFp2 exMsg.toList (Rfc.ascii Rfc.dstString) 2 = some [u0, u1] ∧
    Rfc.den u0 ≠ 0 ∧ Rfc.den u1 ≠ 0 ∧ NoSignTie u0 ∧ NoSignTie u1 ∧
    (∀ Q0 Q1, CodeMapsTo u0 Q0 → CodeMapsTo u1 Q1 →
      Q0 ≠ Q1 ∧ Q0 ≠ -Q1 ∧ AffineDefined psiHom (Q0 + Q1)) ∧
    (hashToG2 (msgVars exMsg)).run = some q ∧ (hashToG2OnJac (msgVars exMsg)).run = some q := by
  obtain ⟨R, hR⟩ := Option.isSome_iff_exists.1 ex_some
  obtain ⟨d0, d1, s0, s1, hQ, hrun⟩ := nHash_spec hR
  obtain ⟨Q0, Q1, m0, m1, -, -, h⟩ := c57_hash_to_g2 isPsi_psiHom ex_hash_to_field d0 d1
  obtain ⟨n1, n2, n3, -⟩ := hQ Q0 Q1 m0 m1
  obtain ⟨q, hq, -, hq'⟩ := h n1 n2 n3
  refine ⟨_, _, q, ex_hash_to_field, d0, d1, noTie_of s0 (by decide +kernel), noTie_of s1 (by decide +kernel),
    fun Q0 Q1 m0 m1 => ?_, hq, hq'⟩
  obtain ⟨n1, n2, n3, -⟩ := hQ Q0 Q1 m0 m1
  exact ⟨n1, n2, n3⟩

/-- **C09 is false of the code**: for every message at least two different points are accepted as
`HashToG2(msg)`. -/
theorem c09_hash_to_g2_not_bound (msg : Vector Fips.Byte 32) : ∃ q q',
    (hashToG2 (msgVars msg)).sat q ∧ (hashToG2 (msgVars msg)).sat q' ∧ q ≠ q' := by
  obtain ⟨R, hR⟩ := Option.isSome_iff_exists.1 ex_some
  obtain ⟨R', hR'⟩ := Option.isSome_iff_exists.1 exAB_some
  obtain ⟨-, -, -, -, -, h⟩ := nHash_spec hR
  obtain ⟨-, -, -, -, -, h'⟩ := nHash_spec hR'
  refine ⟨⟨e2 R.1, e2 R.2⟩, ⟨e2 R'.1, e2 R'.2⟩, ?_, ?_, ?_⟩
  · rw [hashToG2_tail, sat_bind]
    exact ⟨_, (hashToField_sat msg 2 (by omega) _).2 rfl, (hashTail _).ok _ h⟩
  · rw [hashToG2_tail, sat_bind]
    exact ⟨_, (hashToField_sat msg 2 (by omega) _).2 rfl, (hashTail _).ok _ h'⟩
  · intro e
    have e1 := congrArg (fun q : G2Affine Fp => q.X.A0.val) e
    have hne := ex_ne_AB
    rw [hR, hR', Option.map_some, Option.map_some, Ne, Option.some.injEq] at hne
    apply hne
    rw [← val_e2, ← val_e2]
    exact e1

end Spark.HashProps
