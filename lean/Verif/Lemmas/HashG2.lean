import Verif.Lemmas.Sswu
import Verif.Lemmas.Cofactor
import Verif.Props.Expand

/-! From SWU points to points of the twist; the structure of `HashToG2`. -/

namespace Spark.G2
set_option maxRecDepth 100000
set_option exponentiation.threshold 10000

open NC Circ Spec

/-- the result of the honest `MapElementToCurve2`: RFC 9380 with the sign rule of `g2Sgn0` -/
def CodeSswu (u x y : E2 Fp) : Prop :=
  x = Rfc.sswuX u ∧ y ^ 2 = Rfc.g x ∧ (y.A0 ≠ 0 → y.A0.val.testBit 0 = u.A0.val.testBit 0)

theorem four_xi : (4 * E2.xi : E2 Fp) = ⟨4, 4⟩ := by
  ext <;> simp [A0_four, A1_four]

/-- the image under the isogeny as a point of the twist -/
theorem iso_point {x y : E2 Fp} (h : y ^ 2 = Rfc.g x) :
    ∃ Q : ETwist Fp, Pt Q (Rfc.isoMapX x) (Rfc.isoMapY x y) := by
  have ht := iso_on_twist h
  have hy : Rfc.isoMapY x y ≠ 0 := by
    intro h0
    rw [h0, zero_pow two_ne_zero] at ht
    exact neg_four_xi_not_cube _ (eq_neg_of_add_eq_zero_left ht.symm)
  rw [four_xi] at ht
  exact ⟨.some _ _ (nonsingular_of two_ne hy ht), ⟨_, rfl⟩⟩

theorem mapIso_honest {u : E2 Fp} (h : Rfc.den u ≠ 0) : ∃ (x y : E2 Fp) (Q : ETwist Fp),
    (mapElementToCurve2 u).run = some ⟨x, y⟩ ∧ CodeSswu u x y ∧
    g2Isogeny ⟨x, y⟩ = pure ⟨Rfc.isoMapX x, Rfc.isoMapY x y⟩ ∧
    Pt Q (Rfc.isoMapX x) (Rfc.isoMapY x y) := by
  obtain ⟨x, y, hr, h1, h2, h3⟩ := mapElement_honest h
  obtain ⟨Q, hQ⟩ := iso_point h2
  exact ⟨x, y, Q, hr, ⟨h1, h2, h3⟩, g2Isogeny_eq (p := ⟨x, y⟩) (ne_pole h2), hQ⟩

theorem e2Reduce_run (x : E2 Fp) : (e2Reduce x).run = some x := by
  rw [e2Reduce, run_bind, fpReduce_run, Option.bind_some, run_bind, fpReduce_run, Option.bind_some,
    run_pure, ZMod.natCast_zmod_val, ZMod.natCast_zmod_val]

theorem e2Reduce_eq (x : E2 Fp) : e2Reduce x = pure x := by
  refine exact_iff_pure.1 ⟨e2Reduce_run x, ?_⟩
  rintro b ⟨a0, h0, a1, h1, rfl⟩
  rw [fpReduce_sat] at h0 h1
  rw [h0.2, h1.2]

/-- the part of `HashToG2` after `HashToField` -/
def hashTail (e2 : List (E2 Fp)) : Circ (G2Affine Fp) := do
  let q0 ← mapElementToCurve2 (← nth e2 0)
  let q1 ← mapElementToCurve2 (← nth e2 1)
  let q0 ← g2Isogeny q0
  let q1 ← g2Isogeny q1
  let sum ← affAdd q0 q1
  let sum ← clearCofactorAff sum
  let x ← e2Reduce sum.X
  let y ← e2Reduce sum.Y
  pure ⟨x, y⟩

theorem hashToG2_tail (msg : Vector Fr 32) : hashToG2 msg = (H2C.hashToField msg 4 >>= hashTail) := rfl

/-- the part of `HashToG2OnJac` after `HashToField` -/
def hashTailJac (e2 : List (E2 Fp)) : Circ (G2Affine Fp) := do
  let q0 ← mapElementToCurve2 (← nth e2 0)
  let q1 ← mapElementToCurve2 (← nth e2 1)
  let q0 ← g2Isogeny q0
  let q1 ← g2Isogeny q1
  let q0 ← jacFromAff q0
  let q1 ← jacFromAff q1
  let sum ← jacAdd q0 q1
  let sum ← clearCofactorJac sum
  affFromJac sum

theorem hashToG2OnJac_tail (msg : Vector Fr 32) :
    hashToG2OnJac msg = (H2C.hashToField msg 4 >>= hashTailJac) := rfl

/-- the part of `EncodeToG2` after `HashToField` -/
def encTail (e2 : List (E2 Fp)) : Circ (G2Affine Fp) := do
  let q ← mapElementToCurve2 (← nth e2 0)
  let g2Affine ← g2Isogeny q
  clearCofactorAff g2Affine

theorem encodeToG2_tail (msg : Vector Fr 32) : encodeToG2 msg = (H2C.hashToField msg 2 >>= encTail) := rfl

/-- the part of `EncodeToG2OnJac` after `HashToField` -/
def encTailJac (e2 : List (E2 Fp)) : Circ (G2Affine Fp) := do
  let q ← mapElementToCurve2 (← nth e2 0)
  let g2Affine ← g2Isogeny q
  let g2Jac ← jacFromAff g2Affine
  let g2Jac ← clearCofactorJac g2Jac
  affFromJac g2Jac

theorem encodeToG2OnJac_tail (msg : Vector Fr 32) :
    encodeToG2OnJac msg = (H2C.hashToField msg 2 >>= encTailJac) := rfl

theorem affFromJac_run_zero {j : G2Jacobian Fp} (h : JRep 0 j) : (affFromJac j).run = none := by
  have hz : j.Z = 0 := (JacOf.Z_eq_zero_iff h).2 rfl
  have he : j = ⟨j.X, j.Y, 0⟩ := by rw [← hz]
  rw [he, affFromJac_zero]; rfl

theorem nth_zero (a : E2 Fp) (l : List (E2 Fp)) : nth (a :: l) 0 = pure a := rfl
theorem nth_one (a b : E2 Fp) (l : List (E2 Fp)) : nth (a :: b :: l) 1 = pure b := rfl

theorem hashTail_run {u0 u1 : E2 Fp} (h0 : Rfc.den u0 ≠ 0) (h1 : Rfc.den u1 ≠ 0) :
    ∃ (x0 y0 x1 y1 : E2 Fp) (Q0 Q1 : ETwist Fp), CodeSswu u0 x0 y0 ∧ CodeSswu u1 x1 y1 ∧
      Pt Q0 (Rfc.isoMapX x0) (Rfc.isoMapY x0 y0) ∧ Pt Q1 (Rfc.isoMapX x1) (Rfc.isoMapY x1 y1) ∧
      (bp (Q0 + Q1) ≠ 0 → ∃ q, (hashTailJac [u0, u1]).run = some q ∧ Pt (bp (Q0 + Q1)) q.X q.Y) ∧
      (bp (Q0 + Q1) = 0 → (hashTailJac [u0, u1]).run = none) ∧
      (Q0 ≠ Q1 → Q0 + Q1 ≠ 0 → AffOk (Q0 + Q1) →
        ∃ q, (hashTail [u0, u1]).run = some q ∧ Pt (bp (Q0 + Q1)) q.X q.Y) := by
  obtain ⟨x0, y0, Q0, r0, c0, i0, p0⟩ := mapIso_honest h0
  obtain ⟨x1, y1, Q1, r1, c1, i1, p1⟩ := mapIso_honest h1
  refine ⟨x0, y0, x1, y1, Q0, Q1, c0, c1, p0, p1, ?_, ?_, ?_⟩
  · intro hne
    obtain ⟨j0, e0, hj0⟩ := jacFromAff_sound (q := ⟨Rfc.isoMapX x0, Rfc.isoMapY x0 y0⟩) p0 (Or.inl (twist_x_ne p0))
    obtain ⟨j1, e1, hj1⟩ := jacFromAff_sound (q := ⟨Rfc.isoMapX x1, Rfc.isoMapY x1 y1⟩) p1 (Or.inl (twist_x_ne p1))
    obtain ⟨s, es, hs⟩ := jacAdd_honest hj0 hj1
    obtain ⟨c, ec, hc⟩ := clearCofactorJac_honest hs
    obtain ⟨q, eq, hq⟩ := affFromJac_sound hc hne
    refine ⟨q, ?_, hq⟩
    rw [hashTailJac, nth_zero, nth_one, pure_bind, run_bind, r0, Option.bind_some, pure_bind, run_bind, r1,
      Option.bind_some, i0, pure_bind, i1, pure_bind, e0, pure_bind, e1, pure_bind, run_bind, es,
      Option.bind_some, run_bind, ec, Option.bind_some, eq]; rfl
  · intro hz
    obtain ⟨j0, e0, hj0⟩ := jacFromAff_sound (q := ⟨Rfc.isoMapX x0, Rfc.isoMapY x0 y0⟩) p0 (Or.inl (twist_x_ne p0))
    obtain ⟨j1, e1, hj1⟩ := jacFromAff_sound (q := ⟨Rfc.isoMapX x1, Rfc.isoMapY x1 y1⟩) p1 (Or.inl (twist_x_ne p1))
    obtain ⟨s, es, hs⟩ := jacAdd_honest hj0 hj1
    obtain ⟨c, ec, hc⟩ := clearCofactorJac_honest hs
    rw [hz] at hc
    rw [hashTailJac, nth_zero, nth_one, pure_bind, run_bind, r0, Option.bind_some, pure_bind, run_bind, r1,
      Option.bind_some, i0, pure_bind, i1, pure_bind, e0, pure_bind, e1, pure_bind, run_bind, es,
      Option.bind_some, run_bind, ec, Option.bind_some, affFromJac_run_zero hc]
  · intro hne hne' hok
    obtain ⟨s, es, hs⟩ := affAdd_sound (p := ⟨Rfc.isoMapX x0, Rfc.isoMapY x0 y0⟩)
      (q := ⟨Rfc.isoMapX x1, Rfc.isoMapY x1 y1⟩) p0 p1 hne hne'
    obtain ⟨c, ec, hc⟩ := clearCofactorAff_honest hs hok
    refine ⟨c, ?_, hc⟩
    rw [hashTail, nth_zero, nth_one, pure_bind, run_bind, r0, Option.bind_some, pure_bind, run_bind, r1,
      Option.bind_some, i0, pure_bind, i1, pure_bind, es, pure_bind, run_bind, ec, Option.bind_some,
      e2Reduce_eq, pure_bind, e2Reduce_eq, pure_bind]
    rfl

theorem encTail_run {u : E2 Fp} (h : Rfc.den u ≠ 0) :
    ∃ (x y : E2 Fp) (Q : ETwist Fp), CodeSswu u x y ∧ Pt Q (Rfc.isoMapX x) (Rfc.isoMapY x y) ∧
      (bp Q ≠ 0 → ∃ q, (encTailJac [u]).run = some q ∧ Pt (bp Q) q.X q.Y) ∧
      (bp Q = 0 → (encTailJac [u]).run = none) ∧
      (AffOk Q → ∃ q, (encTail [u]).run = some q ∧ Pt (bp Q) q.X q.Y) := by
  obtain ⟨x, y, Q, r, c, i, p⟩ := mapIso_honest h
  obtain ⟨j, e, hj⟩ := jacFromAff_sound (q := ⟨Rfc.isoMapX x, Rfc.isoMapY x y⟩) p (Or.inl (twist_x_ne p))
  obtain ⟨k, ek, hk⟩ := clearCofactorJac_honest hj
  refine ⟨x, y, Q, c, p, ?_, ?_, ?_⟩
  · intro hne
    obtain ⟨q, eq, hq⟩ := affFromJac_sound hk hne
    refine ⟨q, ?_, hq⟩
    rw [encTailJac, nth_zero, pure_bind, run_bind, r, Option.bind_some, i, pure_bind, e, pure_bind, run_bind,
      ek, Option.bind_some, eq]; rfl
  · intro hz
    rw [hz] at hk
    rw [encTailJac, nth_zero, pure_bind, run_bind, r, Option.bind_some, i, pure_bind, e, pure_bind, run_bind,
      ek, Option.bind_some, affFromJac_run_zero hk]
  · intro hok
    obtain ⟨q, eq, hq⟩ := clearCofactorAff_honest (a := ⟨Rfc.isoMapX x, Rfc.isoMapY x y⟩) p hok
    refine ⟨q, ?_, hq⟩
    rw [encTail, nth_zero, pure_bind, run_bind, r, Option.bind_some, i, pure_bind, eq]

/-- which lists `HashToField` can produce -/
theorem hashToField_sat (msg : Vector Fips.Byte 32) (n : ℕ) (h : 1 ≤ n) (out : List (E2 Fp)) :
    (H2C.hashToField (msg.map Sha.byteVar) (2 * n)).sat out ↔ out.length = n :=
  ⟨H2C.c09_length_partial msg n out, H2C.c09_hash_to_field_unconstrained msg n h out⟩

end Spark.G2
