import Verif.Lemmas.HashG2
import Verif.Props.Curve

/-!
# Properties C50-C55, C57, C59: the map to the curve and `HashToG2`

Specification: RFC 9380 as transcribed in `Verif/Spec/Rfc9380.lean` (`hash_to_field`) and
`Verif/Spec/MapToCurve.lean` (`sgn0`, simplified SWU, 3-isogeny), and the group of points of the twist
(`Verif/Spec/Curve.lean`).

`t.run = some r` is the result of the honest prover, `t.run = none` says that the honest prover finds
no assignment, `t = pure r` says that `r` is the only result *any* prover can reach, `t.sat r` that some
prover reaches `r`, `t = fail` that no prover satisfies the constraints.
-/

namespace Spark.HashProps
open Spark Circ Spec G2 CurveProps
set_option maxRecDepth 100000
set_option exponentiation.threshold 10000

/-! ## C50: sign -/

theorem bit_testBit (n : ℕ) : bit (n.testBit 0) = ((n % 2 : ℕ) : Fr) := by
  rw [Nat.testBit_zero]
  rcases Nat.mod_two_eq_zero_or_one n with h | h <;> rw [h] <;> simp [bit]

/-- `sgn0` of RFC 9380, unfolded -/
theorem sgn0_cases (u : E2 Fp) :
    Rfc.sgn0 u = if u.A0 = 0 then u.A1.val % 2 else u.A0.val % 2 := by
  unfold Rfc.sgn0
  by_cases h : u.A0 = 0
  · simp [h]
  · simp [h]

/-- What the honest prover gets is the parity of `A0`, whatever `A1` is. -/
theorem c50_parity_partial (u : E2 Fp) : (g2Sgn0 u).run = some ((u.A0.val % 2 : ℕ) : Fr) := by
  rw [g2Sgn0_run, bit_testBit]

/-- **The claim fails exactly when `A0 = 0` and `A1` is odd**: on all other elements the honest result is
`sgn0` of RFC 9380. -/
theorem c50_rfc_iff (u : E2 Fp) :
    (g2Sgn0 u).run = some ((Rfc.sgn0 u : ℕ) : Fr) ↔ ¬ (u.A0 = 0 ∧ u.A1.val % 2 = 1) := by
  rw [c50_parity_partial, sgn0_cases, Option.some.injEq]
  by_cases h : u.A0 = 0
  · rw [if_pos h, h, ZMod.val_zero]
    rcases Nat.mod_two_eq_zero_or_one u.A1.val with e | e
    · rw [e]; simp
    · rw [e]; simp
  · simp [h]

/-- the concrete failure: `sgn0(0 + 1·u) = 1`, the code's sign is 0 -/
theorem c50_false : (g2Sgn0 ⟨0, 1⟩).run = some 0 ∧ Rfc.sgn0 ⟨0, 1⟩ = 1 := by
  constructor
  · rw [c50_parity_partial]; simp
  · decide +kernel

/-- What a prover can get: a bit; the parity of `A0`, unless `A0` has a second representative below
`2^381`, and then either bit. -/
theorem c50_prover (u : E2 Fp) :
    (u.A0.val + fpOrder < 2 ^ 381 → ∀ b : Fr, (g2Sgn0 u).sat b ↔ b = 0 ∨ b = 1) ∧
    (2 ^ 381 ≤ u.A0.val + fpOrder → g2Sgn0 u = pure ((u.A0.val % 2 : ℕ) : Fr)) := by
  have hodd : fpOrder % 2 = 1 := by decide +kernel
  constructor
  · intro h b
    rw [g2Sgn0_sat]
    constructor
    · rintro ⟨v, -, -, rfl⟩
      rw [bit_testBit]
      rcases Nat.mod_two_eq_zero_or_one v with e | e <;> rw [e] <;> simp
    · intro hb
      have key : b = ((u.A0.val % 2 : ℕ) : Fr) ∨ b = (((u.A0.val + fpOrder) % 2 : ℕ) : Fr) := by
        rw [Nat.add_mod, hodd]
        rcases Nat.mod_two_eq_zero_or_one u.A0.val with e | e <;> rw [e] <;> simpa [or_comm] using hb
      rcases key with rfl | rfl
      · exact ⟨u.A0.val, by omega, ZMod.natCast_zmod_val _, (bit_testBit _).symm⟩
      · exact ⟨u.A0.val + fpOrder, h, rep_add, (bit_testBit _).symm⟩
  · intro h
    refine exact_iff_pure.1 ⟨c50_parity_partial u, fun b hb => ?_⟩
    obtain ⟨v, hv, hx, rfl⟩ := (g2Sgn0_sat u b).1 hb
    rcases rep_cases hv hx with rfl | rfl
    · exact bit_testBit _
    · omega

/-- both cases of `c50_prover` occur -/
example : (0 : Fp).val + fpOrder < 2 ^ 381 ∧ 2 ^ 381 ≤ (-1 : Fp).val + fpOrder := by decide +kernel

/-! ## C51: square root of a ratio -/

/-- Honest prover: the flag says whether `u/v` is a non-square and the returned `z` satisfies
`z²·v = u`, respectively `z²·v = Z·u` with `Z = -(2 + I)`. -/
theorem c51_honest {u v : E2 Fp} (hu : u ≠ 0) (hv : v ≠ 0) :
    (IsSquare (u / v) → ∃ z, (g2SqrtRatio u v).run = some (z, 0) ∧ z ^ 2 * v = u) ∧
    (¬ IsSquare (u / v) → ∃ z, (g2SqrtRatio u v).run = some (z, 1) ∧ z ^ 2 * v = -⟨2, 1⟩ * u) := by
  obtain ⟨z, hr, hz⟩ := sqrtRatio_honest hu hv
  constructor
  · intro h
    rw [if_pos h] at hz
    refine ⟨z, ?_, hz⟩
    rw [hr]; simp [h, bit]
  · intro h
    rw [if_neg h] at hz
    refine ⟨z, ?_, hz⟩
    rw [hr]; simp [h, bit]

/-- `u = 0` is treated as a non-square (the result `z = 0` is right for either flag). -/
theorem c51_zero (v : E2 Fp) : (g2SqrtRatio 0 v).run = some (0, 1) := sqrtRatio_zero v

/-- Any prover: the result is a square root of the right ratio up to an eighth root of unity. -/
theorem c51_sound_partial {u v z : E2 Fp} {b : Fr} (hu : u ≠ 0) (hv : v ≠ 0)
    (h : (g2SqrtRatio u v).sat (z, b)) :
    ∃ ζ : E2 Fp, ζ ^ 8 = 1 ∧ ((b = 0 ∧ z ^ 2 * v = u * ζ) ∨ (b = 1 ∧ z ^ 2 * v = -⟨2, 1⟩ * u * ζ)) := by
  obtain ⟨f, ζ, rfl, h8, hz⟩ := sqrtRatio_sound hu hv h
  refine ⟨ζ, h8, ?_⟩
  cases f
  · exact Or.inl ⟨rfl, hz⟩
  · exact Or.inr ⟨rfl, hz⟩

/-- **The gadget does not bind the prover**: on every square ratio the prover can also raise the flag,
and then `z²·v = Z·u·ζ` with `ζ⁴ = -1`: `z` is not a root of anything the caller expects. -/
theorem c51_prover_false {u v : E2 Fp} (hu : u ≠ 0) (hv : v ≠ 0) (hs : IsSquare (u / v)) :
    ∃ z, (g2SqrtRatio u v).sat (z, 1) ∧ z ^ 2 * v ≠ -⟨2, 1⟩ * u ∧ z ^ 2 * v ≠ u := by
  obtain ⟨z, ζ, hsat, h4, hz⟩ := sqrtRatio_cheat hu hv hs
  refine ⟨z, hsat, ?_, ?_⟩
  · intro e
    have h1 : Rfc.Z * u * ζ = Rfc.Z * u := by rw [← hz]; exact e
    have h2 : ζ = 1 := by
      have := mul_ne_zero Z_ne hu
      exact mul_left_cancel₀ this (by rw [h1, mul_one])
    rw [h2, one_pow] at h4
    exact neg_one_ne h4.symm
  · intro e
    rw [e] at hz
    have h1 : Rfc.Z * ζ = 1 := mul_left_cancel₀ hu (by rw [mul_one]; linear_combination -hz)
    have h4' : ζ ^ 8 = 1 := by linear_combination (ζ ^ 4 - 1) * h4
    have h8 : Rfc.Z ^ 8 = 1 := by
      have := congrArg (· ^ 8) h1
      simpa [mul_pow, h4'] using this
    exact absurd h8 (by decide +kernel)

example : IsSquare ((4 : E2 Fp) / 1) ∧ (4 : E2 Fp) ≠ 0 ∧ ¬ IsSquare (Rfc.Z / 1) ∧ Rfc.Z ≠ 0 :=
  ⟨⟨2, by rw [div_one]; norm_num⟩, four_ne, by rw [div_one]; exact Z_not_sq, Z_ne⟩

/-! ## C52, C53, C59: simplified SWU -/

/-- Honest prover, `u` not exceptional: the abscissa is the one of RFC 9380, the ordinate is a square
root of `g` there, and its parity (of `A0`, the code's notion of sign) is that of `u`. -/
theorem c52_swu {u : E2 Fp} (h : Rfc.den u ≠ 0) : ∃ x y,
    (mapElementToCurve2 u).run = some ⟨x, y⟩ ∧ x = Rfc.sswuX u ∧ y ^ 2 = Rfc.g x ∧
    (y.A0 ≠ 0 → y.A0.val % 2 = u.A0.val % 2) := by
  obtain ⟨x, y, hr, hx, hy, hs⟩ := mapElement_honest h
  refine ⟨x, y, hr, hx, hy, fun h0 => ?_⟩
  have := hs h0
  rw [Nat.testBit_zero, Nat.testBit_zero, decide_eq_decide] at this
  omega

/-- no element involved in the sign comparison has real part 0 -/
def NoSignTie (u : E2 Fp) : Prop := u.A0 ≠ 0 ∧ ∀ y, y ^ 2 = Rfc.g (Rfc.sswuX u) → y.A0 ≠ 0

theorem sswu_of {u x y : E2 Fp} (ht : NoSignTie u) (hx : x = Rfc.sswuX u) (hy : y ^ 2 = Rfc.g x)
    (hs : y.A0 ≠ 0 → y.A0.val % 2 = u.A0.val % 2) : Rfc.IsSswu u x y := by
  refine ⟨hx, hy, fun _ => ?_⟩
  have h0 : y.A0 ≠ 0 := ht.2 y (by rw [← hx, hy])
  rw [sgn0_cases, sgn0_cases, if_neg h0, if_neg ht.1, hs h0]

/-- Without a sign tie that is exactly `map_to_curve_simple_swu(u)`. -/
theorem c52_rfc_partial {u : E2 Fp} (h : Rfc.den u ≠ 0) (ht : NoSignTie u) : ∃ x y,
    (mapElementToCurve2 u).run = some ⟨x, y⟩ ∧ Rfc.IsSswu u x y := by
  obtain ⟨x, y, hr, hx, hy, hs⟩ := c52_swu h
  exact ⟨x, y, hr, sswu_of ht hx hy hs⟩

/-- The RFC determines the point up to nothing: `IsSswu` has at most one solution. -/
theorem isSswu_unique {u x y x' y' : E2 Fp} (h : Rfc.IsSswu u x y) (h' : Rfc.IsSswu u x' y') :
    x = x' ∧ y = y' := by
  obtain ⟨hx, hy, hs⟩ := h
  obtain ⟨hx', hy', hs'⟩ := h'
  have e : x = x' := by rw [hx, hx']
  subst e
  refine ⟨rfl, ?_⟩
  rcases sq_eq_sq_iff_eq_or_eq_neg.1 (hy.trans hy'.symm) with e | e
  · exact e
  by_cases h0 : y' = 0
  · rw [e, h0, neg_zero]
  have h0' : y ≠ 0 := by rw [e]; exact neg_ne_zero.2 h0
  have h1 := hs h0'
  rw [← hs' h0, e, sgn0_cases, sgn0_cases] at h1
  have par : ∀ a : Fp, a ≠ 0 → (-a).val % 2 ≠ a.val % 2 := by
    intro a ha heq
    have := parity_neg ha
    rw [Nat.testBit_zero, Nat.testBit_zero, heq] at this
    simp at this
  rw [E2.A0_neg, E2.A1_neg] at h1
  by_cases ha : y'.A0 = 0
  · rw [ha, neg_zero, if_pos rfl, if_pos rfl] at h1
    refine absurd h1 (par _ fun hb => h0 ?_)
    ext
    · exact ha
    · exact hb
  · rw [if_neg (neg_ne_zero.2 ha), if_neg ha] at h1
    exact absurd h1 (par _ ha)

theorem sgn0_neg {y : E2 Fp} (h : y ≠ 0) : Rfc.sgn0 (-y) = 1 - Rfc.sgn0 y := by
  have par : ∀ a : Fp, a ≠ 0 → (-a).val % 2 = 1 - a.val % 2 := by
    intro a ha
    have := parity_neg ha
    rw [Nat.testBit_zero, Nat.testBit_zero] at this
    rcases Nat.mod_two_eq_zero_or_one a.val with e | e <;>
    rcases Nat.mod_two_eq_zero_or_one (-a).val with e' | e' <;> rw [e, e'] at this ⊢ <;> simp at this
  rw [sgn0_cases, sgn0_cases, E2.A0_neg, E2.A1_neg]
  by_cases ha : y.A0 = 0
  · rw [ha, neg_zero, if_pos rfl, if_pos rfl]
    refine par _ fun hb => h ?_
    ext
    · exact ha
    · exact hb
  · rw [if_neg (neg_ne_zero.2 ha), if_neg ha]
    exact par _ ha

/-- the abscissa for exceptional `u` and a square root of `g` there -/
theorem exceptional_root : NC.e2 (3611395798403580372189180981549434777847917790633063236702417299179272465463714843962369288472002469087378085294992, 423613093348586218576377851437437729690830432842722856441196780662664494552025968214749014884639894158037286276385) ^ 2 =
    Rfc.g (Rfc.isoB / (Rfc.Z * Rfc.isoA)) := by
  have h1 : Rfc.isoB / (Rfc.Z * Rfc.isoA) = NC.e2 (253485938497372268249793355629940596581935911929470499404363681954522004531086398081370216511504325389066637262119, 3241951739729550588668409758846082366811075084150596387118967090260465636897578670198576979594502687870694360773430) := by
    rw [div_eq_iff (mul_ne_zero Z_ne isoA_ne)]
    decide +kernel
  rw [h1]
  decide +kernel

/-- sanity of the specification: RFC 9380 assigns every `u` a point -/
theorem isSswu_exists (u : E2 Fp) : ∃ x y, Rfc.IsSswu u x y := by
  obtain ⟨y, hy⟩ : ∃ y, y ^ 2 = Rfc.g (Rfc.sswuX u) := by
    by_cases h : Rfc.den u = 0
    · refine ⟨_, exceptional_root.trans ?_⟩
      have e : Rfc.x1 u = Rfc.isoB / (Rfc.Z * Rfc.isoA) := if_pos h
      rw [Rfc.sswuX, if_pos, e]
      rw [e]
      exact ⟨_, by rw [← exceptional_root, pow_two]⟩
    · obtain ⟨x, y, -, rfl, hy, -⟩ := c52_swu h
      exact ⟨y, hy⟩
  by_cases h0 : y = 0
  · exact ⟨_, y, rfl, hy, fun h => absurd h0 h⟩
  by_cases hs : Rfc.sgn0 y = Rfc.sgn0 u
  · exact ⟨_, y, rfl, hy, fun _ => hs⟩
  · refine ⟨_, -y, rfl, by rw [neg_sq, hy], fun _ => ?_⟩
    have b : ∀ v : E2 Fp, Rfc.sgn0 v < 2 := by
      intro v; rw [sgn0_cases]; split <;> exact Nat.mod_lt _ (by norm_num)
    have h1 := b y
    have h2 := b u
    rw [sgn0_neg h0]; omega

/-- **C53**: on an exceptional `u` no prover satisfies the constraints, although RFC 9380 assigns `u`
a point, with abscissa `B/(Z·A)`. -/
theorem c53_exceptional {u : E2 Fp} (h : Rfc.den u = 0) :
    mapElementToCurve2 u = fail ∧ ∃ y, Rfc.IsSswu u (Rfc.isoB / (Rfc.Z * Rfc.isoA)) y := by
  refine ⟨mapElement_exceptional h, ?_⟩
  obtain ⟨x, y, hxy⟩ := isSswu_exists u
  have e : Rfc.x1 u = Rfc.isoB / (Rfc.Z * Rfc.isoA) := if_pos h
  have e' : Rfc.sswuX u = Rfc.isoB / (Rfc.Z * Rfc.isoA) := by
    rw [Rfc.sswuX, if_pos, e]
    rw [e]
    exact ⟨_, by rw [← exceptional_root, pow_two]⟩
  rw [hxy.1, e'] at hxy
  exact ⟨y, hxy⟩

/-- `u = 0` is exceptional -/
theorem c53_zero : mapElementToCurve2 0 = fail := mapElement_exceptional (by simp [Rfc.den])

/-- **C59 is false of the code**: for every non-exceptional `u` with `g(x1)` a square, some prover makes
`MapElementToCurve2(u)` return a pair that is not on the isogenous curve. -/
theorem c59_off_curve {u : E2 Fp} (h : Rfc.den u ≠ 0) (hs : IsSquare (Rfc.g (Rfc.x1 u))) :
    ∃ q, (mapElementToCurve2 u).sat q ∧ q.X = Rfc.x2 u ∧ q.Y ^ 2 ≠ Rfc.g q.X := by
  have hd := sswuDen_ne h
  have hd3 := pow_ne_zero 3 hd
  have hn := sswuGNum_ne h
  have hs' := hs
  rw [gx1_eq h] at hs'
  obtain ⟨z, ζ, hsat, h4, hz⟩ := sqrtRatio_cheat hn hd3 hs'
  have hy0 : ∀ y0 : E2 Fp, y0 ^ 2 = Rfc.g (Rfc.x2 u) * ζ → y0 ^ 2 ≠ Rfc.g (Rfc.x2 u) := by
    intro y0 e e'
    rw [e'] at e
    have hg : Rfc.g (Rfc.x2 u) ≠ 0 := g_ne_zero _
    have h1 : ζ = 1 := mul_left_cancel₀ hg (by rw [mul_one, ← e])
    rw [h1, one_pow] at h4
    exact neg_one_ne h4.symm
  have hsq : (Rfc.Z * u ^ 2 * u * z) ^ 2 = Rfc.g (Rfc.x2 u) * ζ := by
    rw [gx2_eq h, gx1_eq h]
    field_simp
    linear_combination (Rfc.Z ^ 2 * u ^ 6) * hz
  obtain ⟨s, h1⟩ : ∃ s, (g2Sgn0 u).sat s := ⟨_, (g2Sgn0 u).ok _ (g2Sgn0_run u)⟩
  obtain ⟨s', h2⟩ : ∃ s', (g2Sgn0 (Rfc.Z * u ^ 2 * u * z)).sat s' := ⟨_, (g2Sgn0 _).ok _ (g2Sgn0_run _)⟩
  refine ⟨⟨Rfc.x2 u, if unbit s ^^ unbit s' then -(Rfc.Z * u ^ 2 * u * z) else Rfc.Z * u ^ 2 * u * z⟩,
    ?_, rfl, ?_⟩
  · rw [mapElement_eq, sat_bind]
    refine ⟨_, hsat, ?_⟩
    have hb : unbit (1 : Fr) = true := unbit_bit true
    dsimp only
    rw [hb, if_pos rfl, if_pos rfl, sat_bind]
    refine ⟨s, h1, ?_⟩
    rw [sat_bind]
    refine ⟨s', h2, ?_⟩
    rw [Ext2.div_eq hd, pure_bind, sat_pure]
    have := xden_div h true
    rw [if_pos rfl, if_pos rfl] at this
    rw [this]
  · apply hy0
    split
    · rw [neg_sq, hsq]
    · exact hsq

/-- What every prover is bound to: one of the two candidate abscissas, and an ordinate whose square is `g`
there up to an eighth root of unity. -/
theorem c59_sound_partial {u : E2 Fp} (h : Rfc.den u ≠ 0) {q : G2Affine Fp}
    (hq : (mapElementToCurve2 u).sat q) :
    (q.X = Rfc.x1 u ∨ q.X = Rfc.x2 u) ∧ ∃ ζ : E2 Fp, ζ ^ 8 = 1 ∧ q.Y ^ 2 = Rfc.g q.X * ζ := by
  have hd := sswuDen_ne h
  have hd3 := pow_ne_zero 3 hd
  have hn := sswuGNum_ne h
  rw [mapElement_eq, sat_bind] at hq
  obtain ⟨⟨z, b⟩, hr, hq⟩ := hq
  obtain ⟨f, ζ, rfl, h8, hz⟩ := sqrtRatio_sound hn hd3 hr
  dsimp only at hq
  rw [unbit_bit, sat_bind] at hq
  obtain ⟨s, -, hq⟩ := hq
  rw [sat_bind] at hq
  obtain ⟨s', -, hq⟩ := hq
  rw [Ext2.div_eq hd, pure_bind, sat_pure, xden_div h] at hq
  subst hq
  refine ⟨by cases f <;> simp, ζ, h8, ?_⟩
  have key : (if f then Rfc.Z * u ^ 2 * u * z else z) ^ 2 = Rfc.g (if f then Rfc.x2 u else Rfc.x1 u) * ζ := by
    cases f
    · rw [target, if_neg Bool.false_ne_true] at hz
      rw [if_neg Bool.false_ne_true, if_neg Bool.false_ne_true, gx1_eq h]
      field_simp
      linear_combination hz
    · rw [target, if_pos rfl] at hz
      rw [if_pos rfl, if_pos rfl, gx2_eq h, gx1_eq h]
      field_simp
      linear_combination (Rfc.Z ^ 2 * u ^ 6) * hz
  dsimp only
  rw [← key]
  split
  · rw [neg_sq]
  · rfl

/-! ## C54: the isogeny -/

/-- For every point of the isogenous curve and every prover, `G2Isogeny` returns `iso_map` of RFC 9380,
and that is a point of the twist. -/
theorem c54_isogeny {x y : E2 Fp} (h : y ^ 2 = x ^ 3 + ⟨0, 240⟩ * x + ⟨1012, 1012⟩) :
    g2Isogeny ⟨x, y⟩ = pure ⟨Rfc.isoMapX x, Rfc.isoMapY x y⟩ ∧
    Rfc.isoMapY x y ^ 2 = Rfc.isoMapX x ^ 3 + ⟨4, 4⟩ ∧
    ∃ Q : ETwist Fp, Pt Q (Rfc.isoMapX x) (Rfc.isoMapY x y) := by
  refine ⟨g2Isogeny_eq (p := ⟨x, y⟩) (ne_pole h), ?_, iso_point h⟩
  rw [iso_on_twist h, four_xi]

/-- Off the curve: the formula is still forced, except at the pole, which is unsatisfiable. -/
theorem c54_any (x y : E2 Fp) :
    (x ≠ ⟨-6, 6⟩ → g2Isogeny ⟨x, y⟩ = pure ⟨Rfc.isoMapX x, Rfc.isoMapY x y⟩) ∧
    (x = ⟨-6, 6⟩ → g2Isogeny ⟨x, y⟩ = fail) := by
  constructor
  · exact fun h => g2Isogeny_eq (p := ⟨x, y⟩) h
  · rintro rfl; exact g2Isogeny_pole y

/-! ## C55: exponentiation -/

/-- `E2Exp(x, k)` is `x^k` for every integer `k` and every prover; a negative `k` needs `x ≠ 0`. The second
component is the caller's exponent afterwards: a negative one has been negated. -/
theorem c55_exp (x : E2 Fp) (k : ℤ) :
    (0 ≤ k → e2Exp x k = pure (x ^ k, k)) ∧
    (k < 0 → x ≠ 0 → e2Exp x k = pure (x ^ k, -k)) ∧
    (k < 0 → x = 0 → e2Exp x k = fail) := by
  refine ⟨fun h => ?_, fun h hx => e2Exp_neg hx h, fun h hx => by rw [hx]; exact e2Exp_neg_zero h⟩
  obtain ⟨n, rfl⟩ := Int.eq_ofNat_of_zero_le h
  rw [e2Exp_nat, zpow_natCast]

example : (⟨1, 2⟩ : E2 Fp) ≠ 0 ∧ (-5 : ℤ) < 0 := ⟨fun h => absurd (congrArg E2.A0 h) (by decide +kernel), by decide⟩

/-! ## C57: `HashToG2` -/

/-- `Q` is the image of `u` under SWU and the isogeny, with the sign rule of the code -/
def CodeMapsTo (u : E2 Fp) (Q : ETwist Fp) : Prop :=
  ∃ x y, x = Rfc.sswuX u ∧ y ^ 2 = Rfc.g x ∧ (y.A0 ≠ 0 → y.A0.val % 2 = u.A0.val % 2) ∧
    Pt Q (Rfc.isoMapX x) (Rfc.isoMapY x y)

/-- Without a sign tie this is `map_to_curve` of RFC 9380. -/
theorem c57_map_rfc {u : E2 Fp} {Q : ETwist Fp} (ht : NoSignTie u) (h : CodeMapsTo u Q) :
    Rfc.MapsTo u Q := by
  obtain ⟨x, y, hx, hy, hs, hQ⟩ := h
  exact ⟨x, y, sswu_of ht hx hy hs, hQ⟩

theorem codeMapsTo_of {u x y : E2 Fp} {Q : ETwist Fp} (h : CodeSswu u x y)
    (hQ : Pt Q (Rfc.isoMapX x) (Rfc.isoMapY x y)) : CodeMapsTo u Q := by
  obtain ⟨hx, hy, hs⟩ := h
  refine ⟨x, y, hx, hy, fun h0 => ?_, hQ⟩
  have := hs h0
  rw [Nat.testBit_zero, Nat.testBit_zero, decide_eq_decide] at this
  omega

/-- the message as circuit input: one variable per byte -/
def msgVars (msg : Vector Fips.Byte 32) : Vector Fr 32 := msg.map Sha.byteVar

theorem hashToField_run {msg : Vector Fips.Byte 32} {n : ℕ} {us : List (E2 Fp)} (h1 : 1 ≤ n) (h2 : n ≤ 63)
    (hu : Rfc.hashToFieldFp2 msg.toList (Rfc.ascii Rfc.dstString) n = some us) :
    (H2C.hashToField (msgVars msg) (2 * n)).run = some us := by
  rw [msgVars, (H2C.c08_hash_to_field_honest msg n h1 h2).1, hu]

/-- **C57.** Honest prover: with `u0, u1` the two elements of `hash_to_field(msg)`, none exceptional, and
`Q0, Q1` their images on the twist, `HashToG2OnJac` returns the cofactor-cleared `Q0 + Q1` (and finds no
assignment if that is the point at infinity); `HashToG2` returns the same point whenever `Q0 ≠ ±Q1` and the
affine cofactor clearing is defined there. -/
theorem c57_hash_to_g2 {msg : Vector Fips.Byte 32} {u0 u1 : E2 Fp} {ψ : ETwist Fp →+ ETwist Fp}
    (hψ : IsPsi ψ)
    (hu : Rfc.hashToFieldFp2 msg.toList (Rfc.ascii Rfc.dstString) 2 = some [u0, u1])
    (h0 : Rfc.den u0 ≠ 0) (h1 : Rfc.den u1 ≠ 0) :
    ∃ Q0 Q1 : ETwist Fp, CodeMapsTo u0 Q0 ∧ CodeMapsTo u1 Q1 ∧
      (budroniPintore ψ (Q0 + Q1) ≠ 0 → ∃ q, (hashToG2OnJac (msgVars msg)).run = some q ∧
        Pt (budroniPintore ψ (Q0 + Q1)) q.X q.Y) ∧
      (budroniPintore ψ (Q0 + Q1) = 0 → (hashToG2OnJac (msgVars msg)).run = none) ∧
      (Q0 ≠ Q1 → Q0 ≠ -Q1 → AffineDefined ψ (Q0 + Q1) →
        ∃ q, (hashToG2 (msgVars msg)).run = some q ∧ Pt (budroniPintore ψ (Q0 + Q1)) q.X q.Y ∧
          (hashToG2OnJac (msgVars msg)).run = some q) := by
  obtain rfl := c48_unique hψ isPsi_psiHom
  obtain ⟨x0, y0, x1, y1, Q0, Q1, c0, c1, p0, p1, j, jz, a⟩ := hashTail_run h0 h1
  have hf := hashToField_run (n := 2) (by omega) (by omega) hu
  have ej : (hashToG2OnJac (msgVars msg)).run = (hashTailJac [u0, u1]).run := by
    rw [hashToG2OnJac_tail, run_bind, hf, Option.bind_some]
  have ea : (hashToG2 (msgVars msg)).run = (hashTail [u0, u1]).run := by
    rw [hashToG2_tail, run_bind, hf, Option.bind_some]
  refine ⟨Q0, Q1, codeMapsTo_of c0 p0, codeMapsTo_of c1 p1, ?_, ?_, ?_⟩
  · intro hne; rw [ej]; exact j hne
  · intro hz; rw [ej]; exact jz hz
  · intro hne hne' hd
    rw [ej, ea]
    obtain ⟨q, hq, hp⟩ := a hne (fun e => hne' (eq_neg_of_add_eq_zero_left e)) hd.affOk
    obtain ⟨q', hq', hp'⟩ := j hp.ne_zero
    refine ⟨q, hq, hp, ?_⟩
    rw [hq']
    obtain ⟨e1, e2⟩ := Pt.unique hp hp'
    obtain ⟨qx, qy⟩ := q
    obtain ⟨qx', qy'⟩ := q'
    simp only at e1 e2
    rw [e1, e2]

/-- the same for the non-uniform encodings -/
theorem c57_encode_to_g2 {msg : Vector Fips.Byte 32} {u : E2 Fp} {ψ : ETwist Fp →+ ETwist Fp}
    (hψ : IsPsi ψ)
    (hu : Rfc.hashToFieldFp2 msg.toList (Rfc.ascii Rfc.dstString) 1 = some [u])
    (h : Rfc.den u ≠ 0) :
    ∃ Q : ETwist Fp, CodeMapsTo u Q ∧
      (budroniPintore ψ Q ≠ 0 → ∃ q, (encodeToG2OnJac (msgVars msg)).run = some q ∧
        Pt (budroniPintore ψ Q) q.X q.Y) ∧
      (budroniPintore ψ Q = 0 → (encodeToG2OnJac (msgVars msg)).run = none) ∧
      (AffineDefined ψ Q →
        ∃ q, (encodeToG2 (msgVars msg)).run = some q ∧ Pt (budroniPintore ψ Q) q.X q.Y) := by
  obtain rfl := c48_unique hψ isPsi_psiHom
  obtain ⟨x, y, Q, c, p, j, jz, a⟩ := encTail_run h
  have hf := hashToField_run (n := 1) (by omega) (by omega) hu
  have ej : (encodeToG2OnJac (msgVars msg)).run = (encTailJac [u]).run := by
    rw [encodeToG2OnJac_tail, run_bind, hf, Option.bind_some]
  have ea : (encodeToG2 (msgVars msg)).run = (encTail [u]).run := by
    rw [encodeToG2_tail, run_bind, hf, Option.bind_some]
  refine ⟨Q, codeMapsTo_of c p, ?_, ?_, ?_⟩
  · intro hne; rw [ej]; exact j hne
  · intro hz; rw [ej]; exact jz hz
  · intro hd; rw [ea]; exact a hd.affOk

/-- An exceptional field element makes the honest hash fail. -/
theorem c57_exceptional {msg : Vector Fips.Byte 32} {u0 u1 : E2 Fp}
    (hu : Rfc.hashToFieldFp2 msg.toList (Rfc.ascii Rfc.dstString) 2 = some [u0, u1])
    (h : Rfc.den u0 = 0 ∨ Rfc.den u1 = 0) :
    (hashToG2 (msgVars msg)).run = none ∧ (hashToG2OnJac (msgVars msg)).run = none := by
  have hf := hashToField_run (n := 2) (by omega) (by omega) hu
  constructor
  · rw [hashToG2_tail, run_bind, hf, Option.bind_some, hashTail, nth_zero, nth_one, pure_bind, run_bind]
    rcases h with h | h
    · rw [mapElement_exceptional h]; rfl
    · cases hm : (mapElementToCurve2 u0).run with
      | none => rfl
      | some q0 => rw [Option.bind_some, pure_bind, run_bind, mapElement_exceptional h]; rfl
  · rw [hashToG2OnJac_tail, run_bind, hf, Option.bind_some, hashTailJac, nth_zero, nth_one, pure_bind,
      run_bind]
    rcases h with h | h
    · rw [mapElement_exceptional h]; rfl
    · cases hm : (mapElementToCurve2 u0).run with
      | none => rfl
      | some q0 => rw [Option.bind_some, pure_bind, run_bind, mapElement_exceptional h]; rfl

/-! ## C09 at the level of `HashToG2` -/

/-- **C09 is false of the code**: the points a prover can present as `HashToG2(msg)` do not depend on
`msg` at all, for any of the four variants. -/
theorem c09_hash_to_g2_any_message (msg msg' : Vector Fips.Byte 32) (q : G2Affine Fp) :
    ((hashToG2 (msgVars msg)).sat q ↔ (hashToG2 (msgVars msg')).sat q) ∧
    ((hashToG2OnJac (msgVars msg)).sat q ↔ (hashToG2OnJac (msgVars msg')).sat q) ∧
    ((encodeToG2 (msgVars msg)).sat q ↔ (encodeToG2 (msgVars msg')).sat q) ∧
    ((encodeToG2OnJac (msgVars msg)).sat q ↔ (encodeToG2OnJac (msgVars msg')).sat q) := by
  refine ⟨?_, ?_, ?_, ?_⟩
  · rw [hashToG2_tail, hashToG2_tail, sat_bind, sat_bind]
    simp only [msgVars, hashToField_sat _ 2 (by omega)]
  · rw [hashToG2OnJac_tail, hashToG2OnJac_tail, sat_bind, sat_bind]
    simp only [msgVars, hashToField_sat _ 2 (by omega)]
  · rw [encodeToG2_tail, encodeToG2_tail, sat_bind, sat_bind]
    simp only [msgVars, hashToField_sat _ 1 (by omega)]
  · rw [encodeToG2OnJac_tail, encodeToG2OnJac_tail, sat_bind, sat_bind]
    simp only [msgVars, hashToField_sat _ 1 (by omega)]

/-- In particular the honest hash of any other message is accepted as the hash of `msg`. -/
theorem c09_hash_to_g2_substitution (msg msg' : Vector Fips.Byte 32) (q : G2Affine Fp)
    (h : (hashToG2 (msgVars msg')).run = some q) : (hashToG2 (msgVars msg)).sat q :=
  (c09_hash_to_g2_any_message msg msg' q).1.2 ((hashToG2 (msgVars msg')).ok _ h)

end Spark.HashProps
