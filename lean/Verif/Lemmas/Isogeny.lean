import Verif.Lemmas.HashConst

/-! The 3-isogeny of hashG2.go. -/

namespace Spark.G2
set_option maxRecDepth 100000
set_option exponentiation.threshold 10000

open NC Circ

theorem xden_pev (x : E2 Fp) : isogenyXDenominator x = pev pXDen x := by
  simp only [isogenyXDenominator, isoXDen0_val, isoXDen1_val, tower, pXDen, pev_cons, pev_nil]
  rw [show e2 (1, 0) = 1 by rfl]; ring
theorem xnum_pev (x : E2 Fp) : isogenyXNumerator x = pev pXNum x := by
  simp only [isogenyXNumerator, isoXNum0_val, isoXNum1_val, isoXNum2_val, isoXNum3_val, tower, pXNum,
    pev_cons, pev_nil]
  ring
theorem yden_pev (x : E2 Fp) : isogenyYDenominator x = pev pYDen x := by
  simp only [isogenyYDenominator, isoYDen0_val, isoYDen1_val, isoYDen2_val, tower, pYDen, pev_cons,
    pev_nil]
  rw [show e2 (1, 0) = 1 by rfl]; ring
theorem ynum_pev (x y : E2 Fp) : isogenyYNumerator x y = pev pYNum x * y := by
  simp only [isogenyYNumerator, isoYNum0_val, isoYNum1_val, isoYNum2_val, isoYNum3_val, tower, pYNum,
    pev_cons, pev_nil]
  ring

theorem e2_lit (a b : ℕ) : e2 (a, b) = ⟨(a : Fp), (b : Fp)⟩ := rfl
theorem of_lit (a : ℕ) : e2 (a, 0) = E2.of (a : Fp) := by ext <;> simp [e2, toE2]

theorem xden_rfc (x : E2 Fp) : pev pXDen x = Rfc.isoXDen x := by
  simp only [pXDen, pev_cons, pev_nil, Rfc.isoXDen]
  rw [show e2 (1, 0) = 1 by rfl]
  simp only [e2_lit, Nat.cast_ofNat, Nat.cast_zero]
  ring
theorem yden_rfc (x : E2 Fp) : pev pYDen x = Rfc.isoYDen x := by
  simp only [pYDen, pev_cons, pev_nil, Rfc.isoYDen]
  rw [show e2 (1, 0) = 1 by rfl]
  simp only [e2_lit, Nat.cast_ofNat, Nat.cast_zero]
  ring
theorem xnum_rfc (x : E2 Fp) : pev pXNum x = Rfc.isoXNum x := by
  simp only [pXNum, pev_cons, pev_nil, Rfc.isoXNum]
  rw [of_lit]
  simp only [e2_lit, Nat.cast_ofNat, Nat.cast_zero]
  ring
theorem ynum_rfc (x : E2 Fp) : pev pYNum x = Rfc.isoYNum x := by
  simp only [pYNum, pev_cons, pev_nil, Rfc.isoYNum]
  rw [of_lit]
  simp only [e2_lit, Nat.cast_ofNat, Nat.cast_zero]
  ring

theorem A0_four : E2.A0 (4 : E2 Fp) = 4 := rfl
theorem A1_four : E2.A1 (4 : E2 Fp) = 0 := rfl

/-- coefficients of `x³ + A'x + B'` -/
def pG : List N2 := [(1012, 1012), (0, 240), (0, 0), (1, 0)]

theorem g_pev (x : E2 Fp) : Rfc.g x = pev pG x := by
  simp only [pG, pev_cons, pev_nil, Rfc.g, Rfc.isoA, Rfc.isoB]
  rw [show e2 (1, 0) = 1 by rfl, e2_zero]
  simp only [e2_lit, Nat.cast_ofNat, Nat.cast_zero]
  ring

theorem iso_poly : pmul pG (pmul (pmul pYNum pYNum) (pmul pXDen (pmul pXDen pXDen))) =
    pmul (padd (pmul pXNum (pmul pXNum pXNum))
      (pmul [(4, 4)] (pmul pXDen (pmul pXDen pXDen)))) (pmul pYDen pYDen) := by
  decide +kernel

/-- the identity behind the isogeny -/
theorem iso_identity (x : E2 Fp) :
    Rfc.g x * Rfc.isoYNum x ^ 2 * Rfc.isoXDen x ^ 3 =
      (Rfc.isoXNum x ^ 3 + 4 * E2.xi * Rfc.isoXDen x ^ 3) * Rfc.isoYDen x ^ 2 := by
  have h := congrArg (fun l => pev l x) iso_poly
  simp only [pev_pmul, pev_padd] at h
  rw [← g_pev, ynum_rfc, xden_rfc, xnum_rfc, yden_rfc] at h
  have h4 : pev [(4, 4)] x = 4 * E2.xi := by
    simp only [pev_cons, pev_nil, mul_zero, add_zero]
    rw [e2_lit]
    ext <;> simp [A0_four, A1_four]
  rw [h4] at h
  linear_combination h

/-- `x₀ = -6 + 6u`, the pole of the isogeny -/
def pole : E2 Fp := ⟨-6, 6⟩

theorem cast_p : (4002409555221667393417789825735904156556882819939007885332058136124031650490837864442687629129015664037894272559787 : Fp) = 0 := by
  have := ZMod.natCast_self fpOrder
  rw [← this]; rfl

theorem xden_factor (x : E2 Fp) : Rfc.isoXDen x = (x - pole) ^ 2 := by
  rw [Rfc.isoXDen, pole]
  have h := cast_p
  ext
  · simp [pow_two]; linear_combination (-x.A1) * h
  · simp [pow_two]; linear_combination (x.A0 + 1) * h

theorem yden_factor (x : E2 Fp) : Rfc.isoYDen x = (x - pole) ^ 3 := by
  rw [Rfc.isoYDen, pole]
  have h := cast_p
  ext
  · simp [pow_succ]; linear_combination (-2 * x.A0 * x.A1 - x.A1 + 1) * h
  · simp [pow_succ]; linear_combination (x.A0 * x.A0 - x.A1 * x.A1 + x.A0 + 1) * h

theorem g_pole : Rfc.g pole = 4 * E2.xi := by
  rw [Rfc.g, pole, Rfc.isoA, Rfc.isoB]
  ext <;> simp [pow_succ, A0_four, A1_four] <;> norm_num

theorem four_ne : (4 : E2 Fp) ≠ 0 := by
  have : (4 : E2 Fp) = e2 (4, 0) := by rfl
  rw [this]; exact e2_nz (by decide +kernel)
theorem two_ne : (2 : E2 Fp) ≠ 0 := by
  have : (2 : E2 Fp) = e2 (2, 0) := by rfl
  rw [this]; exact e2_nz (by decide +kernel)

/-- the pole is not the abscissa of a point -/
theorem ne_pole {x y : E2 Fp} (h : y ^ 2 = Rfc.g x) : x ≠ pole := by
  rintro rfl
  rw [g_pole] at h
  refine TowerField.xi_not_sq (y / 2) ?_
  have := two_ne
  field_simp
  linear_combination h

theorem xden_ne {x : E2 Fp} (h : x ≠ pole) : Rfc.isoXDen x ≠ 0 := by
  rw [xden_factor]; exact pow_ne_zero _ (sub_ne_zero.2 h)
theorem yden_ne {x : E2 Fp} (h : x ≠ pole) : Rfc.isoYDen x ≠ 0 := by
  rw [yden_factor]; exact pow_ne_zero _ (sub_ne_zero.2 h)

/-- the isogeny sends curve points to the twist -/
theorem iso_on_twist {x y : E2 Fp} (h : y ^ 2 = Rfc.g x) :
    Rfc.isoMapY x y ^ 2 = Rfc.isoMapX x ^ 3 + 4 * E2.xi := by
  have hp := ne_pole h
  have hx := xden_ne hp
  have hy := yden_ne hp
  have hi := iso_identity x
  rw [Rfc.isoMapX, Rfc.isoMapY]
  field_simp
  rw [h]
  linear_combination hi

theorem g2Isogeny_eq {p : G2Affine Fp} (h : p.X ≠ pole) :
    g2Isogeny p = pure ⟨Rfc.isoMapX p.X, Rfc.isoMapY p.X p.Y⟩ := by
  simp only [g2Isogeny, xden_pev, yden_pev, xnum_pev, ynum_pev, xden_rfc, yden_rfc, xnum_rfc, ynum_rfc]
  rw [Ext2.inverseLc_eq (yden_ne h), pure_bind, Ext2.inverseLc_eq (xden_ne h), pure_bind]
  have h1 : Ext2.mul (Rfc.isoXNum p.X) (Rfc.isoXDen p.X)⁻¹ = Rfc.isoMapX p.X := by
    rw [Ext2.mul_eq, Rfc.isoMapX, div_eq_mul_inv]
  have h2 : Ext2.mul (Rfc.isoYNum p.X * p.Y) (Rfc.isoYDen p.X)⁻¹ = Rfc.isoMapY p.X p.Y := by
    rw [Ext2.mul_eq, Rfc.isoMapY]; ring
  rw [h1, h2]

/-- at the pole there is no assignment -/
theorem g2Isogeny_pole (y : E2 Fp) : g2Isogeny ⟨pole, y⟩ = fail := by
  simp only [g2Isogeny, xden_pev, yden_pev, xden_rfc, yden_rfc, yden_factor, sub_self]
  rw [zero_pow (by norm_num), Ext2.inverseLc_zero, fail_bind]

/-! ### no 2-torsion on the isogenous curve -/

theorem neg_four_xi : (-(4 * E2.xi) : E2 Fp) = toE2 fpOrder (fpOrder - 4, fpOrder - 4) := by
  have h4 : (4 : ℕ) ≤ fpOrder := by decide +kernel
  rw [toE2_eq, Nat.cast_sub h4]
  ext <;> simp [A0_four, A1_four]

theorem neg_four_xi_check :
    pow2 fpOrder (fpOrder - 4, fpOrder - 4) ((fpOrder ^ 2 - 1) / 3) ≠ (1, 0) := by decide +kernel

theorem E2.pow_card_sub_one {a : E2 Fp} (ha : a ≠ 0) : a ^ (fpOrder ^ 2 - 1) = 1 := by
  have h2 := E2.frob2 a
  have hpos : 0 < fpOrder ^ 2 := pow_pos fpOrder_pos 2
  have : a ^ (fpOrder ^ 2 - 1) * a = 1 * a := by
    rw [← pow_succ, Nat.sub_add_cancel hpos, h2, one_mul]
  exact mul_right_cancel₀ ha this

theorem neg_four_xi_not_cube (a : E2 Fp) : a ^ 3 ≠ -(4 * E2.xi) := by
  intro h
  have h0 : (-(4 * E2.xi) : E2 Fp) ≠ 0 := neg_ne_zero.2 (mul_ne_zero four_ne (by
    intro h; have := congrArg E2.A0 h; simp at this))
  have ha : a ≠ 0 := by
    rintro rfl
    rw [zero_pow (by norm_num)] at h
    exact h0 h.symm
  have hdvd : (fpOrder ^ 2 - 1) = 3 * ((fpOrder ^ 2 - 1) / 3) := by decide +kernel
  have h1 : (-(4 * E2.xi) : E2 Fp) ^ ((fpOrder ^ 2 - 1) / 3) = 1 := by
    rw [← h, ← pow_mul, ← hdvd, E2.pow_card_sub_one ha]
  rw [neg_four_xi] at h1
  have hp := toE2_pow2 (ℓ := fpOrder) (dvd_refl _) fpOrder_pos (fpOrder - 4, fpOrder - 4)
    ((fpOrder ^ 2 - 1) / 3) (by decide +kernel)
  have e1 : toE2 fpOrder (1, 0) = 1 := by ext <;> simp [toE2]
  rw [h1, ← e1] at hp
  have h1lt : 1 < fpOrder := fact_fp.out.one_lt
  exact neg_four_xi_check (toE2_inj
    (pow2_lt _ fpOrder_pos _ _ _ _ h1lt fpOrder_pos) ⟨h1lt, fpOrder_pos⟩ hp)

theorem g_ne_zero (x : E2 Fp) : Rfc.g x ≠ 0 := by
  intro h
  have hp : x ≠ pole := ne_pole (y := 0) (by rw [h]; ring)
  have hx := xden_ne hp
  have hy := yden_ne hp
  have hi := iso_identity x
  rw [h, zero_mul, zero_mul] at hi
  have h2 := (mul_eq_zero.1 hi.symm).resolve_right (pow_ne_zero _ hy)
  refine neg_four_xi_not_cube (Rfc.isoXNum x / Rfc.isoXDen x) ?_
  rw [div_pow, div_eq_iff (pow_ne_zero _ hx)]
  linear_combination h2

end Spark.G2
