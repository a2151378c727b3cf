import Verif.Lemmas.NonResidue

/-!
# Properties C24-C30: the extension fields of `tower.go`

Specification: the schoolbook rings `E2 = Fp[u]/(u²+1)`, `E6 = E2[v]/(v³-(1+u))`,
`E12 = E6[w]/(w²-v)` of `Verif/Math/Tower.lean` and `Tower6.lean` (proved to be fields).
Names `Ext2.*`, `Ext6.*`, `Ext12.*` are the modelled Go methods.
A circuit fragment equal to `pure a` is satisfiable, is solved by the honest prover, and has the
output `a` in every satisfying assignment; a fragment equal to `fail` has no satisfying assignment.
-/

namespace Spark.TowerProps
open Spark Circ
set_option maxRecDepth 100000

/-! ## C24 -/

theorem c24_add (x y : E2 Fp) : Ext2.add x y = x + y := Ext2.add_eq x y
theorem c24_sub (x y : E2 Fp) : Ext2.sub x y = x - y := Ext2.sub_eq x y
theorem c24_neg (x : E2 Fp) : Ext2.neg x = -x := Ext2.neg_eq x
theorem c24_double (x : E2 Fp) : Ext2.double x = x + x := by rw [Ext2.double_eq, two_mul]
theorem c24_mul (x y : E2 Fp) : Ext2.mul x y = x * y := Ext2.mul_eq x y
theorem c24_square (x : E2 Fp) : Ext2.square x = x ^ 2 := by rw [Ext2.square_eq, pow_two]
theorem c24_mulByElement (x : E2 Fp) (c : Fp) : Ext2.mulByElement x c = x * E2.of c :=
  Ext2.mulByElement_eq x c
theorem c24_mulByConstElement (x : E2 Fp) (c : ℤ) : Ext2.mulByConstElement x c = c • x := by
  rw [Ext2.mulByConstElement_eq, zsmul_eq_mul]
theorem c24_mulByNonResidue (x : E2 Fp) : Ext2.mulByNonResidue x = x * (1 + E2.u) := by
  rw [Ext2.mulByNonResidue_eq, E2.xi_eq, mul_comm]
/-- `Conjugate` is the `p`-power map. -/
theorem c24_conjugate (x : E2 Fp) : Ext2.conjugate x = x ^ fpOrder := (E2.frob x).symm
theorem c24_constants : (Ext2.one : E2 Fp) = 1 ∧ (Ext2.zero : E2 Fp) = 0 ∧
    (Ext2.nonResidue : E2 Fp) = 1 + E2.u := ⟨rfl, rfl, by rw [Ext2.nonResidue_eq, E2.xi_eq]⟩
theorem c24_isZero (x : E2 Fp) : Ext2.isZero x = pure (if x = 0 then 1 else 0) := by
  rw [Ext2.isZero_eq]; by_cases h : x = 0 <;> simp [h]
theorem c24_select (x y : E2 Fp) :
    Ext2.select 1 x y = pure x ∧ Ext2.select 0 x y = pure y :=
  ⟨Ext2.select_eq true x y, Ext2.select_eq false x y⟩
theorem c24_select_nonbool (s : Fr) (h0 : s ≠ 0) (h1 : s ≠ 1) (x y : E2 Fp) :
    Ext2.select s x y = fail := by
  rw [Ext2.select, fpSelect_nonbool s (fun b => by cases b <;> assumption), fail_bind]
theorem c24_lookup2 (a b c d : E2 Fp) :
    Ext2.lookup2 0 0 a b c d = pure a ∧ Ext2.lookup2 1 0 a b c d = pure b ∧
    Ext2.lookup2 0 1 a b c d = pure c ∧ Ext2.lookup2 1 1 a b c d = pure d :=
  ⟨Ext2.lookup2_eq false false a b c d, Ext2.lookup2_eq true false a b c d,
   Ext2.lookup2_eq false true a b c d, Ext2.lookup2_eq true true a b c d⟩
theorem c24_assertIsEqual (x y : E2 Fp) : (Ext2.assertIsEqual x y).Satisfiable ↔ x = y := by
  rw [Ext2.assertIsEqual_eq]; exact ⟨fun ⟨_, h⟩ => h, fun h => ⟨(), h⟩⟩

/-- A concrete product: `(1+2u)(3+4u) = -5+10u`. -/
example : Ext2.mul (⟨1, 2⟩ : E2 Fp) ⟨3, 4⟩ = ⟨-5, 10⟩ := by
  rw [c24_mul]; ext <;> simp <;> norm_num
/-- A selector that is not boolean exists (hypotheses of `c24_select_nonbool`). -/
example : ∃ s : Fr, s ≠ 0 ∧ s ≠ 1 := ⟨2, by decide +kernel, by decide +kernel⟩

/-! ## C25 -/

theorem c25_add (x y : E6 Fp) : Ext6.add x y = x + y := Ext6.add_eq x y
theorem c25_sub (x y : E6 Fp) : Ext6.sub x y = x - y := Ext6.sub_eq x y
theorem c25_neg (x : E6 Fp) : Ext6.neg x = -x := Ext6.neg_eq x
theorem c25_double (x : E6 Fp) : Ext6.double x = x + x := by rw [Ext6.double_eq, two_mul]
theorem c25_mul (x y : E6 Fp) : Ext6.mul x y = x * y := Ext6.mul_eq x y
theorem c25_square (x : E6 Fp) : Ext6.square x = x ^ 2 := by rw [Ext6.square_eq, pow_two]
theorem c25_mulByE2 (x : E6 Fp) (c : E2 Fp) : Ext6.mulByE2 x c = x * E6.of c := Ext6.mulByE2_eq x c
theorem c25_mulBy0 (x : E6 Fp) (c : E2 Fp) : Ext6.mulBy0 x c = x * E6.of c := Ext6.mulBy0_eq x c
theorem c25_mulBy01 (x : E6 Fp) (c0 c1 : E2 Fp) :
    Ext6.mulBy01 x c0 c1 = x * (E6.of c0 + E6.of c1 * E6.v) := by
  rw [Ext6.mulBy01_eq]; congr 1; ext1 <;> simp
theorem c25_mulBy12 (x : E6 Fp) (c1 c2 : E2 Fp) :
    Ext6.mulBy12 x c1 c2 = x * (E6.of c1 * E6.v + E6.of c2 * E6.v ^ 2) := by
  rw [Ext6.mulBy12_eq, pow_two]; congr 1; ext1 <;> simp
theorem c25_mulByNonResidue (x : E6 Fp) : Ext6.mulByNonResidue x = x * E6.v := by
  rw [Ext6.mulByNonResidue_eq, mul_comm]
theorem c25_constants : (Ext6.one : E6 Fp) = 1 ∧ (Ext6.zero : E6 Fp) = 0 := ⟨rfl, rfl⟩
theorem c25_isZero (x : E6 Fp) : Ext6.isZero x = pure (if x = 0 then 1 else 0) := by
  rw [Ext6.isZero_eq]; by_cases h : x = 0 <;> simp [h]
theorem c25_select (x y : E6 Fp) :
    Ext6.select 1 x y = pure x ∧ Ext6.select 0 x y = pure y :=
  ⟨Ext6.select_eq true x y, Ext6.select_eq false x y⟩
theorem c25_lookup2 (a b c d : E6 Fp) :
    Ext6.lookup2 0 0 a b c d = pure a ∧ Ext6.lookup2 1 0 a b c d = pure b ∧
    Ext6.lookup2 0 1 a b c d = pure c ∧ Ext6.lookup2 1 1 a b c d = pure d :=
  ⟨Ext6.lookup2_eq false false a b c d, Ext6.lookup2_eq true false a b c d,
   Ext6.lookup2_eq false true a b c d, Ext6.lookup2_eq true true a b c d⟩
theorem c25_assertIsEqual (x y : E6 Fp) : (Ext6.assertIsEqual x y).Satisfiable ↔ x = y := by
  rw [Ext6.assertIsEqual_eq]; exact ⟨fun ⟨_, h⟩ => h, fun h => ⟨(), h⟩⟩

/-- `v²·v² = (1+u)·v` -/
example : Ext6.mul (⟨0, 0, 1⟩ : E6 Fp) ⟨0, 0, 1⟩ = ⟨0, E2.xi, 0⟩ := by
  rw [c25_mul]; ext1 <;> simp

/-! ## C26 -/

theorem c26_add (x y : E12 Fp) : Ext12.add x y = x + y := Ext12.add_eq x y
theorem c26_sub (x y : E12 Fp) : Ext12.sub x y = x - y := Ext12.sub_eq x y
theorem c26_mul (x y : E12 Fp) : Ext12.mul x y = x * y := Ext12.mul_eq x y
theorem c26_square (x : E12 Fp) : Ext12.square x = x ^ 2 := by rw [Ext12.square_eq, pow_two]
/-- `Conjugate` is the `p⁶`-power map. -/
theorem c26_conjugate (x : E12 Fp) : Ext12.conjugate x = x ^ fpOrder ^ 6 := by
  rw [E12.frob6]; rfl
theorem c26_constants : (Ext12.one : E12 Fp) = 1 ∧ (Ext12.zero : E12 Fp) = 0 := ⟨rfl, rfl⟩
theorem c26_isZero (x : E12 Fp) : Ext12.isZero x = pure (if x = 0 then 1 else 0) := by
  rw [Ext12.isZero_eq]; by_cases h : x = 0 <;> simp [h]
theorem c26_select (x y : E12 Fp) :
    Ext12.select 1 x y = pure x ∧ Ext12.select 0 x y = pure y :=
  ⟨Ext12.select_eq true x y, Ext12.select_eq false x y⟩
theorem c26_lookup2 (a b c d : E12 Fp) :
    Ext12.lookup2 0 0 a b c d = pure a ∧ Ext12.lookup2 1 0 a b c d = pure b ∧
    Ext12.lookup2 0 1 a b c d = pure c ∧ Ext12.lookup2 1 1 a b c d = pure d :=
  ⟨Ext12.lookup2_eq false false a b c d, Ext12.lookup2_eq true false a b c d,
   Ext12.lookup2_eq false true a b c d, Ext12.lookup2_eq true true a b c d⟩
theorem c26_assertIsEqual (x y : E12 Fp) : (Ext12.assertIsEqual x y).Satisfiable ↔ x = y := by
  rw [Ext12.assertIsEqual_eq]; exact ⟨fun ⟨_, h⟩ => h, fun h => ⟨(), h⟩⟩

/-- `w·w = v` -/
example : Ext12.mul (⟨0, 1⟩ : E12 Fp) ⟨0, 1⟩ = ⟨E6.v, 0⟩ := by
  rw [c26_mul]; ext1 <;> simp

/-! ## C27 -/

/-- the sparse element `(c0, c1, 0; 0, 1, 0)` as a polynomial in `v`, `w` -/
def line (c0 c1 : E2 Fp) : E12 Fp :=
  E12.of (E6.of c0) + E12.of (E6.of c1 * E6.v) + E12.of E6.v * E12.w

/-- the sparse element `(x0, x1, x2; 0, x3, x4)` as a polynomial in `v`, `w` -/
def line2 (x0 x1 x2 x3 x4 : E2 Fp) : E12 Fp :=
  E12.of (E6.of x0 + E6.of x1 * E6.v + E6.of x2 * E6.v ^ 2) +
    E12.of (E6.of x3 * E6.v + E6.of x4 * E6.v ^ 2) * E12.w

theorem line_eq (c0 c1 : E2 Fp) : line c0 c1 = Ext12.sparse014 c0 c1 := by
  ext1 <;> ext1 <;> simp [line, Ext12.sparse014]

theorem line2_eq (x : E2 Fp × E2 Fp × E2 Fp × E2 Fp × E2 Fp) :
    line2 x.1 x.2.1 x.2.2.1 x.2.2.2.1 x.2.2.2.2 = Ext12.sparse01245 x := by
  ext1 <;> ext1 <;> simp [line2, Ext12.sparse01245, pow_two]

theorem c27_mulBy014 (z : E12 Fp) (c0 c1 : E2 Fp) :
    Ext12.mulBy014 z c0 c1 = z * line c0 c1 := by
  rw [line_eq, Ext12.mulBy014_eq]

theorem c27_mul014By014 (d0 d1 c0 c1 : E2 Fp) :
    ∃ x0 x1 x2 x3 x4, Ext12.mul014By014 d0 d1 c0 c1 = (x0, x1, x2, x3, x4) ∧
      line2 x0 x1 x2 x3 x4 = line d0 d1 * line c0 c1 := by
  refine ⟨_, _, _, _, _, rfl, ?_⟩
  rw [line_eq, line_eq, ← Ext12.mul014By014_eq]
  exact line2_eq (Ext12.mul014By014 d0 d1 c0 c1)

theorem c27_mulBy01245 (z : E12 Fp) (x0 x1 x2 x3 x4 : E2 Fp) :
    Ext12.mulBy01245 z (x0, x1, x2, x3, x4) = z * line2 x0 x1 x2 x3 x4 := by
  rw [Ext12.mulBy01245_eq]
  exact congrArg (z * ·) (line2_eq (x0, x1, x2, x3, x4)).symm

example : line (0 : E2 Fp) 0 ≠ 0 := by
  intro h
  have := congrArg (fun z => z.C1.B1.A0) h
  simp [line] at this

/-! ## C28 -/

theorem c28_e2_inverse (x : E2 Fp) :
    (x ≠ 0 → Ext2.inverse x = pure x⁻¹) ∧ (x = 0 → ¬ (Ext2.inverse x).Satisfiable) :=
  ⟨Ext2.inverse_eq, fun h => by rw [h, not_satisfiable_iff, Ext2.inverse_zero]⟩
theorem c28_e6_inverse (x : E6 Fp) :
    (x ≠ 0 → Ext6.inverse x = pure x⁻¹) ∧ (x = 0 → ¬ (Ext6.inverse x).Satisfiable) :=
  ⟨Ext6.inverse_eq, fun h => by rw [h, not_satisfiable_iff, Ext6.inverse_zero]⟩
theorem c28_e12_inverse (x : E12 Fp) :
    (x ≠ 0 → Ext12.inverse x = pure x⁻¹) ∧ (x = 0 → ¬ (Ext12.inverse x).Satisfiable) :=
  ⟨Ext12.inverse_eq, fun h => by rw [h, not_satisfiable_iff, Ext12.inverse_zero]⟩

theorem c28_e2_div (x y : E2 Fp) :
    (y ≠ 0 → Ext2.divUnchecked x y = pure (x / y)) ∧
    (y = 0 → x ≠ 0 → ¬ (Ext2.divUnchecked x y).Satisfiable) :=
  ⟨fun h => Ext2.divUnchecked_eq h x,
   fun h hx => by rw [h, not_satisfiable_iff, Ext2.divUnchecked_fail hx]⟩
theorem c28_e6_div (x y : E6 Fp) :
    (y ≠ 0 → Ext6.divUnchecked x y = pure (x / y)) ∧
    (y = 0 → x ≠ 0 → ¬ (Ext6.divUnchecked x y).Satisfiable) :=
  ⟨fun h => Ext6.divUnchecked_eq h x,
   fun h hx => by rw [h, not_satisfiable_iff, Ext6.divUnchecked_fail hx]⟩
theorem c28_e12_div (x y : E12 Fp) :
    (y ≠ 0 → Ext12.divUnchecked x y = pure (x / y)) ∧
    (y = 0 → x ≠ 0 → ¬ (Ext12.divUnchecked x y).Satisfiable) :=
  ⟨fun h => Ext12.divUnchecked_eq h x,
   fun h hx => by rw [h, not_satisfiable_iff, Ext12.divUnchecked_fail hx]⟩

/-- The checked division `Ext2.Div` and the lower-case `ext2.Inverse`. -/
theorem c28_e2_checked_div (x y : E2 Fp) :
    (y ≠ 0 → Ext2.div x y = pure (x / y)) ∧ (y = 0 → ¬ (Ext2.div x y).Satisfiable) :=
  ⟨fun h => Ext2.div_eq h x, fun h => by rw [h, not_satisfiable_iff, Ext2.div_zero]⟩
theorem c28_e2_inverse_lowercase (x : E2 Fp) :
    (x ≠ 0 → Ext2.inverseLc x = pure x⁻¹) ∧ (x = 0 → ¬ (Ext2.inverseLc x).Satisfiable) :=
  ⟨Ext2.inverseLc_eq, fun h => by rw [h, not_satisfiable_iff, Ext2.inverseLc_zero]⟩

/-- The field inverse used in these statements is a genuine inverse. -/
theorem c28_inverse_is_inverse (x : E2 Fp) (y : E6 Fp) (z : E12 Fp) :
    (x ≠ 0 → x * x⁻¹ = 1) ∧ (y ≠ 0 → y * y⁻¹ = 1) ∧ (z ≠ 0 → z * z⁻¹ = 1) :=
  ⟨mul_inv_cancel₀, mul_inv_cancel₀, mul_inv_cancel₀⟩

example : Ext12.inverse (E12.w : E12 Fp) = pure (E12.w)⁻¹ :=
  (c28_e12_inverse _).1 fun h => by simpa using congrArg (fun z => z.C1.B0.A0) h

/-! ## C29 -/

/-- In `0/0` the prover may return anything, while the honest solver returns `0`. -/
theorem c29_zero_div_zero :
    ((Ext2.divUnchecked (0 : E2 Fp) 0).run = some 0 ∧ ∀ z, (Ext2.divUnchecked (0 : E2 Fp) 0).sat z) ∧
    ((Ext6.divUnchecked (0 : E6 Fp) 0).run = some 0 ∧ ∀ z, (Ext6.divUnchecked (0 : E6 Fp) 0).sat z) ∧
    ((Ext12.divUnchecked (0 : E12 Fp) 0).run = some 0 ∧
      ∀ z, (Ext12.divUnchecked (0 : E12 Fp) 0).sat z) := by
  refine ⟨⟨?_, fun z => ?_⟩, ⟨?_, fun z => ?_⟩, ⟨?_, fun z => ?_⟩⟩
  · simp [Ext2.divUnchecked, tower]
  · rw [Ext2.sat_divUnchecked, mul_zero]
  · simp [Ext6.divUnchecked, tower]
  · rw [Ext6.sat_divUnchecked, mul_zero]
  · simp [Ext12.divUnchecked, tower]
  · rw [Ext12.sat_divUnchecked, mul_zero]

/-! ## C30 -/

/-- `MulByNonResidue1Power{i}(x) = x·(1+u)^(i(p-1)/6)`. -/
theorem c30_power1 (x : E2 Fp) :
    Ext2.mulByNonResidue1Power1 x = some (x * (1 + E2.u) ^ (1 * (fpOrder ^ 1 - 1) / 6)) ∧
    Ext2.mulByNonResidue1Power2 x = x * (1 + E2.u) ^ (2 * (fpOrder ^ 1 - 1) / 6) ∧
    Ext2.mulByNonResidue1Power3 x = some (x * (1 + E2.u) ^ (3 * (fpOrder ^ 1 - 1) / 6)) ∧
    Ext2.mulByNonResidue1Power4 x = x * (1 + E2.u) ^ (4 * (fpOrder ^ 1 - 1) / 6) ∧
    Ext2.mulByNonResidue1Power5 x = some (x * (1 + E2.u) ^ (5 * (fpOrder ^ 1 - 1) / 6)) := by
  rw [← E2.xi_eq]
  refine ⟨?_, ?_, ?_, ?_, ?_⟩
  · rw [Ext2.mulByNonResidue1Power1, Ext2.mulByNonResidueGeneric, Ext2.nonResidues_1_1,
      Option.map_some, Ext2.mul_eq]
  · rw [Ext2.xi_1_2]; ext <;> simp [Ext2.mulByNonResidue1Power2]
  · rw [Ext2.mulByNonResidue1Power3, Ext2.mulByNonResidueGeneric, Ext2.nonResidues_1_3,
      Option.map_some, Ext2.mul_eq]
  · rw [Ext2.xi_1_4]; ext <;> simp [Ext2.mulByNonResidue1Power4]
  · rw [Ext2.mulByNonResidue1Power5, Ext2.mulByNonResidueGeneric, Ext2.nonResidues_1_5,
      Option.map_some, Ext2.mul_eq]

/-- `MulByNonResidue2Power{i}(x) = x·(1+u)^(i(p²-1)/6)`. -/
theorem c30_power2 (x : E2 Fp) :
    Ext2.mulByNonResidue2Power1 x = x * (1 + E2.u) ^ (1 * (fpOrder ^ 2 - 1) / 6) ∧
    Ext2.mulByNonResidue2Power2 x = x * (1 + E2.u) ^ (2 * (fpOrder ^ 2 - 1) / 6) ∧
    Ext2.mulByNonResidue2Power3 x = x * (1 + E2.u) ^ (3 * (fpOrder ^ 2 - 1) / 6) ∧
    Ext2.mulByNonResidue2Power4 x = x * (1 + E2.u) ^ (4 * (fpOrder ^ 2 - 1) / 6) ∧
    Ext2.mulByNonResidue2Power5 x = x * (1 + E2.u) ^ (5 * (fpOrder ^ 2 - 1) / 6) := by
  rw [← E2.xi_eq]
  refine ⟨?_, ?_, ?_, ?_, ?_⟩
  · rw [Ext2.xi_2_1]; ext <;> simp [Ext2.mulByNonResidue2Power1]
  · rw [Ext2.xi_2_2]; ext <;> simp [Ext2.mulByNonResidue2Power2]
  · rw [Ext2.xi_2_3]; ext <;> simp [Ext2.mulByNonResidue2Power3]
  · rw [Ext2.xi_2_4]; ext <;> simp [Ext2.mulByNonResidue2Power4]
  · rw [Ext2.xi_2_5]; ext <;> simp [Ext2.mulByNonResidue2Power5]

end Spark.TowerProps
