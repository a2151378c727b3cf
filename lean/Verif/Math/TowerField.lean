import Verif.Math.Tower6
import Mathlib.Tactic.FieldSimp
import Mathlib.Tactic.LinearCombination
import Mathlib.Algebra.Field.Basic
import Mathlib.Algebra.Field.Rat

/-! The tower rings are fields as soon as `-1` is not a square in `K` and `ξ = 1+u` is neither a
square nor a cube in `K[u]/(u²+1)`. -/

namespace Spark

/-- Conditions making `E2 K`, `E6 K`, `E12 K` fields; proved for the BLS12-381 base field in
`Verif/Math/Fp.lean`. -/
class TowerField (K : Type) [Field K] : Prop where
  neg_one_not_sq : ∀ a : K, a * a ≠ -1
  xi_not_sq : ∀ a : E2 K, a * a ≠ E2.xi
  xi_not_cube : ∀ a : E2 K, a ^ 3 ≠ E2.xi

/-- A field structure from a commutative ring with an inverse. -/
@[instance_reducible]
def mkField {A : Type} [CommRing A] [Nontrivial A] (inv : A → A)
    (h : ∀ x : A, x ≠ 0 → x * inv x = 1) (h0 : inv 0 = 0) : Field A where
  __ := (‹CommRing A› :)
  inv := inv
  exists_pair_ne := exists_pair_ne _
  mul_inv_cancel := h
  inv_zero := h0
  nnqsmul := _
  nnqsmul_def := fun _ _ => rfl
  qsmul := _
  qsmul_def := fun _ _ => rfl

variable {K : Type} [Field K] [TowerField K]

namespace E2

theorem norm_eq_zero {x : E2 K} : norm x = 0 ↔ x = 0 := by
  constructor
  · intro h
    by_cases h1 : x.A1 = 0
    · have : x.A0 * x.A0 = 0 := by simpa [norm, h1] using h
      ext
      · simpa using this
      · simpa using h1
    · exfalso
      refine TowerField.neg_one_not_sq (x.A0 / x.A1) ?_
      field_simp
      simp only [norm] at h
      linear_combination h
  · rintro rfl; simp [norm]

/-- the inverse: conjugate or adjugate divided by the norm -/
def inv' (x : E2 K) : E2 K := of (norm x)⁻¹ * conj x

theorem mul_inv' (x : E2 K) (hx : x ≠ 0) : x * inv' x = 1 := by
  have hn : norm x ≠ 0 := fun h => hx (norm_eq_zero.1 h)
  rw [inv', mul_left_comm, mul_conj, ← of_mul, inv_mul_cancel₀ hn, of_one]

instance instField : Field (E2 K) := mkField inv' mul_inv' (by rw [inv']; ext <;> simp)

theorem inv_def (x : E2 K) : x⁻¹ = of (norm x)⁻¹ * conj x := rfl
end E2

namespace E6

theorem norm_eq_zero {x : E6 K} : norm x = 0 ↔ x = 0 := by
  constructor
  · intro h
    by_cases h2 : x.B2 = 0
    · have hh : x.B0 ^ 3 + E2.xi * x.B1 ^ 3 = 0 := by
        simp only [norm, h2] at h; linear_combination h
      by_cases h1 : x.B1 = 0
      · have : x.B0 ^ 3 = 0 := by simpa [h1] using hh
        ext1
        · simpa using this
        · simpa using h1
        · simpa using h2
      · exfalso
        refine TowerField.xi_not_cube (-(x.B0 / x.B1)) ?_
        field_simp
        linear_combination -hh
    · exfalso
      have key : (E2.xi * x.B2 ^ 2 - x.B0 * x.B1) ^ 3 + E2.xi * (x.B0 * x.B2 - x.B1 ^ 2) ^ 3 = 0 := by
        have : (E2.xi * x.B2 ^ 2 - x.B0 * x.B1) ^ 3 + E2.xi * (x.B0 * x.B2 - x.B1 ^ 2) ^ 3
          = norm x * (E2.xi * x.B2 ^ 3 - x.B1 ^ 3) := by simp only [norm]; ring
        rw [this, h, zero_mul]
      have hb1 : x.B0 * x.B2 - x.B1 ^ 2 = 0 := by
        by_contra hb
        generalize x.B0 * x.B2 - x.B1 ^ 2 = b at *
        generalize E2.xi * x.B2 ^ 2 - x.B0 * x.B1 = a at *
        refine TowerField.xi_not_cube (-(a / b)) ?_
        field_simp
        linear_combination -key
      have hb0 : E2.xi * x.B2 ^ 2 - x.B0 * x.B1 = 0 := by
        rw [hb1] at key; simpa using key
      refine TowerField.xi_not_cube (x.B1 / x.B2) ?_
      field_simp
      linear_combination -x.B1 * hb1 - x.B2 * hb0
  · rintro rfl; simp [norm]

/-- the inverse: conjugate or adjugate divided by the norm -/
def inv' (x : E6 K) : E6 K := of (norm x)⁻¹ * adj x

theorem mul_inv' (x : E6 K) (hx : x ≠ 0) : x * inv' x = 1 := by
  have hn : norm x ≠ 0 := fun h => hx (norm_eq_zero.1 h)
  rw [inv', mul_left_comm, mul_adj, ← of_mul, inv_mul_cancel₀ hn, of_one]

instance instField : Field (E6 K) := mkField inv' mul_inv' (by rw [inv']; ext1 <;> simp [adj])

theorem inv_def (x : E6 K) : x⁻¹ = of (norm x)⁻¹ * adj x := rfl

/-- `v` is not a square in `E6`. -/
theorem v_not_sq (a : E6 K) : a * a ≠ v := by
  intro h
  have := congrArg norm h
  rw [norm_mul] at this
  refine TowerField.xi_not_sq (norm a) (this.trans ?_)
  simp [norm]

end E6

namespace E12

theorem norm_eq_zero {x : E12 K} : norm x = 0 ↔ x = 0 := by
  constructor
  · intro h
    by_cases h1 : x.C1 = 0
    · have : x.C0 * x.C0 = 0 := by simpa [norm, h1] using h
      ext1
      · simpa using this
      · simpa using h1
    · exfalso
      refine E6.v_not_sq (x.C0 / x.C1) ?_
      field_simp
      simp only [norm] at h
      linear_combination h
  · rintro rfl; simp [norm]

/-- the inverse: conjugate or adjugate divided by the norm -/
def inv' (x : E12 K) : E12 K := of (norm x)⁻¹ * conj x

theorem mul_inv' (x : E12 K) (hx : x ≠ 0) : x * inv' x = 1 := by
  have hn : norm x ≠ 0 := fun h => hx (norm_eq_zero.1 h)
  rw [inv', mul_left_comm, mul_conj, ← of_mul, inv_mul_cancel₀ hn, of_one]

instance instField : Field (E12 K) := mkField inv' mul_inv' (by rw [inv']; ext1 <;> simp)

theorem inv_def (x : E12 K) : x⁻¹ = of (norm x)⁻¹ * conj x := rfl

end E12
end Spark
