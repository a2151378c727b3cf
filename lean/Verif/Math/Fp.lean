import Verif.Math.Primes
import Verif.Math.TowerField
import Mathlib.NumberTheory.LegendreSymbol.Basic
import Mathlib.NumberTheory.LegendreSymbol.QuadraticReciprocity

/-! The BLS12-381 base field satisfies `TowerField`; Frobenius on the tower. -/

namespace Spark
set_option maxRecDepth 100000

/-- The BN254 scalar field (native field of the circuits). -/
abbrev Fr := ZMod frOrder
/-- The BLS12-381 base field. -/
abbrev Fp := ZMod fpOrder

theorem fpOrder_mod8 : fpOrder % 8 = 3 := by decide +kernel
theorem fpOrder_mod4 : fpOrder % 4 = 3 := by decide +kernel
theorem fpOrder_ne_two : fpOrder ≠ 2 := by decide +kernel
theorem fpOrder_pos : 0 < fpOrder := fact_fp.out.pos

theorem fp_neg_one_not_sq (a : Fp) : a * a ≠ -1 := by
  intro h
  have : IsSquare (-1 : Fp) := ⟨a, h.symm⟩
  rw [ZMod.exists_sq_eq_neg_one_iff] at this
  exact this fpOrder_mod4

theorem fp_two_not_sq (a : Fp) : a * a ≠ 2 := by
  intro h
  have : IsSquare (2 : Fp) := ⟨a, h.symm⟩
  rw [ZMod.exists_sq_eq_two_iff fpOrder_ne_two, fpOrder_mod8] at this
  omega

/-- The `p`-power Frobenius of `E2` is conjugation. -/
theorem E2.frob (x : E2 Fp) : x ^ fpOrder = E2.conj x := by
  rw [E2.frob_zmod fpOrder_ne_two, if_neg (by rw [fpOrder_mod4]; decide)]

theorem E2.frob2 (x : E2 Fp) : x ^ (fpOrder ^ 2) = x := by
  rw [pow_two, pow_mul, E2.frob, E2.frob, E2.conj_conj]

theorem xi_not_cube_check :
    pow2 fpOrder (1, 1) ((fpOrder ^ 2 - 1) / 3) ≠ (1, 0) := by decide +kernel

theorem fpOrder_lt : fpOrder < 2 ^ 381 := by decide +kernel

theorem pow2_lt (n : ℕ) (hn : 0 < n) : ∀ (f : ℕ) (x : ℕ × ℕ) (e : ℕ) (acc : ℕ × ℕ),
    acc.1 < n → acc.2 < n →
    (fastPow (mul2 n) f x e acc).1 < n ∧ (fastPow (mul2 n) f x e acc).2 < n := by
  intro f
  induction f with
  | zero => intro x e acc h1 h2; exact ⟨h1, h2⟩
  | succ f ih =>
    intro x e acc h1 h2
    unfold fastPow
    split
    · exact ⟨h1, h2⟩
    · apply ih
      · split
        · exact Nat.mod_lt _ hn
        · exact h1
      · split
        · exact Nat.mod_lt _ hn
        · exact h2

theorem toE2_inj {x y : ℕ × ℕ} (hx : x.1 < fpOrder ∧ x.2 < fpOrder)
    (hy : y.1 < fpOrder ∧ y.2 < fpOrder) (h : toE2 fpOrder x = toE2 fpOrder y) : x = y := by
  have h0 := congrArg E2.A0 h
  have h1 := congrArg E2.A1 h
  simp only [toE2] at h0 h1
  rw [ZMod.natCast_eq_natCast_iff'] at h0 h1
  rw [Nat.mod_eq_of_lt hx.1, Nat.mod_eq_of_lt hy.1] at h0
  rw [Nat.mod_eq_of_lt hx.2, Nat.mod_eq_of_lt hy.2] at h1
  exact Prod.ext h0 h1

instance : TowerField Fp where
  neg_one_not_sq := fp_neg_one_not_sq
  xi_not_sq a h := by
    have := congrArg E2.norm h
    rw [E2.norm_mul] at this
    refine fp_two_not_sq (E2.norm a) (this.trans ?_)
    simp [E2.norm]; norm_num
  xi_not_cube a h := by
    have ha : a ≠ 0 := by
      rintro rfl
      have := congrArg E2.A0 h
      simp at this
    have hdvd : (fpOrder ^ 2 - 1) = 3 * ((fpOrder ^ 2 - 1) / 3) := by decide +kernel
    have hone : a ^ (fpOrder ^ 2 - 1) = 1 := by
      have h2 := E2.frob2 a
      have hpos : 0 < fpOrder ^ 2 := pow_pos fpOrder_pos 2
      have hu : E2.norm a ≠ 0 := by
        intro hn
        apply ha
        by_cases h1 : a.A1 = 0
        · have : a.A0 * a.A0 = 0 := by simpa [E2.norm, h1] using hn
          ext
          · simpa using this
          · simpa using h1
        · exfalso
          refine fp_neg_one_not_sq (a.A0 / a.A1) ?_
          field_simp
          simp only [E2.norm] at hn
          linear_combination hn
      have hinv : a * (E2.conj a * E2.of (E2.norm a)⁻¹) = 1 := by
        rw [← mul_assoc, E2.mul_conj, ← E2.of_mul, mul_inv_cancel₀ hu]; rfl
      calc a ^ (fpOrder ^ 2 - 1)
          = a ^ (fpOrder ^ 2 - 1) * (a * (E2.conj a * E2.of (E2.norm a)⁻¹)) := by rw [hinv, mul_one]
        _ = a ^ (fpOrder ^ 2 - 1 + 1) * (E2.conj a * E2.of (E2.norm a)⁻¹) := by
            rw [pow_succ]; ring
        _ = 1 := by rw [Nat.sub_add_cancel hpos, h2, hinv]
    have hx : (E2.xi : E2 Fp) ^ ((fpOrder ^ 2 - 1) / 3) = 1 := by
      rw [← h, ← pow_mul, ← hdvd, hone]
    have hxi : toE2 fpOrder (1, 1) = E2.xi := by ext <;> simp [toE2]
    have h1 : toE2 fpOrder (1, 0) = 1 := by ext <;> simp [toE2]
    have hp := toE2_pow2 (ℓ := fpOrder) (dvd_refl _) fpOrder_pos (1, 1) ((fpOrder ^ 2 - 1) / 3)
      (by decide +kernel)
    rw [hxi, hx, ← h1] at hp
    have h1lt : 1 < fpOrder := fact_fp.out.one_lt
    exact xi_not_cube_check (toE2_inj
      (pow2_lt _ fpOrder_pos _ _ _ _ h1lt fpOrder_pos) ⟨h1lt, fpOrder_pos⟩ hp)

end Spark
