import Verif.Math.Fp
import Mathlib.Algebra.CharP.Lemmas
import Mathlib.Tactic.IrreducibleDef

/-! Frobenius on the tower over `Fp`, and kernel evaluation of powers of `ξ = 1+u`. -/

namespace Spark
set_option maxRecDepth 100000

theorem toE2_eq (a b : ℕ) : toE2 fpOrder (a, b) = ⟨(a : Fp), (b : Fp)⟩ := rfl

theorem E2.pow_eval (x : ℕ × ℕ) (e : ℕ) (he : e < 2 ^ 5000) (r : ℕ × ℕ)
    (h : pow2 fpOrder x e = r) : (toE2 fpOrder x) ^ e = toE2 fpOrder r := by
  rw [← h, toE2_pow2 (dvd_refl _) fpOrder_pos _ _ he]

theorem toE2_xi : toE2 fpOrder (1, 1) = E2.xi := by ext <;> simp [toE2]

theorem E2.xi_pow_eval (e : ℕ) (he : e < 2 ^ 5000) (a b : ℕ)
    (h : pow2 fpOrder (1, 1) e = (a, b)) : (E2.xi : E2 Fp) ^ e = ⟨(a : Fp), (b : Fp)⟩ := by
  rw [← toE2_xi, E2.pow_eval _ _ he _ h, toE2_eq]

/-- `ξ^((p-1)/6)` -/
irreducible_def gam1 : E2 Fp := E2.xi ^ ((fpOrder - 1) / 6)
/-- `ξ^((p²-1)/6)` -/
irreducible_def gam2 : E2 Fp := E2.xi ^ ((fpOrder ^ 2 - 1) / 6)

theorem fpOrder_six : fpOrder = 6 * ((fpOrder - 1) / 6) + 1 := by decide +kernel
theorem fpOrder_sq_six : fpOrder ^ 2 = 6 * ((fpOrder ^ 2 - 1) / 6) + 1 := by decide +kernel

theorem E6.v_pow_six_mul (k : ℕ) : (E6.v : E6 Fp) ^ (3 * k) = E6.of (E2.xi ^ k) := by
  rw [pow_mul, E6.v_cube, E6.of_pow]

theorem E6.frob (y : E6 Fp) : y ^ fpOrder =
    ⟨E2.conj y.B0, E2.conj y.B1 * gam1 ^ 2, E2.conj y.B2 * gam1 ^ 4⟩ := by
  have hv : (E6.v : E6 Fp) ^ fpOrder = E6.of (gam1 ^ 2) * E6.v := by
    have : fpOrder = 3 * (((fpOrder - 1) / 6) * 2) + 1 := by
      have := fpOrder_six; omega
    calc (E6.v : E6 Fp) ^ fpOrder = E6.v ^ (3 * (((fpOrder - 1) / 6) * 2) + 1) := by rw [← this]
      _ = _ := by rw [pow_succ, E6.v_pow_six_mul, pow_mul, gam1_def]
  have hv2 : ((E6.v : E6 Fp) ^ 2) ^ fpOrder = E6.of (gam1 ^ 4) * E6.v ^ 2 := by
    rw [← pow_mul, mul_comm, pow_mul, hv, mul_pow, ← E6.of_pow]; ring_nf
  conv_lhs => rw [E6.eq_of_add y]
  rw [add_pow_char, add_pow_char, mul_pow, mul_pow, hv, hv2, ← E6.of_pow, ← E6.of_pow, ← E6.of_pow,
    E2.frob, E2.frob, E2.frob, pow_two (E6.v)]
  ext1 <;> simp

theorem E6.frob2 (y : E6 Fp) : y ^ fpOrder ^ 2 = ⟨y.B0, y.B1 * gam2 ^ 2, y.B2 * gam2 ^ 4⟩ := by
  have hv : (E6.v : E6 Fp) ^ fpOrder ^ 2 = E6.of (gam2 ^ 2) * E6.v := by
    have : fpOrder ^ 2 = 3 * (((fpOrder ^ 2 - 1) / 6) * 2) + 1 := by
      have := fpOrder_sq_six; omega
    calc (E6.v : E6 Fp) ^ fpOrder ^ 2 = E6.v ^ (3 * (((fpOrder ^ 2 - 1) / 6) * 2) + 1) := by rw [← this]
      _ = _ := by rw [pow_succ, E6.v_pow_six_mul, pow_mul, gam2_def]
  have hv2 : ((E6.v : E6 Fp) ^ 2) ^ fpOrder ^ 2 = E6.of (gam2 ^ 4) * E6.v ^ 2 := by
    rw [← pow_mul, mul_comm, pow_mul, hv, mul_pow, ← E6.of_pow]; ring_nf
  conv_lhs => rw [E6.eq_of_add y]
  rw [add_pow_char_pow, add_pow_char_pow, mul_pow, mul_pow, hv, hv2, ← E6.of_pow, ← E6.of_pow,
    ← E6.of_pow, E2.frob2, E2.frob2, E2.frob2, pow_two (E6.v)]
  ext1 <;> simp

theorem E12.w_pow_six_mul (k : ℕ) : (E12.w : E12 Fp) ^ (6 * k) = E12.of (E6.of (E2.xi ^ k)) := by
  rw [show 6 * k = 2 * (3 * k) by ring, pow_mul, E12.w_sq, ← E12.of_pow, E6.v_pow_six_mul]

theorem E12.w_frob : (E12.w : E12 Fp) ^ fpOrder = E12.of (E6.of gam1) * E12.w := by
  calc (E12.w : E12 Fp) ^ fpOrder = E12.w ^ (6 * ((fpOrder - 1) / 6) + 1) := by rw [← fpOrder_six]
    _ = _ := by rw [pow_succ, E12.w_pow_six_mul, gam1_def]

theorem E12.w_frob2 : (E12.w : E12 Fp) ^ fpOrder ^ 2 = E12.of (E6.of gam2) * E12.w := by
  calc (E12.w : E12 Fp) ^ fpOrder ^ 2 = E12.w ^ (6 * ((fpOrder ^ 2 - 1) / 6) + 1) := by
        rw [← fpOrder_sq_six]
    _ = _ := by rw [pow_succ, E12.w_pow_six_mul, gam2_def]

theorem E12.frob (x : E12 Fp) : x ^ fpOrder =
    ⟨x.C0 ^ fpOrder, x.C1 ^ fpOrder * E6.of gam1⟩ := by
  have hw := E12.w_frob
  conv_lhs => rw [E12.eq_of_add x]
  rw [add_pow_char, mul_pow, hw, ← E12.of_pow, ← E12.of_pow]
  ext1 <;> simp

theorem E12.frob2 (x : E12 Fp) : x ^ fpOrder ^ 2 =
    ⟨x.C0 ^ fpOrder ^ 2, x.C1 ^ fpOrder ^ 2 * E6.of gam2⟩ := by
  have hw := E12.w_frob2
  conv_lhs => rw [E12.eq_of_add x]
  rw [add_pow_char_pow, mul_pow, hw, ← E12.of_pow, ← E12.of_pow]
  ext1 <;> simp

/-! ### values -/

theorem gam2_eq : gam2 = E2.of 793479390729215512621379701633421447060886740281060493010456487427281649075476305620758731620351 := by
  rw [gam2_def, E2.xi_pow_eval _ (by decide +kernel) 793479390729215512621379701633421447060886740281060493010456487427281649075476305620758731620351 0 (by decide +kernel)]
  ext <;> simp

theorem gam2_cube : gam2 ^ 3 = -1 := by
  rw [gam2_def, ← pow_mul, E2.xi_pow_eval _ (by decide +kernel) (fpOrder - 1) 0 (by decide +kernel),
    Nat.cast_sub fpOrder_pos]
  ext <;> simp

theorem gam2_sq : gam2 ^ 2 = gam2 - 1 := by
  have h : (gam2 + 1) * (gam2 ^ 2 - gam2 + 1) = 0 := by
    have := gam2_cube; linear_combination this
  rcases mul_eq_zero.1 h with h | h
  · exfalso
    rw [gam2_eq] at h
    have := congrArg E2.A0 h
    simp only [E2.A0_add, E2.A0_of, E2.A0_one, E2.A0_zero] at this
    have h2 : ((793479390729215512621379701633421447060886740281060493010456487427281649075476305620758731620352 : ℕ) : Fp) = 0 := by
      rw [← this]; push_cast; norm_num
    rw [ZMod.natCast_eq_zero_iff] at h2
    revert h2; decide +kernel
  · linear_combination h

theorem frob2_thrice (g : E2 Fp) (hg : g ^ 3 = -1) (φ : E6 Fp → E6 Fp)
    (hφ : ∀ y, φ y = ⟨y.B0, y.B1 * g ^ 2, y.B2 * g ^ 4⟩) (y : E6 Fp) : φ (φ (φ y)) = y := by
  have h6 : g ^ 6 = 1 := by rw [show 6 = 3 * 2 by rfl, pow_mul, hg]; ring
  rw [hφ, hφ, hφ]
  ext1
  · rfl
  · dsimp only; linear_combination y.B1 * h6
  · dsimp only; linear_combination y.B2 * (g ^ 6 + 1) * h6

theorem pow_six {M : Type} [Monoid M] (q : ℕ) (y : M) :
    y ^ q ^ 6 = ((y ^ q ^ 2) ^ q ^ 2) ^ q ^ 2 := by
  rw [← pow_mul, ← pow_mul]; congr 1; ring

theorem E6.frob6 (y : E6 Fp) : y ^ fpOrder ^ 6 = y := by
  rw [pow_six]
  exact frob2_thrice gam2 gam2_cube (fun y => y ^ fpOrder ^ 2) E6.frob2 y

theorem frob2_thrice12 (g : E6 Fp) (hg : g ^ 3 = -1) (φ : E6 Fp → E6 Fp)
    (hm : ∀ a b, φ (a * b) = φ a * φ b) (hφ : φ g = g) (h6 : ∀ y, φ (φ (φ y)) = y)
    (Φ : E12 Fp → E12 Fp) (hΦ : ∀ x, Φ x = ⟨φ x.C0, φ x.C1 * g⟩) (x : E12 Fp) :
    Φ (Φ (Φ x)) = E12.conj x := by
  rw [hΦ, hΦ, hΦ]
  ext1
  · exact h6 _
  · simp only [hm, hφ, h6, E12.C1_conj]
    linear_combination x.C1 * hg

/-- the `p⁶`-power map is conjugation -/
theorem E12.frob6 (x : E12 Fp) : x ^ fpOrder ^ 6 = E12.conj x := by
  rw [pow_six]
  refine frob2_thrice12 (E6.of gam2) ?_ (fun y => y ^ fpOrder ^ 2) (fun a b => mul_pow a b _) ?_
    (fun y => ?_) (fun y => y ^ fpOrder ^ 2) E12.frob2 x
  · rw [← E6.of_pow, gam2_cube, E6.of_neg, E6.of_one]
  · show (E6.of gam2 : E6 Fp) ^ fpOrder ^ 2 = _
    rw [← E6.of_pow, E2.frob2]
  · have := E6.frob6 y
    rwa [pow_six] at this

/-- the `p`-power Frobenius as a ring homomorphism -/
irreducible_def frobHom : E12 Fp →+* E12 Fp := frobenius (E12 Fp) fpOrder
/-- the `p²`-power Frobenius as a ring homomorphism -/
irreducible_def frobHom2 : E12 Fp →+* E12 Fp := iterateFrobenius (E12 Fp) fpOrder 2

theorem frobHom_apply (a : E12 Fp) : frobHom a = a ^ fpOrder := by
  rw [frobHom_def]; exact frobenius_def ..
theorem frobHom2_apply (a : E12 Fp) : frobHom2 a = a ^ fpOrder ^ 2 := by
  rw [frobHom2_def]; exact iterateFrobenius_def ..

theorem frobHom2_eq (a : E12 Fp) : frobHom2 a = frobHom (frobHom a) := by
  rw [frobHom2_apply, frobHom_apply, frobHom_apply, ← pow_mul, pow_two]

/-- coordinates of the `p²`-power map -/
theorem frobHom2_coord (a : E12 Fp) : frobHom2 a =
    ⟨⟨a.C0.B0, (gam2 - 1) * a.C0.B1, -gam2 * a.C0.B2⟩,
     ⟨gam2 * a.C1.B0, -a.C1.B1, (1 - gam2) * a.C1.B2⟩⟩ := by
  rw [frobHom2_apply, E12.frob2, E6.frob2, E6.frob2]
  have h2 := gam2_sq
  have h3 := gam2_cube
  ext1
  · ext1 <;> dsimp only
    · linear_combination a.C0.B1 * h2
    · linear_combination a.C0.B2 * gam2 * h3
  · ext1 <;> simp
    · ring
    · linear_combination a.C1.B1 * h3
    · linear_combination a.C1.B2 * gam2 ^ 2 * h3 - a.C1.B2 * h2

end Spark
