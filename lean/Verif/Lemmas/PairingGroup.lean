import Verif.Lemmas.Bilinear
import Verif.Lemmas.TwistOrder
import Verif.Lemmas.TxWitness

/-! The ate pairing on the groups of order `r`: bilinear, non-degenerate, and what the verification
equation says. -/

namespace Spark
open Spec TwistPoints
set_option maxRecDepth 100000

theorem exp_eq : (fpOrder ^ 12 - 1) / rOrder * rOrder = fpOrder ^ 12 - 1 := by decide +kernel

theorem pow_r_aux {z : E12 Fp} (h : z ≠ 0) : (z ^ ((fpOrder ^ 12 - 1) / rOrder)) ^ rOrder = 1 := by
  rw [← pow_mul, exp_eq, unit_pow h]

theorem ne_of_pow_ne {z : E12 Fp} {n : ℕ} (hn : n ≠ 0) (h : z ^ n ≠ 0) : z ≠ 0 := fun e =>
  h (by rw [e, zero_pow hn])

theorem exp_ne : (fpOrder ^ 12 - 1) / rOrder ≠ 0 := by decide +kernel

theorem ate_pow_r (P : E1 Fp) (Q : ETwist Fp) : ate P Q ^ rOrder = 1 :=
  pow_r_aux (ne_of_pow_ne exp_ne (ate_ne (P := P) (Q := Q)))

variable {Q H S : ETwist Fp}

theorem ate_nsmul_left (P : E1 Fp) (hQ : rOrder • Q = 0) (n : ℕ) : ate (n • P) Q = ate P Q ^ n := by
  induction n with
  | zero => rw [zero_nsmul, ate_zero_left, pow_zero]
  | succ n ih => rw [succ_nsmul, ate_add_left _ _ (psi_of_order hQ), ih, pow_succ]

theorem order_nsmul (hQ : rOrder • Q = 0) (n : ℕ) : rOrder • n • Q = 0 := by
  rw [← mul_nsmul, mul_comm, mul_nsmul, hQ, nsmul_zero]

theorem order_add (hQ : rOrder • Q = 0) (hH : rOrder • H = 0) : rOrder • (Q + H) = 0 := by
  rw [nsmul_add, hQ, hH, add_zero]

theorem order_neg (hQ : rOrder • Q = 0) : rOrder • (-Q) = 0 := by rw [neg_nsmul, hQ, neg_zero]

theorem ate_nsmul_right (P : E1 Fp) (hQ : rOrder • Q = 0) (n : ℕ) : ate P (n • Q) = ate P Q ^ n := by
  induction n with
  | zero => rw [zero_nsmul, ate_zero_right, pow_zero]
  | succ n ih =>
    rw [succ_nsmul, ate_add_right _ (psi_of_order (order_nsmul hQ n)) (psi_of_order hQ), ih, pow_succ]

theorem nsmul_of_mem {A : Type} [AddCommGroup A] {g x : A} {r : ℕ} (hr : 0 < r) (h : r • g = 0)
    (hx : x ∈ AddSubgroup.zmultiples g) : ∃ n : ℕ, n < r ∧ x = n • g := by
  obtain ⟨k, rfl⟩ := hx
  have hr' : (0 : ℤ) < r := by exact_mod_cast hr
  refine ⟨(k % r).toNat, ?_, ?_⟩
  · have := Int.emod_lt_of_pos k hr'
    have := Int.emod_nonneg k hr'.ne'
    omega
  · show k • g = _
    rw [← natCast_zsmul, Int.toNat_of_nonneg (Int.emod_nonneg k hr'.ne')]
    conv_lhs => rw [← Int.emod_add_mul_ediv k r, add_smul, mul_comm, mul_smul, natCast_zsmul, h,
      smul_zero, add_zero]

theorem G2_nsmul (hQ : rOrder • Q = 0) : ∃ n : ℕ, n < rOrder ∧ Q = n • G2gen :=
  nsmul_of_mem rOrder_prime.pos G2gen_order ((mem_G2_iff Q).1 hQ)

/-- The `r`-torsion of `E(Fp)` is generated by the standard generator. -/
theorem mem_G1_iff (P : E1 Fp) : rOrder • P = 0 ↔ P ∈ AddSubgroup.zmultiples G1gen := by
  constructor
  · intro h
    by_contra hn
    have h1 := prime_sq_dvd_card (K := ⊤) rOrder_prime Witness.G1gen_order G1gen_ne h hn trivial trivial
    rw [AddSubgroup.card_top] at h1
    have h2 : Nat.card (E1 Fp) ≤ 2 * Nat.card Fp + 1 := card_points_le
    rw [card_Fp] at h2
    have h3 := Nat.le_of_dvd Nat.card_pos h1
    exact absurd (h3.trans h2) (by decide +kernel)
  · rintro ⟨j, rfl⟩
    exact order_zmul Witness.G1gen_order j

theorem G1_nsmul {P : E1 Fp} (hP : rOrder • P = 0) : ∃ n : ℕ, n < rOrder ∧ P = n • G1gen :=
  nsmul_of_mem rOrder_prime.pos Witness.G1gen_order ((mem_G1_iff P).1 hP)

/-- Non-degeneracy at the generators. -/
theorem ate_gen_ne : ate G1gen G2gen ≠ 1 := by
  intro h
  apply Witness.other_ne
  obtain ⟨n, -, e⟩ := G2_nsmul Witness.S_order
  have h1 : ate G1gen (1023 • Witness.Hpt) = 1 := by
    rw [e, ate_nsmul_right _ G2gen_order, h, one_pow]
  have h2 := ate_neg_left G1gen (psi_of_order Witness.S_order)
  rw [h1, one_mul] at h2
  rw [h2, ate_nsmul_left _ G2gen_order, h, one_pow, one_mul]

theorem pow_eq_one_of {z : E12 Fp} (hz : z ≠ 1) (hr : z ^ rOrder = 1) {n : ℕ} (h : z ^ n = 1) : rOrder ∣ n := by
  have := Fact.mk rOrder_prime
  rw [← orderOf_eq_prime hr hz]
  exact orderOf_dvd_of_pow_eq_one h

theorem nsmul_eq_zero_of_dvd {A : Type} [AddCommGroup A] {g : A} {r n : ℕ} (h : r • g = 0) (hn : r ∣ n) :
    n • g = 0 := by
  obtain ⟨k, rfl⟩ := hn
  rw [mul_comm, mul_nsmul', h, nsmul_zero]

/-- Non-degeneracy. -/
theorem ate_eq_one_iff {P : E1 Fp} (hP : rOrder • P = 0) (hQ : rOrder • Q = 0) :
    ate P Q = 1 ↔ P = 0 ∨ Q = 0 := by
  constructor
  · intro h
    obtain ⟨a, ha, rfl⟩ := G1_nsmul hP
    obtain ⟨b, hb, rfl⟩ := G2_nsmul hQ
    rw [ate_nsmul_left _ hQ, ate_nsmul_right _ G2gen_order, ← pow_mul] at h
    have := pow_eq_one_of ate_gen_ne (ate_pow_r _ _) h
    rcases (Nat.Prime.dvd_mul rOrder_prime).1 this with h | h
    · exact Or.inr (nsmul_eq_zero_of_dvd G2gen_order h)
    · exact Or.inl (nsmul_eq_zero_of_dvd Witness.G1gen_order h)
  · rintro (rfl | rfl)
    · exact ate_zero_left _
    · exact ate_zero_right _

/-- The pairing equation for the key `a•g1` says that the signature is `a` times the hash point. -/
theorem bls_iff (a : ℕ) (hS : rOrder • S = 0) (hH : rOrder • H = 0) :
    ate (-G1gen) S * ate (a • G1gen) H = 1 ↔ S = a • H := by
  have h1 := ate_neg_left G1gen (psi_of_order hS)
  have h2 : ate (a • G1gen) H = ate G1gen (a • H) := by
    rw [ate_nsmul_left _ hH, ate_nsmul_right _ hH]
  have hs := order_add (order_nsmul hH a) (order_neg hS)
  have h3 : ate G1gen (a • H + -S) * ate G1gen S = ate G1gen (a • H) := by
    rw [← ate_add_right _ (psi_of_order hs) (psi_of_order hS), neg_add_cancel_right]
  have h4 := ate_eq_one_iff Witness.G1gen_order hs
  rw [h2, ← h3]
  have h5 : ate (-G1gen) S * (ate G1gen (a • H + -S) * ate G1gen S) = ate G1gen (a • H + -S) := by
    rw [mul_comm (ate G1gen _), ← mul_assoc, mul_comm (ate (-G1gen) S), h1, one_mul]
  rw [h5, h4]
  constructor
  · rintro (h | h)
    · exact absurd h G1gen_ne
    · rw [add_neg_eq_zero] at h; exact h.symm
  · rintro rfl
    exact Or.inr (add_neg_cancel _)

/-- points of order prime to `r` pair to 1 -/
theorem ate_small {T : E1 Fp} {n : ℕ} (hT : n • T = 0) (hn : Nat.Coprime n rOrder) (hQ : rOrder • Q = 0) :
    ate T Q = 1 := by
  by_contra h
  have h1 := pow_eq_one_of h (ate_pow_r _ _) (n := n) (by rw [← ate_nsmul_left _ hQ, hT, ate_zero_left])
  have h2 := Nat.dvd_gcd h1 (dvd_refl rOrder)
  rw [hn] at h2
  exact rOrder_prime.one_lt.ne' (Nat.dvd_one.1 h2)

end Spark
