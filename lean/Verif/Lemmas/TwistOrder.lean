import Verif.Math.PointCount
import Verif.Math.Card
import Verif.Lemmas.TwistPoints
import Mathlib.Data.ZMod.Basic

/-! The order of the twist `E'(Fp2)`, its `r`-torsion, and the annihilator of cofactor clearing.

Explicit points of prime order generate a subgroup with more than half the points there can be, so
they generate everything; an endomorphism is then determined by its values on them. -/

namespace Spark.TwistPoints
open WeierstrassCurve Spec
open G2 (psiHom bp psi_gen)
set_option maxRecDepth 100000

/-- the point of that order -/
noncomputable irreducible_def PM : ETwist Fp := mk ptM onM
theorem PM_ne : PM ≠ 0 := by rw [PM_def]; exact mk_ne _ _
theorem PM_ord : bigM • PM = 0 := by rw [PM_def]; exact order_of (mk_pt _ _) bigM_prime.one_lt.le ordM
theorem PM_psi : psiHom PM = (lamM : ℤ) • PM := by rw [PM_def]; exact psi_of (mk_pt _ _) eigM
/-- the point of that order -/
noncomputable irreducible_def P13a : ETwist Fp := mk pt13a on13a
theorem P13a_ne : P13a ≠ 0 := by rw [P13a_def]; exact mk_ne _ _
theorem P13a_ord : 13 • P13a = 0 := by rw [P13a_def]; exact order_of (mk_pt _ _) (by norm_num) ord13a
theorem P13a_psi : psiHom P13a = (lam13a : ℤ) • P13a := by rw [P13a_def]; exact psi_of (mk_pt _ _) eig13a
/-- the point of that order -/
noncomputable irreducible_def P13b : ETwist Fp := mk pt13b on13b
theorem P13b_ne : P13b ≠ 0 := by rw [P13b_def]; exact mk_ne _ _
theorem P13b_ord : 13 • P13b = 0 := by rw [P13b_def]; exact order_of (mk_pt _ _) (by norm_num) ord13b
theorem P13b_psi : psiHom P13b = (lam13b : ℤ) • P13b := by rw [P13b_def]; exact psi_of (mk_pt _ _) eig13b
/-- the point of that order -/
noncomputable irreducible_def P23 : ETwist Fp := mk pt23 on23
theorem P23_ne : P23 ≠ 0 := by rw [P23_def]; exact mk_ne _ _
theorem P23_ord : 23 • P23 = 0 := by rw [P23_def]; exact order_of (mk_pt _ _) (by norm_num) ord23
theorem P23_psi : psiHom (psiHom P23) = (16 : ℤ) • psiHom P23 - P23 := by rw [P23_def]; exact psi23
/-- the point of that order -/
noncomputable irreducible_def P2713 : ETwist Fp := mk pt2713 on2713
theorem P2713_ne : P2713 ≠ 0 := by rw [P2713_def]; exact mk_ne _ _
theorem P2713_ord : 2713 • P2713 = 0 := by rw [P2713_def]; exact order_of (mk_pt _ _) (by norm_num) ord2713
theorem P2713_psi : psiHom P2713 = (lam2713 : ℤ) • P2713 := by rw [P2713_def]; exact psi_of (mk_pt _ _) eig2713
/-- the point of that order -/
noncomputable irreducible_def P11953 : ETwist Fp := mk pt11953 on11953
theorem P11953_ne : P11953 ≠ 0 := by rw [P11953_def]; exact mk_ne _ _
theorem P11953_ord : 11953 • P11953 = 0 := by rw [P11953_def]; exact order_of (mk_pt _ _) (by norm_num) ord11953
theorem P11953_psi : psiHom P11953 = (lam11953 : ℤ) • P11953 := by rw [P11953_def]; exact psi_of (mk_pt _ _) eig11953
/-- the point of that order -/
noncomputable irreducible_def P262069 : ETwist Fp := mk pt262069 on262069
theorem P262069_ne : P262069 ≠ 0 := by rw [P262069_def]; exact mk_ne _ _
theorem P262069_ord : 262069 • P262069 = 0 := by rw [P262069_def]; exact order_of (mk_pt _ _) (by norm_num) ord262069
theorem P262069_psi : psiHom P262069 = (lam262069 : ℤ) • P262069 := by rw [P262069_def]; exact psi_of (mk_pt _ _) eig262069

/-- the order of `E'(Fp2)` -/
def twistOrder : ℕ := rOrder * bigM * (13 * 13) * (23 * 23) * 2713 * 11953 * 262069

theorem card_Fp : Nat.card Fp = fpOrder := Nat.card_zmod fpOrder
theorem card_E2 : Nat.card (E2 Fp) = fpOrder ^ 2 := by
  rw [Nat.card_congr (E2.equiv Fp), Nat.card_prod, card_Fp, pow_two]

section
variable {A : Type} [AddCommGroup A] {f : A →+ A} {X Y : A} {q : ℕ}

theorem not_mem_zmultiples_of_eig {k l : ℤ} (hq : q.Prime)
    (hY : q • Y = 0) (hY0 : Y ≠ 0) (h1 : f X = k • X) (h2 : f Y = l • Y)
    (hkl : ¬ (q : ℤ) ∣ l - k) : Y ∉ AddSubgroup.zmultiples X := by
  rintro ⟨j, hj⟩
  have hj : j • X = Y := hj
  have h3 : f Y = k • Y := by rw [← hj, map_zsmul, h1, smul_comm]
  have h4 : (l - k) • Y = 0 := by rw [sub_smul, ← h2, ← h3, sub_self]
  have hc : IsCoprime (q : ℤ) (l - k) := (Nat.prime_iff_prime_int.1 hq).coprime_iff_not_dvd.2 hkl
  obtain ⟨a, c, e⟩ := hc
  apply hY0
  rw [← one_zsmul Y, ← e, add_smul, mul_smul, natCast_zsmul, hY, smul_zero, zero_add, mul_smul, h4,
    smul_zero]

theorem zmul_dvd (hq : q.Prime) (hX : q • X = 0) (h0 : X ≠ 0) {k : ℤ} (h : k • X = 0) : (q : ℤ) ∣ k := by
  have := Fact.mk hq
  have ho := addOrderOf_eq_prime hX h0
  rw [← ho]
  exact addOrderOf_dvd_iff_zsmul_eq_zero.2 h

theorem no_root23 (d : ZMod 23) : d * d - 16 * d + 1 ≠ 0 := by revert d; decide

theorem not_eig23 (h : f (f X) = (16 : ℤ) • f X - X) (hX : 23 • X = 0) (h0 : X ≠ 0) :
    f X ∉ AddSubgroup.zmultiples X := by
  rintro ⟨c, hc⟩
  have hc : c • X = f X := hc
  rw [← hc, map_zsmul, ← hc, ← mul_smul, ← mul_smul] at h
  have h2 : (c * c - 16 * c + 1) • X = 0 := by
    rw [add_smul, sub_smul, h, one_smul]; abel
  have h3 := zmul_dvd (by norm_num) hX h0 h2
  rw [← ZMod.intCast_zmod_eq_zero_iff_dvd] at h3
  push_cast at h3
  exact no_root23 _ h3

/-- `a + bf + cf²` -/
def poly (f : A →+ A) (a b c : ℤ) : A →+ A :=
  a • AddMonoidHom.id _ + b • f + c • f.comp f

theorem poly_apply (f : A →+ A) (a b c : ℤ) (Q : A) :
    poly f a b c Q = a • Q + b • f Q + c • f (f Q) := by
  simp [poly]

theorem poly_eig {a b c l : ℤ} (hX : q • X = 0) (h : f X = l • X)
    (hd : (q : ℤ) ∣ a + b * l + c * (l * l)) : poly f a b c X = 0 := by
  rw [poly_apply, h, map_zsmul, h, ← mul_smul l, ← mul_smul, ← mul_smul, ← add_smul, ← add_smul]
  obtain ⟨k, hk⟩ := hd
  rw [hk, mul_comm, mul_smul, natCast_zsmul, hX, smul_zero]

theorem poly_23 (h : f (f X) = (16 : ℤ) • f X - X) (hX : 23 • X = 0) {a b c : ℤ}
    (h1 : (23 : ℤ) ∣ a - c) (h2 : (23 : ℤ) ∣ b + 16 * c) : poly f a b c X = 0 := by
  have e : poly f a b c X = (a - c) • X + (b + 16 * c) • f X := by
    rw [poly_apply, h, smul_sub, sub_smul, add_smul, mul_comm, mul_smul]; abel
  have hX' : (23 : ℤ) • X = 0 := by rw [← hX, ← natCast_zsmul]; rfl
  obtain ⟨k, hk⟩ := h1
  obtain ⟨l, hl⟩ := h2
  rw [e, hk, hl, mul_comm, mul_smul, hX', mul_comm, mul_smul, ← map_zsmul, hX', map_zero, smul_zero,
    smul_zero, add_zero]

theorem poly_comm (a b c : ℤ) : poly f a b c (f X) = f (poly f a b c X) := by
  simp only [poly_apply, map_add, map_zsmul]

theorem bp_poly (r s : ℤ) : r • ((s ^ 2 - s - 1) • X + (s - 1) • f X + f (f (2 • X))) =
    (r * (s ^ 2 - s - 1)) • X + (r * (s - 1)) • f X + (r * 2) • f (f X) := by
  rw [smul_add, smul_add, mul_smul, mul_smul, mul_smul, map_nsmul, map_nsmul, two_nsmul, two_zsmul]

theorem order_zmul (hX : q • X = 0) (j : ℤ) : q • j • X = 0 := by
  rw [smul_comm, hX, smul_zero]

theorem char_poly (p s : ℤ) (h : p • X + (-(s + 1)) • f X + (1 : ℤ) • f (f X) = 0) :
    f (f X) - (s + 1) • f X + p • X = 0 := by
  rw [one_smul, neg_smul] at h
  rw [← h]; abel

theorem eig_zmul {l : ℤ} (h : f X = l • X) (j : ℤ) : f (j • X) = l • j • X := by
  rw [map_zsmul, h, smul_comm]
end

theorem psi23_not : psiHom P23 ∉ AddSubgroup.zmultiples P23 := not_eig23 P23_psi P23_ord P23_ne

theorem cop1 : Nat.Coprime rOrder bigM := by decide +kernel
theorem cop2 : Nat.Coprime (rOrder * bigM) (13 * 13) := by decide +kernel
theorem cop3 : Nat.Coprime (rOrder * bigM * (13 * 13)) (23 * 23) := by decide +kernel
theorem cop4 : Nat.Coprime (rOrder * bigM * (13 * 13) * (23 * 23)) 2713 := by decide +kernel
theorem cop5 : Nat.Coprime (rOrder * bigM * (13 * 13) * (23 * 23) * 2713) 11953 := by decide +kernel
theorem cop6 : Nat.Coprime (rOrder * bigM * (13 * 13) * (23 * 23) * 2713 * 11953) 262069 := by
  decide +kernel
theorem bound : 2 * fpOrder ^ 2 + 1 < 2 * twistOrder := by decide +kernel

theorem dvd_all {n : ℕ} (h0 : rOrder ∣ n) (h1 : bigM ∣ n) (h2 : 13 * 13 ∣ n) (h3 : 23 * 23 ∣ n)
    (h4 : 2713 ∣ n) (h5 : 11953 ∣ n) (h6 : 262069 ∣ n) : twistOrder ∣ n := by
  have e1 := cop1.mul_dvd_of_dvd_of_dvd h0 h1
  have e2 := cop2.mul_dvd_of_dvd_of_dvd e1 h2
  have e3 := cop3.mul_dvd_of_dvd_of_dvd e2 h3
  have e4 := cop4.mul_dvd_of_dvd_of_dvd e3 h4
  have e5 := cop5.mul_dvd_of_dvd_of_dvd e4 h5
  exact cop6.mul_dvd_of_dvd_of_dvd e5 h6

/-- a subgroup containing the listed points is everything -/
theorem eq_top {K : AddSubgroup (ETwist Fp)} (h0 : G2gen ∈ K) (h1 : PM ∈ K)
    (h2 : P13a ∈ K) (h3 : P13b ∈ K) (h4 : P23 ∈ K)
    (h4' : psiHom P23 ∈ K) (h5 : P2713 ∈ K) (h6 : P11953 ∈ K)
    (h7 : P262069 ∈ K) : twistOrder ∣ Nat.card K ∧ K = ⊤ := by
  have d0 := prime_dvd_card rOrder_prime G2gen_order G2gen_ne h0
  have d1 := prime_dvd_card bigM_prime PM_ord PM_ne h1
  have d2 : 13 * 13 ∣ Nat.card K := prime_sq_dvd_card (q := 13) (by norm_num)
    P13a_ord P13a_ne
    P13b_ord
    (not_mem_zmultiples_of_eig (f := psiHom) (q := 13) (by norm_num)
      P13b_ord P13b_ne P13a_psi
      P13b_psi (by decide)) h2 h3
  have o23 := P23_ord
  have d4 : 23 * 23 ∣ Nat.card K := prime_sq_dvd_card (q := 23) (by norm_num) P23_ord P23_ne
    (by rw [← map_nsmul, o23, map_zero]) psi23_not h4 h4'
  have d5 := prime_dvd_card (q := 2713) (by norm_num) P2713_ord
    P2713_ne h5
  have d6 := prime_dvd_card (q := 11953) (by norm_num) P11953_ord
    P11953_ne h6
  have d7 := prime_dvd_card (q := 262069) (by norm_num) P262069_ord
    P262069_ne h7
  have hd := dvd_all d0 d1 d2 d4 d5 d6 d7
  refine ⟨hd, eq_top_of_card hd card_points_le ?_⟩
  rw [card_E2]
  exact bound

/-- The order of `E'(Fp2)`. -/
theorem twist_card : Nat.card (ETwist Fp) = twistOrder := by
  obtain ⟨h, -⟩ := eq_top (K := ⊤) trivial trivial trivial trivial trivial trivial trivial trivial trivial
  rw [AddSubgroup.card_top] at h
  have h1 : Nat.card (ETwist Fp) ≤ 2 * Nat.card (E2 Fp) + 1 := card_points_le
  rw [card_E2] at h1
  obtain ⟨c, hc⟩ := h
  have h2 := bound
  have h3 : 0 < Nat.card (ETwist Fp) := Nat.card_pos
  have : c = 1 := by
    rcases c with _ | _ | c
    · omega
    · rfl
    · exfalso
      have := Nat.mul_le_mul_left twistOrder (show 2 ≤ c + 1 + 1 by omega)
      rw [← hc] at this
      exact absurd (h1.trans_lt h2) (by rw [mul_comm]; exact not_lt.2 this)
  rw [hc, this, mul_one]

/-- an endomorphism that kills the listed points is zero -/
theorem hom_eq_zero (f : ETwist Fp →+ ETwist Fp) (h0 : f G2gen = 0) (h1 : f PM = 0)
    (h2 : f P13a = 0) (h3 : f P13b = 0) (h4 : f P23 = 0)
    (h4' : f (psiHom P23) = 0) (h5 : f P2713 = 0)
    (h6 : f P11953 = 0) (h7 : f P262069 = 0) (Q : ETwist Fp) : f Q = 0 := by
  have := (eq_top (K := f.ker) h0 h1 h2 h3 h4 h4' h5 h6 h7).2
  have hQ : Q ∈ f.ker := by rw [this]; trivial
  exact hQ

/-- An integral combination of `1, ψ, ψ²` is zero on `E'(Fp2)` if it is zero modulo each prime
factor at the eigenvalue of `ψ` there. -/
theorem poly_eq_zero (a b c : ℤ) (h0 : (rOrder : ℤ) ∣ a + b * seed + c * (seed * seed))
    (h1 : (bigM : ℤ) ∣ a + b * lamM + c * (lamM * lamM))
    (h2 : (13 : ℤ) ∣ a + b * lam13a + c * (lam13a * lam13a))
    (h3 : (13 : ℤ) ∣ a + b * lam13b + c * (lam13b * lam13b))
    (h4 : (23 : ℤ) ∣ a - c) (h4' : (23 : ℤ) ∣ b + 16 * c)
    (h5 : (2713 : ℤ) ∣ a + b * lam2713 + c * (lam2713 * lam2713))
    (h6 : (11953 : ℤ) ∣ a + b * lam11953 + c * (lam11953 * lam11953))
    (h7 : (262069 : ℤ) ∣ a + b * lam262069 + c * (lam262069 * lam262069)) (Q : ETwist Fp) :
    a • Q + b • psiHom Q + c • psiHom (psiHom Q) = 0 := by
  rw [← poly_apply]
  exact hom_eq_zero _ (poly_eig G2gen_order psi_gen h0)
    (poly_eig PM_ord PM_psi h1) (poly_eig (q := 13) P13a_ord P13a_psi h2)
    (poly_eig (q := 13) P13b_ord P13b_psi h3) (poly_23 P23_psi P23_ord h4 h4')
    (by rw [poly_comm, poly_23 P23_psi P23_ord h4 h4', map_zero])
    (poly_eig (q := 2713) P2713_ord P2713_psi h5) (poly_eig (q := 11953) P11953_ord P11953_psi h6)
    (poly_eig (q := 262069) P262069_ord P262069_psi h7) Q

/-- The characteristic equation `ψ² - (u+1)ψ + p = 0` on `E'(Fp2)`. -/
theorem psi_char (Q : ETwist Fp) :
    psiHom (psiHom Q) - (seed + 1) • psiHom Q + (fpOrder : ℤ) • Q = 0 :=
  char_poly _ _ (poly_eq_zero fpOrder (-(seed + 1)) 1 (by decide +kernel) (by decide +kernel)
    (by decide +kernel) (by decide +kernel) (by decide +kernel) (by decide +kernel)
    (by decide +kernel) (by decide +kernel) (by decide +kernel) Q)

/-- Cofactor clearing lands in the subgroup of order `r`. -/
theorem bp_order (Q : ETwist Fp) : rOrder • bp Q = 0 := by
  rw [← natCast_zsmul, bp, bp_poly]
  exact poly_eq_zero (rOrder * (seed ^ 2 - seed - 1)) (rOrder * (seed - 1)) (rOrder * 2)
    (by decide +kernel) (by decide +kernel)
    (by decide +kernel) (by decide +kernel) (by decide +kernel) (by decide +kernel)
    (by decide +kernel) (by decide +kernel) (by decide +kernel) Q

theorem sq_not_dvd : ¬ rOrder * rOrder ∣ twistOrder := by decide +kernel

/-- The `r`-torsion of `E'(Fp2)` is generated by the standard generator. -/
theorem mem_G2_iff (Q : ETwist Fp) : rOrder • Q = 0 ↔ Q ∈ AddSubgroup.zmultiples G2gen := by
  constructor
  · intro h
    by_contra hn
    have h1 := prime_sq_dvd_card (K := ⊤) rOrder_prime G2gen_order G2gen_ne h hn trivial trivial
    rw [AddSubgroup.card_top, twist_card] at h1
    exact sq_not_dvd h1
  · rintro ⟨j, rfl⟩
    exact order_zmul G2gen_order j

/-- `ψ` is multiplication by the seed on the `r`-torsion. -/
theorem psi_of_order {Q : ETwist Fp} (h : rOrder • Q = 0) : psiHom Q = seed • Q := by
  obtain ⟨j, rfl⟩ := (mem_G2_iff Q).1 h
  exact eig_zmul psi_gen j

end Spark.TwistPoints
