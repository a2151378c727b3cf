import Verif.Lemmas.JacMul
import Verif.Lemmas.NonResidue
import Verif.Math.Card

/-! ψ and cofactor clearing. -/

namespace Spark.G2
open WeierstrassCurve Spec Circ
set_option maxRecDepth 100000

/-- `psiU` as numbers -/
def psiUN : NC.N2 := (0, 4002409555221667392624310435006688643935503118305586438271171395842971157480381377015405980053539358417135540939437)
/-- `psiV` as numbers -/
def psiVN : NC.N2 := (2973677408986561043442465346520108879172042883009249989176415018091420807192182638567116318576472649347015917690530,
  1028732146235106349975324479215795277384839936929757896155643118032610843298655225875571310552543014690878354869257)

theorem psiU_e2 : psiU = NC.e2 psiUN := by
  rw [NC.e2, psiUN, toE2_eq]; ext <;> simp [psiU]
theorem psiV_e2 : psiV = NC.e2 psiVN := by
  rw [NC.e2, psiVN, toE2_eq]; ext <;> simp [psiV]

theorem psiU_ne : psiU ≠ 0 := by rw [psiU_e2]; exact NC.e2_nz (by decide +kernel)
theorem psiV_ne : psiV ≠ 0 := by rw [psiV_e2]; exact NC.e2_nz (by decide +kernel)

theorem psiV_sq : psiV ^ 2 = psiU ^ 3 := by
  rw [psiU_e2, psiV_e2, pow_two, pow_succ, pow_two, ← NC.e2_mul, ← NC.e2_mul, ← NC.e2_mul]
  exact congrArg NC.e2 (by decide +kernel)

theorem psi_coeff : psiV ^ 2 * E2.conj ⟨4, 4⟩ = ⟨4, 4⟩ := by
  have h1 : (⟨4, 4⟩ : E2 Fp) = NC.e2 (4, 4) := by rw [NC.e2, toE2_eq]; ext <;> simp
  have h2 : E2.conj (⟨4, 4⟩ : E2 Fp) = NC.e2 (4, fpOrder - 4) := by
    rw [NC.e2, toE2_eq]
    ext
    · simp
    · rw [Nat.cast_sub (by decide +kernel)]; simp
  rw [h2, h1, psiV_e2, pow_two, ← NC.e2_mul, ← NC.e2_mul]
  exact congrArg NC.e2 (by decide +kernel)

theorem psiU_conj : psiU * E2.conj psiU = E2.of thirdRootOneG1 := by
  have h2 : E2.conj psiU = NC.e2 (0, fpOrder - psiUN.2) := by
    rw [psiU_e2, NC.e2, toE2_eq, NC.e2, psiUN, toE2_eq]
    ext
    · simp
    · rw [Nat.cast_sub (by decide +kernel)]; simp
  have h3 : E2.of thirdRootOneG1 = NC.e2 (4002409555221667392624310435006688643935503118305586438271171395842971157480381377015405980053539358417135540939436, 0) := by
    rw [NC.e2, toE2_eq]; ext <;> simp [thirdRootOneG1]
  rw [h2, h3, psiU_e2, ← NC.e2_mul]
  exact congrArg NC.e2 (by decide +kernel)

theorem psiV_conj : psiV * E2.conj psiV = -1 := by
  have h2 : E2.conj psiV = NC.e2 (psiVN.1, fpOrder - psiVN.2) := by
    rw [psiV_e2, NC.e2, toE2_eq, NC.e2, toE2_eq]
    ext
    · simp
    · rw [Nat.cast_sub (by decide +kernel)]; simp
  have h3 : (-1 : E2 Fp) = NC.e2 (fpOrder - 1, 0) := by
    rw [NC.e2, toE2_eq]
    ext
    · rw [Nat.cast_sub (by decide +kernel)]; simp
    · simp
  rw [h2, h3, psiV_e2, ← NC.e2_mul]
  exact congrArg NC.e2 (by decide +kernel)

theorem t_aux {G : Type} [Field G] {u v : G} (hu : u ≠ 0) (h : v ^ 2 = u ^ 3) :
    (v / u) ^ 2 = u ∧ (v / u) ^ 3 = v ∧ (v / u) ^ 6 = v ^ 2 := by
  have h2 : (v / u) ^ 2 = u := by rw [div_pow, h]; field_simp
  have h3 : (v / u) ^ 3 = v := by rw [pow_succ, h2]; field_simp
  exact ⟨h2, h3, by rw [show 6 = 3 * 2 from rfl, pow_mul, h3]⟩

/-- `psiV / psiU` -/
irreducible_def psiT : E2 Fp := psiV / psiU

theorem psiT_ne : psiT ≠ 0 := by rw [psiT_def]; exact div_ne_zero psiV_ne psiU_ne
theorem psiT_sq : psiT ^ 2 = psiU := by rw [psiT_def]; exact (t_aux psiU_ne psiV_sq).1
theorem psiT_cube : psiT ^ 3 = psiV := by rw [psiT_def]; exact (t_aux psiU_ne psiV_sq).2.1

section
variable {K : Type} [Field K] [TowerField K] [DecidableEq K]

/-- the condition on the scaling -/
def PsiCoeff (t : E2 K) : Prop := t ^ 6 * E2.conjHom (⟨4, 4⟩ : E2 K) = ⟨4, 4⟩

omit [DecidableEq K] in
theorem psiCoeff_iff (t : E2 K) : PsiCoeff t ↔ (t ^ 3) ^ 2 * E2.conj ⟨4, 4⟩ = ⟨4, 4⟩ := by
  rw [PsiCoeff, ← pow_mul]; rfl

/-- the scaled conjugation -/
noncomputable def psiK (t : E2 K) (ht : t ≠ 0) (h : PsiCoeff t) : ETwist K →+ ETwist K :=
  twistHom (E2.conjHom (K := K)) ht h

theorem psiK_pt (t : E2 K) (ht : t ≠ 0) (hb : PsiCoeff t) {Q : ETwist K} {x y : E2 K} (h : Pt Q x y) :
    Pt (psiK t ht hb Q) (t ^ 2 * E2.conj x) (t ^ 3 * E2.conj y) :=
  h.twist (E2.conjHom (K := K)) ht hb

theorem psiK_injective (t : E2 K) (ht : t ≠ 0) (hb : PsiCoeff t) : Function.Injective (psiK t ht hb) :=
  twistHom_injective (E2.conjHom (K := K)) ht hb
end

theorem psi_t : PsiCoeff psiT := by
  rw [psiCoeff_iff, psiT_cube]; exact psi_coeff

/-- the endomorphism computed by `G2Psi` -/
noncomputable def psiHom : ETwist Fp →+ ETwist Fp := psiK psiT psiT_ne psi_t

theorem psiHom_pt {Q : ETwist Fp} {x y : E2 Fp} (h : Pt Q x y) :
    Pt (psiHom Q) (E2.conj x * psiU) (E2.conj y * psiV) := by
  refine (psiK_pt psiT psiT_ne psi_t h).congr ?_ ?_
  · rw [psiT_sq, mul_comm]
  · rw [psiT_cube, mul_comm]

theorem psiHom_injective : Function.Injective psiHom := psiK_injective psiT psiT_ne psi_t

theorem psiHom_sq_pt {Q : ETwist Fp} {x y : E2 Fp} (h : Pt Q x y) :
    Pt (psiHom (psiHom Q)) (E2.of thirdRootOneG1 * x) (-y) := by
  refine (psiHom_pt (psiHom_pt h)).congr ?_ ?_
  · rw [E2.conj_mul, E2.conj_conj, mul_assoc, mul_comm (E2.conj psiU), psiU_conj, mul_comm]
  · rw [E2.conj_mul, E2.conj_conj, mul_assoc, mul_comm (E2.conj psiV), psiV_conj]; ring

theorem jacPsi_rep {P : ETwist Fp} {p : G2Jacobian Fp} (h : JRep P p) : JRep (psiHom P) (jacPsi p) := by
  rcases JacOf.cases h with ⟨rfl, hz⟩ | ⟨-, hz, x, y, h, h3, h4⟩
  · left
    refine ⟨map_zero _, ?_⟩
    simp only [jacPsi, tower, hz]
    exact map_zero E2.conjHom
  · refine JacOf.mk (psiHom_pt h) ?_ ?_ ?_
    · simp only [jacPsi, tower]
      intro e
      exact hz ((map_eq_zero E2.conjHom).1 e)
    · simp only [jacPsi, tower, h3, E2.conj_mul, E2.conj_pow]; ring
    · simp only [jacPsi, tower, h4, E2.conj_mul, E2.conj_pow]; ring

theorem affPsi_rep {P : ETwist Fp} {p : G2Affine Fp} (h : ARep P p) : ARep (psiHom P) (affPsi p) := by
  have := psiHom_pt h
  simp only [ARep, affPsi, tower]
  exact this

/-! ### ψ is the untwisted Frobenius -/

theorem gam1_value : gam1 = NC.e2 (3850754370037169011952147076051364057158807420970682438676050522613628423219637725072182697113062777891589506424760, 151655185184498381465642749684540099398075398968325446656007613510403227271200139370504932015952886146304766135027) := by
  rw [gam1_def, E2.xi_pow_eval _ (by decide +kernel) _ _ (by decide +kernel : _ = (3850754370037169011952147076051364057158807420970682438676050522613628423219637725072182697113062777891589506424760, 151655185184498381465642749684540099398075398968325446656007613510403227271200139370504932015952886146304766135027))]
  rw [NC.e2, toE2_eq]

theorem gam1_psiU : gam1 ^ 2 * psiU = 1 := by
  have h1 : (1 : E2 Fp) = NC.e2 (1, 0) := by rw [NC.e2, toE2_eq]; ext <;> simp
  rw [gam1_value, psiU_e2, pow_two, ← NC.e2_mul, ← NC.e2_mul, h1]
  exact congrArg NC.e2 (by decide +kernel)

theorem gam1_psiV : gam1 ^ 3 * psiV = 1 := by
  have h1 : (1 : E2 Fp) = NC.e2 (1, 0) := by rw [NC.e2, toE2_eq]; ext <;> simp
  rw [gam1_value, psiV_e2, pow_succ, pow_two, ← NC.e2_mul, ← NC.e2_mul, ← NC.e2_mul, h1]
  exact congrArg NC.e2 (by decide +kernel)

theorem frob_inc2 (a : E2 Fp) : (inc2 Fp a) ^ fpOrder = inc2 Fp (E2.conj a) := by
  rw [← map_pow, E2.frob]

theorem w_inv_frob : ((E12.w : E12 Fp)⁻¹) ^ fpOrder = (inc2 Fp gam1)⁻¹ * E12.w⁻¹ := by
  rw [inv_pow, E12.w_frob, mul_inv]; rfl

theorem psi_aux {G : Type} [Field G] (g u w a : G) (n p : ℕ) (hw : w ^ p = g⁻¹ * w) (h : g ^ n * u = 1) :
    (w ^ n) ^ p * a = w ^ n * (a * u) := by
  have hg : g ^ n ≠ 0 := fun e => by rw [e, zero_mul] at h; exact zero_ne_one h
  have : u = (g ^ n)⁻¹ := by exact eq_inv_of_mul_eq_one_right h
  rw [← pow_mul, mul_comm n p, pow_mul, hw, mul_pow, inv_pow, this]; ring

theorem isPsi_psiHom : IsPsi psiHom := by
  intro Q
  by_cases hQ : Q = 0
  · subst hQ; simp only [map_zero]
  obtain ⟨x, y, h⟩ := Pt.exists_of_ne hQ
  have h1 := (psiHom_pt h).twist (inc2 Fp) (inv_ne_zero w_ne_zero) untwist_coeff
  have h2 := frobE_pt (h.twist (inc2 Fp) (inv_ne_zero w_ne_zero) untwist_coeff)
  refine h1.ext (h2.congr ?_ ?_)
  · rw [mul_pow, frob_inc2, map_mul]
    exact psi_aux (inc2 Fp gam1) _ _ _ _ _ w_inv_frob (by rw [← map_pow, ← map_mul, gam1_psiU, map_one])
  · rw [mul_pow, frob_inc2, map_mul]
    exact psi_aux (inc2 Fp gam1) _ _ _ _ _ w_inv_frob (by rw [← map_pow, ← map_mul, gam1_psiV, map_one])

end Spark.G2
