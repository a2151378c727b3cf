import Verif.Lemmas.Torus

/-! Cyclotomic elements, torus Frobenius maps, exponentiation by the seed. -/

namespace Spark
open Circ
set_option maxRecDepth 100000

namespace Torus

/-! ### Frobenius -/

theorem E6_of_conj (a : E2 Fp) (y : E6 Fp) : y * E6.of a = ⟨y.B0 * a, y.B1 * a, y.B2 * a⟩ := by
  ext1 <;> simp

theorem gam1_inv_aux : gam1 * ⟨877076961050607968509681729531255177986764537961432449499635504522207616027455086505066378536590128544573588734230, 877076961050607968509681729531255177986764537961432449499635504522207616027455086505066378536590128544573588734230⟩ = 1 := by
  have h : (toE2 fpOrder (877076961050607968509681729531255177986764537961432449499635504522207616027455086505066378536590128544573588734230, 877076961050607968509681729531255177986764537961432449499635504522207616027455086505066378536590128544573588734230)) * toE2 fpOrder (3850754370037169011952147076051364057158807420970682438676050522613628423219637725072182697113062777891589506424760, 151655185184498381465642749684540099398075398968325446656007613510403227271200139370504932015952886146304766135027) = toE2 fpOrder (1, 0) := by
    rw [← toE2_mul2 (dvd_refl _) fpOrder_pos]
    exact congrArg (toE2 fpOrder) (by decide +kernel)
  have hg : gam1 = toE2 fpOrder (3850754370037169011952147076051364057158807420970682438676050522613628423219637725072182697113062777891589506424760, 151655185184498381465642749684540099398075398968325446656007613510403227271200139370504932015952886146304766135027) := by
    rw [gam1_def, E2.xi_pow_eval _ (by decide +kernel) _ _ (by decide +kernel : _ = (3850754370037169011952147076051364057158807420970682438676050522613628423219637725072182697113062777891589506424760, 151655185184498381465642749684540099398075398968325446656007613510403227271200139370504932015952886146304766135027))]
    rfl
  have h1 : toE2 fpOrder (1, 0) = 1 := by ext <;> simp [toE2]
  rw [hg, mul_comm, ← h1, ← h]
  rfl

theorem frobeniusTorus_eq (y : E6 Fp) : Ext12.frobeniusTorus y * E6.of gam1 = y ^ fpOrder := by
  have hp : (fpOrder ^ 1 - 1) = 6 * ((fpOrder - 1) / 6) := by
    rw [pow_one]; have := fpOrder_six; omega
  have e2 : gam1 ^ 2 = ⟨0, 4002409555221667392624310435006688643935503118305586438271171395842971157480381377015405980053539358417135540939436⟩ := by
    rw [← Ext2.xi_1_2, gam1_def, ← pow_mul]; exact congrArg _ (by omega)
  have e4 : gam1 ^ 4 = E2.of 4002409555221667392624310435006688643935503118305586438271171395842971157480381377015405980053539358417135540939437 := by
    rw [← Ext2.xi_1_4, gam1_def, ← pow_mul]; exact congrArg _ (by omega)
  have hinv := gam1_inv_aux
  rw [E6.frob]
  simp only [Ext12.frobeniusTorus, Ext6.mulBy0_eq, Ext2.conjugate_eq]
  have f2 : ∀ x, Ext2.mulByNonResidue1Power2 x = x * gam1 ^ 2 := by
    intro x; rw [e2]; ext <;> simp [Ext2.mulByNonResidue1Power2]
  have f4 : ∀ x, Ext2.mulByNonResidue1Power4 x = x * gam1 ^ 4 := by
    intro x; rw [e4]; ext <;> simp [Ext2.mulByNonResidue1Power4]
  rw [f2, f4]
  generalize (⟨877076961050607968509681729531255177986764537961432449499635504522207616027455086505066378536590128544573588734230, 877076961050607968509681729531255177986764537961432449499635504522207616027455086505066378536590128544573588734230⟩ : E2 Fp) = g' at hinv ⊢
  rw [mul_assoc, ← E6.of_mul, mul_comm g', hinv, E6.of_one, mul_one]

theorem frobeniusSquareTorus_eq (y : E6 Fp) :
    Ext12.frobeniusSquareTorus y * E6.of gam2 = y ^ fpOrder ^ 2 := by
  have hp : (fpOrder ^ 2 - 1) = 6 * ((fpOrder ^ 2 - 1) / 6) := by
    have := fpOrder_sq_six; omega
  have e2 : gam2 ^ 2 = E2.of 793479390729215512621379701633421447060886740281060493010456487427281649075476305620758731620350 := by
    rw [← Ext2.xi_2_2, gam2_def, ← pow_mul]; exact congrArg _ (by omega)
  have e4 : gam2 ^ 4 = E2.of 4002409555221667392624310435006688643935503118305586438271171395842971157480381377015405980053539358417135540939436 := by
    rw [← Ext2.xi_2_4, gam2_def, ← pow_mul]; exact congrArg _ (by omega)
  have e5 : gam2 ^ 5 = E2.of 4002409555221667392624310435006688643935503118305586438271171395842971157480381377015405980053539358417135540939437 := by
    rw [← Ext2.xi_2_5, gam2_def, ← pow_mul]; exact congrArg _ (by omega)
  have f2 : ∀ x, Ext2.mulByNonResidue2Power2 x = x * gam2 ^ 2 := by
    intro x; rw [e2]; ext <;> simp [Ext2.mulByNonResidue2Power2]
  have f4 : ∀ x, Ext2.mulByNonResidue2Power4 x = x * gam2 ^ 4 := by
    intro x; rw [e4]; ext <;> simp [Ext2.mulByNonResidue2Power4]
  have h6 : gam2 ^ 5 * gam2 = 1 := by
    rw [← pow_succ, show 5 + 1 = 3 * 2 by rfl, pow_mul, gam2_cube]; ring
  rw [E6.frob2]
  simp only [Ext12.frobeniusSquareTorus, Ext2.mulByElement_eq, f2, f4, ← e5]
  rw [E6_of_conj]
  ext1 <;> dsimp only
  · linear_combination y.B0 * h6
  · linear_combination y.B1 * gam2 ^ 2 * h6
  · linear_combination y.B2 * gam2 ^ 4 * h6

theorem D_frob_aux (g : E2 Fp) (y y' z : E6 Fp) (φ : E12 Fp →+* E12 Fp)
    (hof : φ (E12.of y) = E12.of y')
    (hw : φ E12.w = E12.of (E6.of g) * E12.w) (hg : g ≠ 0) (hz : z * E6.of g = y') :
    D z = φ (D y) := by
  symm
  rw [eq_D_iff]
  have h1 := congrArg φ (D_spec y)
  rw [map_mul, map_sub, map_add, hof, hw, ← hz, E12.of_mul] at h1
  have hg12 : E12.of (E6.of g) ≠ 0 := fun h => hg (E6.of_injective (E12.of_injective h))
  apply mul_right_cancel₀ hg12
  linear_combination h1

theorem gam1_ne : gam1 ≠ 0 := fun h => by
  have := gam1_inv_aux; rw [h, zero_mul] at this; exact zero_ne_one this
theorem gam2_ne : gam2 ≠ 0 := fun h => by
  have := gam2_cube; rw [h] at this; simp at this

theorem D_frobeniusTorus (y : E6 Fp) : D (Ext12.frobeniusTorus y) = frobHom (D y) :=
  D_frob_aux gam1 y _ _ frobHom (by rw [frobHom_apply, E12.of_pow])
    (by rw [frobHom_apply, E12.w_frob]) gam1_ne (frobeniusTorus_eq y)

theorem D_frobeniusSquareTorus (y : E6 Fp) : D (Ext12.frobeniusSquareTorus y) = frobHom2 (D y) :=
  D_frob_aux gam2 y _ _ frobHom2 (by rw [frobHom2_apply, E12.of_pow])
    (by rw [frobHom2_apply, E12.w_frob2]) gam2_ne (frobeniusSquareTorus_eq y)

/-! ### cyclotomic squaring -/

/-- member of the cyclotomic subgroup: `a^(p⁴-p²+1) = 1`, written without subtraction -/
def Cyc (a : E12 Fp) : Prop := frobHom2 (frobHom2 a) * a = frobHom2 a

theorem Cyc.mul {a b : E12 Fp} (ha : Cyc a) (hb : Cyc b) : Cyc (a * b) := by
  unfold Cyc at *
  rw [map_mul, map_mul]
  linear_combination frobHom2 (frobHom2 b) * b * ha + frobHom2 a * hb

theorem Cyc.inv {a : E12 Fp} (ha : Cyc a) : Cyc a⁻¹ := by
  unfold Cyc at *
  rw [map_inv₀, map_inv₀, ← mul_inv, ha]

theorem Cyc.frob {a : E12 Fp} (ha : Cyc a) : Cyc (frobHom a) := by
  unfold Cyc at *
  have h : ∀ x, frobHom2 (frobHom x) = frobHom (frobHom2 x) := by
    intro x; rw [frobHom2_eq, frobHom2_eq]
  rw [h, h, ← map_mul, ha]

theorem Cyc.frob2 {a : E12 Fp} (ha : Cyc a) : Cyc (frobHom2 a) := by
  rw [frobHom2_eq]; exact ha.frob.frob

theorem cyclotomicSquare_aux (g : E2 Fp) (hg : g ^ 2 = g - 1) (φ : E12 Fp → E12 Fp)
    (hφ : ∀ a, φ a = ⟨⟨a.C0.B0, (g - 1) * a.C0.B1, -g * a.C0.B2⟩,
     ⟨g * a.C1.B0, -a.C1.B1, (1 - g) * a.C1.B2⟩⟩) (a : E12 Fp) (h : φ (φ a) * a = φ a) :
    Ext12.cyclotomicSquare a = a * a := by
  have hφ2 : φ (φ a) = ⟨⟨a.C0.B0, -g * a.C0.B1, (g - 1) * a.C0.B2⟩,
     ⟨(g - 1) * a.C1.B0, a.C1.B1, -g * a.C1.B2⟩⟩ := by
    rw [hφ, hφ]
    ext1
    · ext1 <;> dsimp only
      · linear_combination a.C0.B1 * hg
      · linear_combination a.C0.B2 * hg
    · ext1 <;> dsimp only
      · linear_combination a.C1.B0 * hg
      · ring
      · linear_combination a.C1.B2 * hg
  rw [hφ2, hφ] at h
  obtain ⟨⟨x0, x2, x4⟩, ⟨x1, x3, x5⟩⟩ := a
  have e0 := congrArg (fun z => z.C0.B0) h
  have e1 := congrArg (fun z => z.C1.B0) h
  have e2 := congrArg (fun z => z.C0.B1) h
  have e3 := congrArg (fun z => z.C1.B1) h
  have e4 := congrArg (fun z => z.C0.B2) h
  have e5 := congrArg (fun z => z.C1.B2) h
  simp only [E12.C0_mul, E12.C1_mul, E6.B0_mul, E6.B1_mul, E6.B2_mul, E6.B0_add, E6.B1_add,
    E6.B2_add, E6.B0_v, E6.B1_v, E6.B2_v] at e0 e1 e2 e3 e4 e5
  ext1
  · ext1 <;> simp only [Ext12.cyclotomicSquare, E12.C0_mul, E6.B0_mul, E6.B1_mul, E6.B2_mul,
      E6.B0_add, E6.B1_add, E6.B2_add, E6.B0_v, E6.B1_v, E6.B2_v]
    · linear_combination 2 * e0
    · linear_combination -2 * g * e2
        + 2 * (-x0 * x2 + x1 * x1 - E2.xi * x3 * x5 + E2.xi * x4 * x4 - x2) * hg
    · linear_combination -2 * (1 - g) * e4
        - 2 * (x0 * x4 + x1 * x3 - x2 * x2 - E2.xi * x5 * x5 + x4) * hg
  · ext1 <;> simp only [Ext12.cyclotomicSquare, E12.C1_mul, E6.B0_mul, E6.B1_mul, E6.B2_mul,
      E6.B0_add, E6.B1_add, E6.B2_add]
    · linear_combination -2 * (1 - g) * e1
        - 2 * (x0 * x1 - 2 * E2.xi * x2 * x5 + E2.xi * x3 * x4 - x1) * hg
    · linear_combination 2 * e3
    · linear_combination -2 * g * e5 - 2 * (x0 * x5 - 2 * x1 * x4 + x2 * x3 - x5) * hg

theorem cyclotomicSquare_eq {a : E12 Fp} (ha : Cyc a) : Ext12.cyclotomicSquare a = a * a :=
  cyclotomicSquare_aux gam2 gam2_sq frobHom2 frobHom2_coord a ha

end Torus
end Spark
