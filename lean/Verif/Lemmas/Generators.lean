import Verif.Lemmas.PairFacts

/-! The standard generators are points of the right order (used by the non-vacuity examples). -/

namespace Spark
open Spec
set_option maxRecDepth 100000

theorem two_ne_Fp : (2 : Fp) ≠ 0 := fun h2 => by
  have h2' : ((2 : ℕ) : Fp) = 0 := by exact_mod_cast h2
  rw [ZMod.natCast_eq_zero_iff] at h2'
  exact absurd (Nat.le_of_dvd (by norm_num) h2') (by decide +kernel)

theorem nonsingular_of {F : Type} [Field F] {b x y : F} (h2 : (2 : F) ≠ 0) (hy : y ≠ 0)
    (h : y ^ 2 = x ^ 3 + b) : (sw b).Nonsingular x y := by
  rw [sw_nonsingular]
  refine ⟨h, Or.inr fun e => ?_⟩
  have : 2 * y = 0 := by linear_combination e
  exact (mul_ne_zero h2 hy) this

/-- the x-coordinate of the generator of G1 (draft-irtf-cfrg-pairing-friendly-curves, 4.2.1) -/
def gen1x : ℕ := 0x17f1d3a73197d7942695638c4fa9ac0fc3688c4f9774b905a14e3a3f171bac586c55e83ff97a1aeffb3af00adb22c6bb
/-- its y-coordinate -/
def gen1y : ℕ := 0x08b3f481e3aaa0f1a09e30ed741d8ae4fcf5e095d5d00af600db18cb2c04b3edd03cc744a2888ae40caa232946c5e7e1

theorem gen1_eqn : ((gen1y : ℕ) : Fp) ^ 2 = ((gen1x : ℕ) : Fp) ^ 3 + 4 := by
  have : ((gen1y ^ 2 : ℕ) : Fp) = ((gen1x ^ 3 + 4 : ℕ) : Fp) := by
    rw [ZMod.natCast_eq_natCast_iff']; decide +kernel
  push_cast at this
  exact this

theorem cast_ne {n : ℕ} (h : n % fpOrder ≠ 0) : ((n : ℕ) : Fp) ≠ 0 := fun e => by
  rw [ZMod.natCast_eq_zero_iff] at e
  exact h (Nat.mod_eq_zero_of_dvd e)

/-- the standard generator of G1 -/
noncomputable def G1gen : E1 Fp :=
  .some (gen1x : Fp) (gen1y : Fp) (nonsingular_of two_ne_Fp (cast_ne (by decide +kernel)) gen1_eqn)

theorem gen2_eqn : (NC.e2 Pairing.genN.2) ^ 2 = (NC.e2 Pairing.genN.1) ^ 3 + ⟨4, 4⟩ := by
  have h : NC.mul Pairing.genN.2 Pairing.genN.2 =
      NC.add (NC.mul Pairing.genN.1 (NC.mul Pairing.genN.1 Pairing.genN.1)) (4, 4) := by decide +kernel
  have := congrArg NC.e2 h
  rw [NC.e2_mul, NC.e2_add, NC.e2_mul, NC.e2_mul] at this
  have h4 : NC.e2 (4, 4) = ⟨4, 4⟩ := by rw [NC.e2, toE2_eq]; ext <;> simp
  rw [h4] at this
  rw [pow_two, this]; ring

/-- the standard generator of G2 -/
noncomputable def G2gen : ETwist Fp :=
  .some (NC.e2 Pairing.genN.1) (NC.e2 Pairing.genN.2)
    (nonsingular_of two_ne_E2 (NC.e2_nz (by decide +kernel)) gen2_eqn)

theorem gen2_check : NC.smulAux Pairing.genN (rOrder - 1) 254 Pairing.genN =
    some (Pairing.genN.1, NC.neg Pairing.genN.2) := by decide +kernel

theorem G2gen_order : rOrder • G2gen = 0 :=
  NC.order_of_check (P := G2gen) (T := Pairing.genN) ⟨_, rfl⟩ 254 gen2_check (by decide +kernel) rfl
    (NC.e2_neg _)

theorem G2gen_ne : G2gen ≠ 0 := WeierstrassCurve.Affine.Point.some_ne_zero _
theorem G1gen_ne : G1gen ≠ 0 := WeierstrassCurve.Affine.Point.some_ne_zero _

end Spark
