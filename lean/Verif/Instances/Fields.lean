import Verif.Instances.Command
import Verif.Props.Tower
import Verif.Props.Torus
import Verif.Props.FinalExp
import Verif.Props.Hints
import Verif.Props.TestCircuits

/-!
# Instances: the tower, the torus, the final exponentiation (C24, C31-C37, C74, C86, C89, C90)
-/

namespace Spark.Instances
open Spark Circ Torus TorusProps FinalExpProps TestCircuitProps

instance_of inst_c24_select_nonbool := TowerProps.c24_select_nonbool 2 (by decide +kernel) (by decide +kernel)

/-! ## Torus -/

/-- `Dec 1` has norm 1 and is neither 1 nor -1 -/
theorem compressible_one : Compressible (Dec 1) :=
  ⟨(c32_decompress_norm 1).1, (c32_decompress_norm 1).2,
    fun h => one_ne_zero (D_eq_neg_one.1 ((dec_eq 1).symm.trans h))⟩

theorem dec_one_sq : Dec 1 * Dec 1 ≠ 1 := by
  intro h
  rw [dec_eq] at h
  have h' := mul_D_eq_one.1 h
  exact two_ne6 (K := Fp) (by rw [← one_add_one_eq_two]; exact h')

theorem dec_one_inverse : Dec 1 * Dec (Ext12.inverseTorus 1) = 1 := by
  rw [c33_inverseTorus, dec_eq, mul_inv_cancel₀ (D_ne_zero 1)]

/-- a value whose decompression is in the cyclotomic subgroup and of large order -/
noncomputable def exY : E6 Fp := exists_cyclotomic.choose
theorem exY_cyc : Dec exY ^ fpOrder ^ 4 * Dec exY = Dec exY ^ fpOrder ^ 2 := exists_cyclotomic.choose_spec.1
theorem exY_order : ∀ k : ℕ, 0 < k → k ≤ 2 ^ 64 → Dec exY ^ k ≠ 1 := exists_cyclotomic.choose_spec.2
theorem exY_sq : Dec exY ^ 2 ≠ 1 := exY_order 2 (by norm_num) (by norm_num)

instance_of inst_c31_dec_injective := c31_dec_injective (Ext12.inverseTorus (Ext12.inverseTorus exY)) exY
  (by rw [c33_inverseTorus, c33_inverseTorus, inv_inv])
instance_of inst_c32_decompress_compress :=
  c32_decompress_compress (Dec 1) compressible_one.1 compressible_one.2.1 compressible_one.2.2
instance_of inst_c32_compress_decompress := c32_compress_decompress 2 two_ne6
instance_of inst_c33_mulTorus_exact := c33_mulTorus_exact 1 1 dec_one_sq
instance_of inst_c33_mulTorus_unsat := c33_mulTorus_unsat 1 (Ext12.inverseTorus 1) dec_one_inverse
instance_of inst_c33_squareTorus_exact := c33_squareTorus_exact exY exY_cyc exY_sq
instance_of inst_c34_exptTorus_exact := c34_exptTorus_exact exY exY_cyc exY_order

theorem inst_c33_mulTorus_sound : ∃ r, (Ext12.mulTorus 1 1).sat r ∧ Dec r = Dec 1 * Dec 1 := by
  obtain ⟨r, h, -⟩ := inst_c33_mulTorus_exact
  have h : (Ext12.mulTorus 1 1).sat r := by rw [h]; rfl
  exact ⟨r, h, c33_mulTorus_sound 1 1 r h⟩

theorem inst_c33_squareTorus_sound : ∃ r, (Ext12.squareTorus exY).sat r ∧ Dec r = Dec exY ^ 2 := by
  obtain ⟨r, h, -⟩ := inst_c33_squareTorus_exact
  have h : (Ext12.squareTorus exY).sat r := by rw [h]; rfl
  exact ⟨r, h, c33_squareTorus_sound exY r h⟩

theorem inst_c34_exptTorus_sound : ∃ r, (Ext12.exptTorus exY).sat r ∧ Dec r = Dec exY ^ seed := by
  obtain ⟨r, h, -⟩ := inst_c34_exptTorus_exact
  have h : (Ext12.exptTorus exY).sat r := by rw [h]; rfl
  exact ⟨r, h, c34_exptTorus_sound exY r h⟩

theorem inst_c34_exptHalfTorus_sound : ∃ r, (Ext12.exptHalfTorus exY).sat r ∧ Dec r = Dec exY ^ halfSeed := by
  obtain ⟨r, h, -⟩ := inst_c34_exptTorus_exact
  have h : (Ext12.exptTorus exY).sat r := by rw [h]; rfl
  rw [Ext12.exptTorus, sat_bind] at h
  obtain ⟨a, ha, -⟩ := h
  exact ⟨a, ha, c34_exptHalfTorus_sound exY a ha⟩

theorem inst_c74_square_torus : ∃ ry r, Hints.squareTorus ry exY = pure r ∧ Dec r = Dec exY ^ 2 :=
  ⟨⟨⟨exY.B0.A0.val, exY.B0.A1.val⟩, ⟨exY.B1.A0.val, exY.B1.A1.val⟩, ⟨exY.B2.A0.val, exY.B2.A1.val⟩⟩,
    HintProps.c74_square_torus (by
      rw [HintProps.Rep6, HintProps.cast6]
      simp) exY_cyc exY_sq⟩

/-! ## Final exponentiation -/

/-- a value whose final exponentiation is not 1 -/
noncomputable def exE : E12 Fp := exists_full_order.choose
theorem exE_ne : exE ≠ 0 := exists_full_order.choose_spec.1
theorem exE_full : exE ^ ((fpOrder ^ 12 - 1) / rOrder) ≠ 1 := exists_full_order.choose_spec.2
theorem exE_C1 : exE.C1 ≠ 0 := C1_ne exE_ne exE_full
theorem exE_safe : (Pairing.finalExp exE).sat (exE ^ fullExponent, exE) := by
  rw [(c35_exact exE exE_ne exE_full).1]; rfl
theorem exE_unsafe : (Pairing.finalExpUnsafeExported exE).sat (exE ^ fullExponent, exE) := by
  rw [(c35_exact exE exE_ne exE_full).2]; rfl

instance_of inst_c35_safe_sound := c35_safe_sound exE exE_ne _ _ exE_safe
instance_of inst_c35_unsafe_sound := c35_unsafe_sound exE exE_ne _ _ exE_unsafe
instance_of inst_c35_exact := c35_exact exE exE_ne exE_full
instance_of inst_c35_safe_satisfiable := c35_safe_satisfiable exE exE_C1
instance_of inst_c35_safe_exact_of_satisfiable := c35_safe_exact_of_satisfiable exE exE_C1 ⟨_, exE_safe⟩
instance_of inst_c35_safe_all := c35_safe_all exE exE_C1
instance_of inst_c35_unsafe_all := c35_unsafe_all exE exE_ne

/-- a value with `C1 = 0` that the safe variant accepts -/
theorem exists_subfield : ∃ e : E12 Fp, e.C1 = 0 ∧ e ≠ 0 ∧ (Pairing.finalExp e).Satisfiable := by
  have h1 := exE_C1
  have h0 : exE.C0 ≠ 0 := fun h0 => by
    apply exE_full
    rw [← easy_cofac exE_ne, easy_of_C0 h0 h1, one_zpow]
  refine ⟨⟨exE.C0 / exE.C1, 0⟩, rfl, fun h' => div_ne_zero h0 h1 (congrArg E12.C0 h'), ?_⟩
  have h2 := (c36_safe_subfield_all ⟨exE.C0 / exE.C1, 0⟩ rfl).1 (by
    intro h
    have hs : (⟨exE.C0 / exE.C1, 1⟩ : E12 Fp) ≠ 0 := fun h => one_ne_zero (congrArg E12.C1 h)
    have he : easy (⟨exE.C0 / exE.C1, 1⟩ : E12 Fp) = 1 := by
      have := easy_pow hs 1 ((((fpOrder ^ 6 - 1) * (fpOrder ^ 2 + 1) : ℕ) : ℤ)) (by decide +kernel)
      rw [zpow_one, zpow_natCast] at this
      rw [this, h]
    rw [easy_scale h1] at he
    apply exE_full
    rw [← easy_cofac exE_ne, he, one_zpow])
  exact ⟨_, by rw [h2]; rfl⟩

noncomputable def exS : E12 Fp := exists_subfield.choose
theorem exS_C1 : exS.C1 = 0 := exists_subfield.choose_spec.1
theorem exS_ne : exS ≠ 0 := exists_subfield.choose_spec.2.1

theorem inst_c36_safe_subfield : ∃ e', (Pairing.finalExp exS).sat (1, e') ∧ e' = ⟨exS.C0, 1⟩ ∧ e' ≠ exS := by
  obtain ⟨⟨out, e'⟩, h⟩ := exists_subfield.choose_spec.2.2
  obtain rfl := c36_safe_subfield _ exS_C1 _ _ h
  exact ⟨e', h, c37_safe_mutates _ _ _ exS_C1 h⟩

instance_of inst_c36_safe_subfield_all := c36_safe_subfield_all exS exS_C1
instance_of inst_c36_unsafe_subfield := c36_unsafe_subfield exS exS_C1 exS_ne
instance_of inst_c36_C0_zero := c36_C0_zero ⟨0, 2⟩ rfl two_ne6
instance_of inst_c36_unsafe_zero_free := c36_unsafe_zero_free exE _ exE_unsafe
instance_of inst_c37_unsafe_unchanged := c37_unsafe_unchanged exE _ _ exE_unsafe
instance_of inst_c37_safe_unchanged_partial := c37_safe_unchanged_partial exE _ _ exE_C1 exE_safe

theorem inst_c37_safe_mutates : ∃ e', (Pairing.finalExp exS).sat (1, e') ∧ e' ≠ exS := by
  obtain ⟨e', h, -⟩ := inst_c36_safe_subfield
  exact ⟨e', h, (c37_safe_mutates _ _ _ exS_C1 h).2⟩

/-! ## The test circuits -/

theorem exY_cyclotomic : Cyclotomic (Dec exY) := ⟨by rw [dec_eq]; exact D_ne_zero exY, exY_cyc⟩
theorem exY_compressible : Compressible (Dec exY) :=
  ⟨(c32_decompress_norm exY).1, (c32_decompress_norm exY).2, fun h => exY_sq (by rw [h]; norm_num)⟩

instance_of inst_c89_compress := c89_compress ⟨3, 2⟩ 2 two_ne6
instance_of inst_c89_compress_subfield := c89_compress_subfield ⟨2, 0⟩ 2 rfl
instance_of inst_c89_decompress := c89_decompress (Dec 1) 1 compressible_one
instance_of inst_c89_mul := c89_mul (Dec 1) (Dec exY) 1 compressible_one exY_compressible
instance_of inst_c89_inverse := c89_inverse (Dec 1) 1 compressible_one
instance_of inst_c89_frobenius := c89_frobenius (Dec 1) 1 compressible_one
instance_of inst_c89_square_satisfiable := c89_square_satisfiable (Dec 1) 1 compressible_one
instance_of inst_c89_square := c89_square (Dec exY) 1 exY_compressible exY_cyclotomic
instance_of inst_c89_exptTorus := c89_exptTorus exY exY_cyclotomic
instance_of inst_c89_expt := c89_expt exY 1 exY_cyclotomic
instance_of inst_c89_inputs := c89_inputs exE exE_ne
instance_of inst_c89_decompress_minus_one := c89_decompress_minus_one (Dec 1) compressible_one.1 compressible_one.2.1

theorem not_dvd {a : ℕ} (h : 0 < a) (h' : a < rOrder) : ¬ rOrder ∣ a := fun hd => absurd (Nat.le_of_dvd h hd) (by omega)

theorem not_dvd' {a : ℕ} (h : (decide (0 < a ∧ a < rOrder)) = true) : ¬ rOrder ∣ a :=
  not_dvd (of_decide_eq_true h).1 (of_decide_eq_true h).2

instance_of inst_c90_pair (Res : E12 Fp) := c90_pair 2 3 (not_dvd' (by decide +kernel)) (not_dvd' (by decide +kernel)) Res
instance_of inst_c90_pairFixed (Res : E12 Fp) := c90_pairFixed 2 (not_dvd' (by decide +kernel)) Res
instance_of inst_c90_multiPair (Res : E12 Fp) := c90_multiPair 2 3 4 5 (not_dvd' (by decide +kernel)) (not_dvd' (by decide +kernel)) (not_dvd' (by decide +kernel)) (not_dvd' (by decide +kernel)) Res
instance_of inst_c90_pairingCheck := c90_pairingCheck 2 (rOrder - 2) 4 5 (not_dvd' (by decide +kernel)) (not_dvd' (by decide +kernel)) (not_dvd' (by decide +kernel)) (not_dvd' (by decide +kernel))
instance_of inst_c90_doublePairFixed (Res : E12 Fp) := c90_doublePairFixed 2 3 4 (not_dvd' (by decide +kernel)) (not_dvd' (by decide +kernel)) (not_dvd' (by decide +kernel)) Res

end Spark.Instances
