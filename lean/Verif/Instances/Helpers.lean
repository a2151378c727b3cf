import Verif.Instances.Circuits
import Verif.Props.RotationExample

/-!
# Instances: the off-circuit helpers (C68-C72)

The secret keys are `1, 2, 4, …, 512`; the random numbers `1, 3, 1024, 7, 1` replace validator 3 (Props/RotationExample).
-/

namespace Spark.Instances
open Spark Circ Spec Circuit Pairing PairingProps CircuitProps GroupProps HelperProps Witness
set_option autoImplicit false

/-- an off-circuit hash: the hash point of the rotation example for the bytes of its commitment, the generator for
everything else -/
noncomputable def exHashG2 (m : List Fips.Byte) : ETwist Fp := if m = rotMsg.toList then Rot.Hpt else G2gen

theorem exHashG2_msg : exHashG2 rotMsg.toList = Rot.Hpt := if_pos rfl
theorem exHashG2_order (m : List Fips.Byte) : rOrder • exHashG2 m = 0 := by
  rw [exHashG2]
  split
  · exact Rot.H_order
  · exact G2gen_order

theorem rotBits_lt (i : Fin 10) : rotBits i < 2 := by revert i; decide
theorem hundred_lt : 100 < frOrder := by decide +kernel

instance_of inst_c68_generate := c68_generate hashH_spec
instance_of inst_c69_every_replacement :=
  c69_every_replacement hashH_spec exHashG2 rotSk (fun _ => 100) rotBits rotBits_lt (fun _ => hundred_lt) 3 1024 7 1
    (by norm_num) (by norm_num) (by norm_num) []

/-- the output of the helper for the random numbers of the example -/
noncomputable def exOut : Helpers.NewSet := inst_c69_every_replacement.choose
theorem exOut_spec : Helpers.generateNew hashH exHashG2 (List.ofFn rotSk) (List.ofFn fun i => rotSk i • G1gen)
    (List.ofFn fun _ : Fin 10 => 100) (List.ofFn rotBits) [1, 3, 1024, 7, 1] = some (exOut, []) :=
  inst_c69_every_replacement.choose_spec.1

instance_of inst_c69_generate_new := c69_generate_new hashH_spec exHashG2 rotSk (fun _ => 100) rotBits rotBits_lt
  (fun _ => hundred_lt) _ _ exOut exOut_spec
instance_of inst_c69_trusted_mismatch := c69_trusted_mismatch hashH_spec exHashG2

theorem rot_fresh (i j : Fin 10) (h : (enc1 (rotSk' i • G1gen)).X = (enc1 (rotSk j • G1gen)).X) :
    rotSk' i • G1gen = rotSk i • G1gen ∧ rotW' i = 100 := by
  by_cases hi : i = 3
  · exfalso
    subst hi
    have h3 : rotSk' 3 = 1024 := rfl
    have h4 : rotSk j < 1024 := pow_lt j
    have h5 : 0 < rotSk j := by rw [rotSk]; positivity
    have h6 := big
    rw [h3] at h
    rcases same_abscissa (by rw [← h3]; exact (rot_key_pt 3).ne_zero) (key_ne j) h with e | e
    · exact smul_ne (n := 1024 - rotSk j) (by omega) (by omega) (smul_diff (by omega) e.symm)
    · refine smul_ne (n := 1024 + rotSk j) (by omega) (by omega) ?_
      rw [add_nsmul, e]
      exact neg_add_cancel _
  · exact ⟨by rw [rotSk', if_neg hi, rotSk], by rw [rotW', if_neg hi]⟩

instance_of inst_c69_trusted_weight := c69_trusted_weight (sk := rotSk) (w := fun _ => 100) (sk' := rotSk') (w' := rotW')
  (b' := rotBits) rotBits_lt (fun _ => by norm_num) key_ne rot_fresh

-- three keys, the first and the last sign
instance_of inst_c70_verify := c70_verify [3, 5, 11] [1, 0, 1] (14 • Hpt) Hpt (order_nsmul H_order _) H_order
instance_of inst_c70_generate_new := c70_generate_new hashH_spec exHashG2 exHashG2_order rotSk (fun _ => 100) rotBits
  rotBits_lt (fun _ => hundred_lt) _ _ exOut exOut_spec

theorem nine_general : GeneralPosition (fun i => rotSk i • G1gen) fun i => rotBits i = 1 := key_general _
theorem nine_secret : ¬ rOrder ∣ secretSum rotSk fun i => rotBits i = 1 := by
  rw [secretSum]
  rw [(Finset.sum_congr rfl fun i _ => by congr).trans
    (by decide : (∑ i, if rotBits i = 1 then rotSk i else 0) = 991)]
  decide +kernel

-- everybody but validator 5 signs
instance_of inst_c71_transaction := c71_transaction hashH_spec rotSk (fun _ => 100) rotBits rotBits_lt
  (fun _ => hundred_lt) key_ne nine_general nine_secret G2.exMsg Hpt H_hash H_ne H_order
instance_of inst_c71_rotation_example := c71_rotation_example hashH_spec exHashG2 exHashG2_msg

theorem inst_c71_rotation (M : G2In) : ∃ (out : Helpers.NewSet) (oldC : ℕ) (pub : RotatePublic) (priv : RotatePrivate) (z : E12 Fp),
    genCommitment hashH ((List.ofFn fun i => rotSk i • G1gen).map Helpers.coords) (List.ofFn fun _ : Fin 10 => 100) = some oldC ∧
    Helpers.rotateWitness (List.ofFn fun i => rotSk i • G1gen) out.publicKeys out.bitlist
      (List.ofFn fun _ : Fin 10 => 100) out.weights out.signature oldC out.commitment out.trustedWeight M =
        some (pub, priv) ∧
    (safeInput z ^ ((fpOrder ^ 6 - 1) * (fpOrder ^ 2 + 1)) ≠ 1 → (rotateDefine .engine pub priv).run = some ()) := by
  obtain ⟨out, hgen, e1, e2, e3, hlt, hcom, e5, -⟩ := inst_c69_every_replacement
  have usk : Function.update rotSk 3 1024 = rotSk' := by decide
  have uw : Function.update (fun _ : Fin 10 => 100) 3 7 = rotW' := by decide
  have ub : Function.update rotBits 3 1 = rotBits := by decide
  rw [usk] at e1
  rw [uw] at e2
  rw [ub] at e3
  rw [usk, uw] at hcom
  have hcN := rot_commitment hlt hcom
  have hmsg : out.msg = Rot.Hpt := by
    rw [e5, hcN, rot_bytes, exHashG2_msg]
  obtain ⟨oldC, hold, -, -⟩ := commitment_of hashH_spec rotSk (fun _ => 100) (fun _ => hundred_lt)
  obtain ⟨pub, priv, z, hw, -, hz⟩ := c71_rotation hashH_spec exHashG2 rotSk (fun _ => 100) rotBits rotBits_lt
    (fun _ => by norm_num) key_ne oldC hold _ _ out hgen (fun i => rotSk' i • G1gen) rotBits rotW' e1 e3 e2
    (fun i => (rot_key_pt i).ne_zero) rot_fresh rot_general
    (by rw [signersSum_secret, rot_secret]; exact rot_sum_pt.ne_zero) rotMsg
    (by rw [hcN]; exact rot_bytes) (by rw [hmsg]; exact rot_hash)
    (by rw [hmsg]; exact Rot.H_ne) (by rw [hmsg]; exact Rot.H_order) M
  exact ⟨out, oldC, pub, priv, z, hold, hw, hz⟩

instance_of inst_c72_bytes := c72_bytes Rot.cN (by decide +kernel)
instance_of inst_c72_short_commitment (M : G2In) := c72_short_commitment [G1gen] [G1gen] [1] [100] [100] Hpt 5 7 100 M
  (by norm_num)

end Spark.Instances
