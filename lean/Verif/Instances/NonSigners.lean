import Verif.Instances.Circuits
import Verif.Props.NonSigners

/-!
# Instances: validators who do not sign (C100)

Validators 1 and 2 do not sign; their entries are replaced by empty places.
-/

namespace Spark.Instances
open Spark Circ Spec Circuit Pairing PairingProps HashProps CircuitProps GroupProps NonSignerProps Witness
set_option autoImplicit false

/-- ten keys -/
noncomputable def tenKeys : Fin 10 → G1In := fun i => newG1Affine (enc1 (skA i • G1gen))
/-- the same keys, places 1 and 2 empty -/
noncomputable def eightKeys : Fin 10 → G1In := fun i => if patA i then tenKeys i else emptySlot
/-- the bits -/
noncomputable def eightBits : Fin 10 → Fr := fun i => bit (patA i)

theorem tenKeys_fit (i : Fin 10) : (tenKeys i).Fits := ⟨(c58_circuit _).1, (c58_circuit _).1⟩
theorem tenKeys_denote (i : Fin 10) : Denotes (tenKeys i) (skA i • G1gen) :=
  c58_denotes _ (smul_ne (by revert i; decide) (lt_of_lt_of_le (by revert i; decide : skA i < 5000) big.le))
theorem eightKeys_fit (i : Fin 10) : (eightKeys i).Fits := by
  rw [eightKeys]
  split
  · exact tenKeys_fit i
  · exact emptySlot_fits
theorem patA_of {i : Fin 10} (h : eightBits i = 1) : patA i = true := by
  cases e : patA i
  · rw [eightBits, e, bit_false] at h; exact absurd h zero_ne_one
  · rfl
theorem eight_same : SameSigners eightBits tenKeys eightKeys := fun i h => by rw [eightKeys, if_pos (patA_of h)]
theorem eight_bits (i : Fin 10) : eightBits i = 0 ∨ eightBits i = 1 := by
  rw [eightBits]; cases patA i <;> simp
/-- non-signers get the weight 0 -/
theorem eight_weights : SameSigners eightBits (fun _ => (100 : Fr)) fun i => if patA i then 100 else 0 := fun i h => by
  simp only [if_pos (patA_of h)]

instance_of inst_c100_aggregate (mode : Mode) := c100_aggregate mode tenKeys_fit eightKeys_fit eightBits eight_same
instance_of inst_c100_transaction (mode : Mode) := c100_transaction mode tenKeys_fit eightKeys_fit eight_same
  eight_weights (commit_isCommitment _ _) (commit_isCommitment _ _)
instance_of inst_c100_rotation (mode : Mode) (oldW newW newW' : Fin 10 → Fr) := c100_rotation (old := tenKeys)
  (old' := tenKeys) (oldW := oldW) (oldW' := oldW) (newW := newW) (newW' := newW') mode tenKeys_fit eightKeys_fit
  eight_same (trusted_same eight_same) (commit_isCommitment _ _) (commit_isCommitment _ _) (commit_isCommitment _ _)
  (commit_isCommitment _ _)
theorem inst_c100_keys_replaced {mode : Mode} (M : G2In) (oldW newW weights : Fin 10 → Fr) :
    ∃ tw n, IsCommitment (fun i => (eightKeys i).X) (fun i => (eightKeys i).Y) weights n ∧
      RotateAccepted mode ⟨M, commit exKeys oldW, n, msgVars G2.exMsg, tw⟩
        ⟨oldW, weights, exKeys, eightKeys, eightBits, newG2Affine (enc2 exSig)⟩ := by
  obtain ⟨tw, h⟩ := c63_rotation_example (mode := mode) M exKeys oldW newW
  exact ⟨tw, c100_keys_replaced ⟨(), (rotateDefine _ _ _).ok _ h⟩ eightKeys_fit eight_same weights⟩
instance_of inst_c100_padded {mode : Mode} (M : G2In) (c t : Fr) (w : Fin 10 → Fr) :=
  c100_padded (mode := mode) (pub := ⟨M, c, t⟩)
    (priv := ⟨eightKeys, newG2Affine (enc2 exSig), eightBits, w, msgVars G2.exMsg⟩) skA eightKeys_fit
    (fun i h => by show Denotes (eightKeys i) _; rw [← eight_same i h]; exact tenKeys_denote i)
    eight_bits skA_general (Or.inr ⟨patA_gaps, patA_absent⟩)
    (by show ¬ rOrder ∣ secretSum skA (fun i => bit (patA i) = 1); rw [skA_sum]; decide +kernel) exSig Hpt H_hash H_ne
    H_order rfl S_ne S_order

end Spark.Instances
