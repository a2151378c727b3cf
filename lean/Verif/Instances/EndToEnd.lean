import Verif.Instances.Helpers
import Verif.Props.EndToEnd
import Verif.Props.Progress
import Verif.Props.Accountability
import Verif.Props.NoSigner
import Verif.Props.Combine
import Verif.Props.Order
import Verif.Props.Modes
import Verif.Props.Scope
import Verif.Props.Tamper
import Verif.Props.Replay

/-!
# Instances: C101, C104, C105, C106, C107, C108, C109, C110, C111, C112
-/

namespace Spark.Instances
open Spark Circ Spec Circuit Pairing PairingProps CircuitProps GroupProps HelperProps Witness
set_option autoImplicit false

/-- RFC 9380 as a function -/
noncomputable def rfcHash : List Fips.Byte → ETwist Fp := c101_hash_unique.choose
theorem rfcHash_spec : IsRfcHash rfcHash := c101_hash_unique.choose_spec.1

-- everybody but validator 5 signs, test engine
instance_of inst_c101_transaction := c101_transaction (mode := .engine) hashH_spec rfcHash_spec rotSk (fun _ => 100) rotBits
  rotBits_lt (fun _ => hundred_lt) key_ne nine_general (Or.inl rfl) nine_secret G2.exMsg ex_regular
  (by rw [ex_rfc rfcHash_spec]; exact H_ne)

theorem inst_c101_rotation (M : G2In) :
    ∃ (out : Helpers.NewSet) (oldC : ℕ) (pub : RotatePublic) (priv : RotatePrivate) (z : E12 Fp),
    genCommitment hashH ((List.ofFn fun i => rotSk i • G1gen).map Helpers.coords) (List.ofFn fun _ : Fin 10 => 100) = some oldC ∧
    Helpers.rotateWitness (List.ofFn fun i => rotSk i • G1gen) out.publicKeys out.bitlist
      (List.ofFn fun _ : Fin 10 => 100) out.weights out.signature oldC out.commitment out.trustedWeight M =
        some (pub, priv) ∧
    ((rotateDefine .engine pub priv).run = some () ↔ ¬ ExceptionProps.Exceptional z) := by
  obtain ⟨out, hgen, e1, e2, e3, hlt, hcom, e5, -⟩ := c69_every_replacement hashH_spec rfcHash rotSk (fun _ => 100) rotBits
    rotBits_lt (fun _ => hundred_lt) 3 1024 7 1 (by norm_num) (by norm_num) (by norm_num) []
  have usk : Function.update rotSk 3 1024 = rotSk' := by decide
  have uw : Function.update (fun _ : Fin 10 => 100) 3 7 = rotW' := by decide
  have ub : Function.update rotBits 3 1 = rotBits := by decide
  rw [usk] at e1
  rw [uw] at e2
  rw [ub] at e3
  rw [usk, uw] at hcom
  have hcN := rot_commitment hlt hcom
  obtain ⟨oldC, hold, -, -⟩ := commitment_of hashH_spec rotSk (fun _ => 100) (fun _ => hundred_lt)
  obtain ⟨pub, priv, z, hw, -, hz⟩ := c101_rotation (mode := .engine) hashH_spec rfcHash_spec rotSk (fun _ => 100) rotBits
    rotBits_lt (fun _ => by norm_num) key_ne oldC hold _ _ out hgen (fun i => rotSk' i • G1gen) rotBits rotW' e1 e3 e2
    (fun i => (rot_key_pt i).ne_zero) rot_fresh rot_general
    (by rw [signersSum_secret, rot_secret]; exact rot_sum_pt.ne_zero) (Or.inl rfl)
    (by rw [hcN]; decide +kernel) (by rw [hcN, rot_bytes]; exact rot_regular)
    (by rw [e5, hcN, rot_bytes, rot_rfc rfcHash_spec]; exact Rot.H_ne) M
  exact ⟨out, oldC, pub, priv, z, hold, hw, hz⟩

instance_of inst_c101_transaction_example {mode : Mode} := c101_transaction_example (mode := mode) hashH_spec rfcHash_spec
instance_of inst_c101_rotation_example := c101_rotation_example hashH_spec rfcHash_spec

open HistoryProps in
/-- an honest history of a million events -/
theorem inst_c104_progress {mode : Mode} (M : G2In) : ∃ es : List Event, es.length = 4 * 250000 ∧
    (∀ e ∈ es, Event.Proved mode e) ∧
    Follows mode (commit exFirst.keys exFirst.weights) es (commit exFirst.keys exFirst.weights) ∧
    Ideal exFirst.set es exFirst.set := by
  obtain ⟨es, h, hl⟩ := c104_example (mode := mode) M 250000
  exact ⟨es, hl, c104_progress h (commit_isCommitment _ _) (commit_isCommitment _ _)⟩

section
open HistoryProps

-- validators 0 and 1 sign; the bit list names 0, 3, 4 and 5
instance_of inst_c105_transaction {mode : Mode} (M : G2In) (w : Fr) := c105_transaction (collide_two (mode := mode))
  (collide_four (mode := mode)).general (collide_four (mode := mode)).exact (collide_four (mode := mode)).secret M (commit_isCommitment _ _) w
instance_of inst_c105_rotation {mode : Mode} (M : G2In) (w : Fr) := c105_rotation (V := exFirst) (collide_two (mode := mode))
  (collide_four (mode := mode)).general (collide_four (mode := mode)).exact (collide_four (mode := mode)).secret M (exFirst_can (mode := mode)).keys (commit_isCommitment _ _)
  (commit_isCommitment _ _) w
-- all ten sign; the bit list omits validators 1 and 2
instance_of inst_c105_accountable {mode : Mode} (M : G2In) (w : Fr) := c105_accountable (exFirst_can (mode := mode))
  exFirst_distinct (b' := patA) ⟨0, rfl⟩ (Or.inr ⟨patA_gaps, patA_absent⟩) M (commit_isCommitment _ _) w
instance_of inst_c105_accountable_rotation {mode : Mode} (M : G2In) (w : Fr) := c105_accountable_rotation (V := exSecond)
  (exFirst_can (mode := mode)) exFirst_distinct (b' := patA) ⟨0, rfl⟩ (Or.inr ⟨patA_gaps, patA_absent⟩) M
  (exSecond_can (mode := mode)).keys (commit_isCommitment _ _) (commit_isCommitment _ _) w
instance_of inst_c105_collision {mode : Mode} (M : G2In) := c105_collision (mode := mode) M (commit_isCommitment _ _)

/-- the keys of the example fit -/
theorem exFirst_fit (i : Fin 10) : (exFirst.keys i).Fits := (exFirst.denotes (exFirst_can (mode := .engine)).keys i).1

open HonestProps
instance_of inst_c106_engine (M : G2In) (w : Fr) := c106_engine (pub := ⟨M, commit exFirst.keys exFirst.weights, w⟩)
  (priv := ⟨exFirst.keys, exFirst.sign (fun _ => true) Hpt, fun _ => 0, exFirst.weights, HashProps.msgVars G2.exMsg⟩) fun _ => rfl
instance_of inst_c106_engine_rotation (M : G2In) (c c' w : Fr) := c106_engine_rotation
  (pub := ⟨M, c, c', HashProps.msgVars G2.exMsg, w⟩)
  (priv := ⟨exFirst.weights, exSecond.weights, exFirst.keys, exSecond.keys, fun _ => 0, exSecond.sign patA Hpt⟩) fun _ => rfl
-- the last eight sign
instance_of inst_c106_compiled (M : G2In) (w : Fr) := c106_compiled (pub := ⟨M, commit exFirst.keys exFirst.weights, w⟩)
  (priv := ⟨exFirst.keys, exFirst.sign (fun _ => true) Hpt, fun i => if i.val < 2 then 0 else 1, exFirst.weights,
    HashProps.msgVars G2.exMsg⟩) rfl rfl
instance_of inst_c106_compiled_rotation (M : G2In) (c c' w : Fr) := c106_compiled_rotation
  (pub := ⟨M, c, c', HashProps.msgVars G2.exMsg, w⟩)
  (priv := ⟨exFirst.weights, exSecond.weights, exFirst.keys, exSecond.keys, fun i => if i.val < 2 then 0 else 1,
    exSecond.sign patA Hpt⟩) rfl rfl
instance_of inst_c106_compiled_forged (msg : Vector Fips.Byte 32) (M : G2In) (w : Fr) := c106_compiled_forged exFirst_fit
  exFirst.weights msg M _ w (commit_isCommitment _ _)
instance_of inst_c106_compiled_forged_rotation (msg : Vector Fips.Byte 32) (M : G2In) (w : Fr) :=
  c106_compiled_forged_rotation (old := exSecond.keys) exFirst_fit exSecond.weights exFirst.weights msg M _ _ w
    (commit_isCommitment _ _) (commit_isCommitment _ _)

/-- a group and the rest -/
theorem whole_can {mode : Mode} : exFirst.CanSign mode (fun i => patA i || !patA i) G2.exMsg Hpt := by
  have e : (fun i => patA i || !patA i) = fun _ => true := funext fun i => by cases patA i <;> rfl
  rw [e]; exact exFirst_can
theorem rest_can {mode : Mode} : exSecond.CanSign mode (fun i => true && !!patA i) G2.exMsg Hpt := by
  have e : (fun i => true && !!patA i) = patA := funext fun i => by cases patA i <;> rfl
  rw [e]; exact exSecond_can
theorem overlap_can {mode : Mode} : exFirst.CanSign mode (fun i => true || patA i) G2.exMsg Hpt := exFirst_can
theorem overlap_ne : exFirst.signature (fun _ => true) Hpt + exFirst.signature patA Hpt ≠ 0 := by
  rw [signature_eq, signature_eq, aggregateSignature_eq, aggregateSignature_eq, ← add_nsmul]
  have h : ∀ b : Fin 10 → Bool, secretSum exFirst.sk (fun i => b i = true) = ∑ i, if b i then exFirst.sk i else 0 := fun b => by
    rw [← secret_bits]; simp only [bits_eq]
  rw [h fun _ => true, h]
  exact smul_ne_of H_order H_ne (by decide +kernel)
theorem disjoint_ne : exFirst.combine (fun j : Bool => if j then 1 else 1) (fun j => if j then patA else fun i => !patA i) Hpt ≠ 0 := by
  rw [combine_two, one_zsmul, one_zsmul, ← signature_union exFirst (fun i => by cases patA i <;> simp)]
  exact sig_ne (whole_can (mode := .engine))

-- the groups are validators 1 and 2 and the other eight
instance_of inst_c107_transaction {mode : Mode} (M : G2In) (w : Fr) := c107_transaction (whole_can (mode := mode)) disjoint_ne M
  (commit_isCommitment _ _) w
instance_of inst_c107_rotation {mode : Mode} (M : G2In) (w : Fr) := c107_rotation (V := exSecond) (whole_can (mode := mode))
  disjoint_ne M (exSecond_can (mode := mode)).keys (commit_isCommitment _ _) (commit_isCommitment _ _) w
instance_of inst_c107_join {mode : Mode} (M : G2In) (w : Fr) := c107_join (whole_can (mode := mode))
  (fun i => by cases patA i <;> simp) M (commit_isCommitment _ _) w
instance_of inst_c107_remove {mode : Mode} (M : G2In) (w : Fr) := c107_remove (b := fun _ => true) (d := fun i => !patA i)
  (rest_can (mode := mode)) (fun _ _ => rfl) M (commit_isCommitment _ _) w
-- all ten, and eight of them again
instance_of inst_c107_two_groups {mode : Mode} (M : G2In) (w : Fr) := c107_two_groups (overlap_can (mode := mode)) overlap_ne M
  (commit_isCommitment _ _) w
instance_of inst_c107_overlap {mode : Mode} (M : G2In) (w : Fr) := c107_overlap (overlap_can (mode := mode)) overlap_ne
  exFirst_distinct ⟨0, rfl, rfl⟩ M (commit_isCommitment _ _) w

/-- validators 1 and 2 still absent, the last two exchanged -/
def lastTwo : Equiv.Perm (Fin 10) := Equiv.swap 8 9
theorem lastTwo_pat : (fun i => patA (lastTwo i)) = patA := by decide
theorem lastTwo_general : GeneralPosition (fun i => exSecond.sk (lastTwo i) • G1gen) fun i => bit (patA (lastTwo i)) = 1 := by
  simp only [bits_eq]
  exact general_of_secret (sk := fun i => exSecond.sk (lastTwo i)) (bs := fun i => patA (lastTwo i)) (by decide)
theorem lastTwo_exact {mode : Mode} : ExactAggregation mode fun i => bit (patA (lastTwo i)) := by
  have e : (fun i => (bit (patA (lastTwo i)) : Fr)) = fun i => bit (patA i) := funext fun i => congrArg bit (congrFun lastTwo_pat i)
  rw [e]; exact Or.inr ⟨patA_gaps, patA_absent⟩
instance_of inst_c108_transaction {mode : Mode} (M : G2In) (w : Fr) := c108_transaction (mode := mode)
  (exSecond_can (mode := .engine)) lastTwo_general lastTwo_exact M (commit_isCommitment _ _) w
instance_of inst_c108_rotation {mode : Mode} (M : G2In) (w : Fr) := c108_rotation (mode := mode) (V := exFirst)
  (exSecond_can (mode := .engine)) lastTwo_general lastTwo_exact M (exFirst_can (mode := mode)).keys (commit_isCommitment _ _)
  (commit_isCommitment _ _) w
instance_of inst_c108_engine (M : G2In) (w : Fr) := c108_engine (exFirst_can (mode := .engine)) exFirst_distinct (finRotate 10) M
  (commit_isCommitment _ _) w
instance_of inst_c108_all_sign (M : G2In) (w : Fr) := c108_all_sign (exFirst_can (mode := .engine)) exFirst_distinct
  (finRotate 10) M (commit_isCommitment _ _) w

theorem second_order (i : Fin 10) : rOrder • (exSecond.sk i • G1gen) = 0 := by rw [smul_comm, G1gen_order, nsmul_zero]
-- validators 1 and 2 absent, any signature and message
instance_of inst_c109_transaction (M S : G2In) (c w : Fr) (weights : Fin 10 → Fr) (msg : Vector Fr 32) := c109_transaction
  (pub := ⟨M, c, w⟩) (priv := ⟨exSecond.keys, S, fun i => bit (patA i), weights, msg⟩)
  (exSecond.denotes (exSecond_can (mode := .engine)).keys) second_order (exSecond_can (mode := .engine)).general patA_gaps
  patA_absent
instance_of inst_c109_rotation (M S : G2In) (c c' w : Fr) (oldW newW : Fin 10 → Fr) (old : Fin 10 → G1In) (msg : Vector Fr 32) :=
  c109_rotation (pub := ⟨M, c, c', msg, w⟩) (priv := ⟨oldW, newW, old, exSecond.keys, fun i => bit (patA i), S⟩)
    (exSecond.denotes (exSecond_can (mode := .engine)).keys) second_order (exSecond_can (mode := .engine)).general patA_gaps
    patA_absent

theorem rot_hashes : Rfc.HashesTo rotMsg.toList (Rfc.ascii Rfc.dstString) Rot.Hpt := by
  rw [← rot_rfc rfcHash_spec]; exact rfcHash_spec _
/-- validators 1 and 2 of `exSecond` replaced, all weights changed -/
def replaced : Validators := ⟨fun i => if patA i then exSecond.sk i else 1500 + i, fun i => 7 + (i : ℕ)⟩
theorem replaced_secret : ∀ i, 0 < replaced.sk i ∧ replaced.sk i < 2000 := by decide
theorem replaced_ne (i : Fin 10) : replaced.sk i • G1gen ≠ 0 := by
  have h := replaced_secret i
  generalize replaced.sk i = a at h ⊢
  exact smul_ne h.1.ne' (by have := big; omega)
-- ten validators have signed `rotMsg`, the signature is presented for `exMsg`
instance_of inst_c110_message {mode : Mode} (M : G2In) (w : Fr) := c110_message rot_hashes Rot.H_ne (exFirst_can (mode := mode)) M
  (commit_isCommitment _ _) w
instance_of inst_c110_message_rotation {mode : Mode} (M : G2In) (w : Fr) := c110_message_rotation (U := exSecond) rot_hashes
  Rot.H_ne (exFirst_can (mode := mode)) M (exSecond_can (mode := mode)).keys (commit_isCommitment _ _) (commit_isCommitment _ _) w
instance_of inst_c110_set {mode : Mode} (M : G2In) (w : Fr) := c110_set (exSecond_can (mode := mode)).secret
  (exFirst_can (mode := mode)) M (commit_isCommitment _ _) w
instance_of inst_c110_kept {mode : Mode} (M : G2In) (w : Fr) := c110_kept (W := replaced) (exSecond_can (mode := mode)) replaced_ne
  (fun _ hi => if_pos hi) M (commit_isCommitment _ _) w
-- a signature of `exSecond` as one of all ten of `exFirst`, in a rotation from `exSecond` to `exFirst`
instance_of inst_c110_set_rotation {mode : Mode} (M : G2In) (w : Fr) := c110_set_rotation (V := exSecond)
  (exSecond_can (mode := mode)).secret (exFirst_can (mode := mode)) M (exSecond_can (mode := mode)).keys (commit_isCommitment _ _)
  (commit_isCommitment _ _) w
-- a signature of `exSecond` in a rotation from `exFirst` to `replaced`
instance_of inst_c110_kept_rotation {mode : Mode} (M : G2In) (w : Fr) := c110_kept_rotation (V := exFirst) (W := replaced)
  (exSecond_can (mode := mode)) replaced_ne (fun _ hi => if_pos hi) M (exFirst_can (mode := mode)).keys (commit_isCommitment _ _)
  (commit_isCommitment _ _) w

-- everybody has signed, the bit of validator 3 is cleared
instance_of inst_c111_bit (M : G2In) (w : Fr) := c111_bit exFirst_can 3 (exFirst_distinct.general _) M (commit_isCommitment _ _) w
instance_of inst_c111_bit_rotation (M : G2In) (w : Fr) := c111_bit_rotation (V := exSecond) exFirst_can 3
  (exFirst_distinct.general _) M (exSecond_can (mode := .engine)).keys (commit_isCommitment _ _) (commit_isCommitment _ _) w

-- validators 1 and 2 are absent, validators 2 and 3 are said to be
theorem exchange_general : GeneralPosition (fun i => exSecond.sk i • G1gen) fun i => bit (patA (Equiv.swap 3 1 i)) = 1 := by
  simp only [bits_eq]; exact general_of_secret (sk := exSecond.sk) (bs := fun i => patA (Equiv.swap 3 1 i)) (by decide)
theorem exchange_exact {mode : Mode} : ExactAggregation mode fun i => bit (patA (Equiv.swap 3 1 i)) :=
  Or.inr ⟨by simp only [bits_eq]; exact (goodPattern_iff fun i => patA (Equiv.swap 3 1 i)).1 (by unfold GoodPattern; decide),
    by simp only [bits_eq]; rw [← absent_nine (bs := fun i => patA (Equiv.swap 3 1 i))]; decide⟩
instance_of inst_c111_exchange {mode : Mode} (M : G2In) (w : Fr) := c111_exchange (i := 3) (j := 1) (exSecond_can (mode := mode))
  rfl rfl exchange_general exchange_exact M (commit_isCommitment _ _) w
instance_of inst_c111_exchange_rotation {mode : Mode} (M : G2In) (w : Fr) := c111_exchange_rotation (V := exFirst) (i := 3) (j := 1)
  (exSecond_can (mode := mode)) rfl rfl exchange_general exchange_exact M (exFirst_can (mode := mode)).keys
  (commit_isCommitment _ _) (commit_isCommitment _ _) w

/-- validator 0 of `exFirst` with another key -/
def otherKey : Validators := ⟨Function.update exFirst.sk 0 700, exFirst.weights⟩
theorem otherKey_general : GeneralPosition (fun i => otherKey.sk i • G1gen) fun _ => bit true = 1 := by
  simpa only [bit_true] using general_of_secret (sk := otherKey.sk) (bs := fun _ => true) (by decide)
instance_of inst_c111_key {mode : Mode} (M : G2In) (c w : Fr) := c111_key (i := 0) (k := 700) (W := otherKey)
  (exFirst_can (mode := mode)) rfl (smul_ne (by decide) (by have := big; omega)) (smul_gen_inj (by decide) (by decide) (by decide))
  rfl otherKey_general M c w

-- the transaction of C83's example, any number of times, before its rotation
instance_of inst_c112_repeat {mode : Mode} (M : G2In) (n : ℕ) := c112_repeat (mode := mode) (es := [])
  (.transaction (ex_accepted M fun _ => 100) rfl (.rotation (ex_rotate_accepted M (fun _ => 100) (fun _ => 7) G2.exMsg) rfl (.nil _))) n
/-- two transactions and two rotations that lead back, any number of times -/
theorem inst_c112_cycle {mode : Mode} (M : G2In) : ∃ es, es.length = 4 ∧
    ∀ n, Follows mode (commit exFirst.keys exFirst.weights) ([] ++ ((List.replicate n es).flatten ++ []))
      (commit exFirst.keys exFirst.weights) := by
  obtain ⟨es, h, hl⟩ := c104_example (mode := mode) M 1
  have hc := commit_isCommitment exFirst.keys exFirst.weights
  exact ⟨es, hl, c112_cycle (.nil _) (c104_progress h hc hc).2.1 (.nil _)⟩
-- validators 1 and 2 are replaced between the two uses of the signature
instance_of inst_c112_across {mode : Mode} (M : G2In) := c112_across (exSecond_can (mode := mode)) replaced_ne
  (fun _ hi => if_pos hi) M ⟨(), (rotateDefine _ _ _).ok _ ((c110_kept_rotation (V := exSecond) (W := replaced)
    (exSecond_can (mode := mode)) replaced_ne (fun _ hi => if_pos hi) M (exSecond_can (mode := mode)).keys
    (commit_isCommitment _ _) (commit_isCommitment _ _) _).2 rfl)⟩ (commit_isCommitment _ _) (commit_isCommitment _ _)
end

end Spark.Instances
