import Verif.Instances.Groups
import Verif.Props.Compiled
import Verif.Props.Counting
import Verif.Props.Exception
import Verif.Props.Forgery
import Verif.Props.History
import Verif.Props.RfcHash
import Verif.Props.Api

/-!
# Instances: the two circuits (C13-C23, C58, C80-C87, C91, C94, C97-C99)

The validators have the secret keys `1, 2, 4, …, 512`; all of them sign the example message, unless said otherwise.
-/

namespace Spark.Instances
open Spark Circ Spec Circuit Pairing PairingProps CurveProps HashProps CircuitProps GroupProps Witness
set_option autoImplicit false

/-! ## C13-C17 -/

/-- a function with the contract of iden3's Poseidon -/
noncomputable def hashH : List ℕ → Option ℕ := CircuitProps.iden3_exists.choose
theorem hashH_spec : IsIden3Hash hashH := CircuitProps.iden3_exists.choose_spec

instance_of inst_c13_agree := c13_agree hashH_spec (List.ofFn fun i => enc1 (key i)) (List.ofFn fun i : Fin 10 => i.val)
  (fun i => enc1 (key i)) (fun i => i.val) (fun i => by rw [List.getElem?_ofFn, dif_pos i.2]) (fun i => by rw [List.getElem?_ofFn, dif_pos i.2])
  (fun i => lt_trans i.2 (by decide +kernel))
instance_of inst_c13_panics := c13_panics hashH_spec (List.ofFn fun i => enc1 (key i)) (List.replicate 9 1)
  (Or.inr (Or.inl (by simp)))
instance_of inst_c14_signed_weight {mode : Mode} (M : G2In) (w : Fin 10 → Fr) :=
  c14_signed_weight (ex_accepted (mode := mode) M w)
instance_of inst_c15_no_wrap {mode : Mode} (M : G2In) := c15_no_wrap (ex_accepted (mode := mode) M fun _ => 100) 100
  (by decide +kernel) fun _ => hundred
instance_of inst_c15_no_wrap_64 {mode : Mode} (M : G2In) := c15_no_wrap_64 (ex_accepted (mode := mode) M fun _ => 100)
  fun _ => hundred.trans_lt (by norm_num)
instance_of inst_c15_wrap {mode : Mode} (M : G2In) := c15_wrap (ex_accepted (mode := mode) M fun _ => 100) 0 1
  (by decide) rfl rfl (by decide +kernel)
instance_of inst_c16_tx_bits {mode : Mode} (M : G2In) (w : Fin 10 → Fr) := c16_tx_bits (ex_accepted (mode := mode) M w)
instance_of inst_c16_rotate_bits {mode : Mode} (M : G2In) (oldW newW : Fin 10 → Fr) (msg : Vector Fips.Byte 32) :=
  c16_rotate_bits (ex_rotate_accepted (mode := mode) M oldW newW msg)
instance_of inst_c17_commitment {mode : Mode} (M : G2In) (w : Fin 10 → Fr) :=
  c17_commitment (ex_accepted (mode := mode) M w)
instance_of inst_c17_binding {mode mode' : Mode} (M M' : G2In) (w : Fin 10 → Fr) :=
  c17_binding (ex_accepted (mode := mode) M w) (ex_accepted (mode := mode') M' w) rfl

/-! ## C18, C22 -/

theorem all_exact {mode : Mode} : HonestProps.ExactAggregation mode fun _ => 1 := Or.inr ⟨all_gaps, all_even⟩

instance_of inst_c18_honest_partial {mode : Mode} (M : G2In) (w : Fin 10 → Fr) :=
  HonestProps.c18_honest_partial (ex_accepted_run (mode := mode) M w) exSk exSk_denote (exSk_general _) all_exact
    all_secret_ne G2.exMsg exSig Hpt rfl H_hash H_ne H_order rfl S_ne S_order
instance_of inst_c22_honest_partial {mode : Mode} (M : G2In) (oldW newW : Fin 10 → Fr) :=
  HonestProps.c22_honest_partial (ex_rotate_run (mode := mode) M oldW newW) exSk exSk_denote (exSk_general _) all_exact
    all_secret_ne G2.exMsg exSig Hpt rfl H_hash H_ne H_order rfl S_ne S_order
instance_of inst_c22_new_weights_free {mode : Mode} (M : G2In) (oldW newW w : Fin 10 → Fr) (msg : Vector Fips.Byte 32) :=
  c22_new_weights_free w (ex_rotate_accepted (mode := mode) M oldW newW msg)

/-! ## C19 -/

theorem key_order (i : Fin 10) : rOrder • key i = 0 := by rw [key, smul_comm, G1gen_order, nsmul_zero]

instance_of inst_c19_engine_partial (w : Fin 10 → Fr) := c19_engine_partial exKeys_denote three w three_bit (key_general _)
instance_of inst_c19_compiled := c19_compiled exKeys_denote 3 (by norm_num) (by norm_num) (key_general _)
instance_of inst_c19_all_sign {mode : Mode} := c19_all_sign (mode := mode) exKeys_denote (key_general _)
instance_of inst_c19_compiled_false := c19_compiled_false exKeys_denote 1 le_rfl (by norm_num) rfl (key_general _) (by
    intro x y hp
    rw [first_signer] at hp
    obtain ⟨rfl, rfl⟩ := G1Affine.mk.inj ((enc1_pt hp).symm.trans (enc1_pt gen_pt))
    constructor <;> decide +kernel)
instance_of inst_c19_compiled_nobody := c19_compiled_nobody fun i => (exKeys_denote i).1
instance_of inst_c19_compiled_gaps := c19_compiled_gaps exKeys_denote key_order (fun i => bit (patA i))
  (fun i => by cases patA i <;> simp) (key_general _) patA_gaps

/-- the last three validators sign -/
def lastThree (i : Fin 10) : Fr := if i.val < 7 then 0 else 1

instance_of inst_c19_compiled_two_absent (w : Fin 10 → Fr) :=
  c19_compiled_two_absent (fun i => (exKeys_denote i).1) lastThree w (fun i => by rw [lastThree]; split <;> simp)
    rfl rfl
instance_of inst_c19_compiled_sharp := c19_compiled_sharp three three_bit
instance_of inst_c19_compiled_iff := c19_compiled_iff three three_bit

/-! ## C20, C21 -/

instance_of inst_c20_trusted_weight {mode : Mode} (M : G2In) (oldW newW : Fin 10 → Fr) (msg : Vector Fips.Byte 32) :=
  c20_trusted_weight (ex_rotate_accepted (mode := mode) M oldW newW msg)
instance_of inst_c20_no_wrap {mode : Mode} (M : G2In) (newW : Fin 10 → Fr) (msg : Vector Fips.Byte 32) :=
  c20_no_wrap (ex_rotate_accepted (mode := mode) M (fun _ => 100) newW msg) 100 (by decide +kernel) fun _ => hundred

theorem exKeys_injective : Function.Injective exKeys := by
  intro i j e
  have h1 := enc1_injective (c58_keys.1 e)
  have hi := pow_lt i
  have hj := pow_lt j
  have hb := big
  rw [key, key] at h1
  refine Fin.ext (Nat.pow_right_injective le_rfl (?_ : 2 ^ i.val = 2 ^ j.val))
  generalize 2 ^ i.val = m at *
  generalize 2 ^ j.val = n at *
  by_contra hne
  rcases lt_or_gt_of_ne hne with h | h
  · exact smul_ne (n := n - m) (by omega) (by omega) (smul_diff h h1)
  · exact smul_ne (n := m - n) (by omega) (by omega) (smul_diff h h1.symm)

theorem exKeys_nonzero (i : Fin 10) : exKeys i ≠ ⟨fun _ => 0, fun _ => 0⟩ := by
  intro e
  have h0 : newG1Affine (enc1 0) = ⟨fun _ => 0, fun _ => 0⟩ := by
    refine G1In.ext ?_ ?_ <;> funext j <;> simp [newG1Affine, enc1, valueOfIn, valueOf]
  exact key_ne _ (enc1_injective (c58_keys.1 (e.trans h0.symm)))

instance_of inst_c20_positional {mode : Mode} (M : G2In) (oldW newW : Fin 10 → Fr) :=
  c20_positional (c20_moved (mode := mode) M oldW newW)
    (fun i e => (by decide : ∀ i : Fin 10, i ≠ i + 1) i (exKeys_injective e)) fun i => exKeys_nonzero (i + 1)
instance_of inst_c21_commitments {mode : Mode} (M : G2In) (oldW newW : Fin 10 → Fr) (msg : Vector Fips.Byte 32) :=
  c21_commitments (ex_rotate_accepted (mode := mode) M oldW newW msg)
instance_of inst_c21_chain {mode : Mode} (M : G2In) (oldW w : Fin 10 → Fr) (msg : Vector Fips.Byte 32) :=
  c21_chain (ex_rotate_accepted (mode := mode) M oldW w msg) (ex_accepted M w) rfl

/-! ## C23 -/

instance_of inst_c23_sound {mode : Mode} (M : G2In) (w : Fin 10 → Fr) := c23_sound (ex_accepted (mode := mode) M w)
instance_of inst_c23_rotate_sound {mode : Mode} (M : G2In) (oldW newW : Fin 10 → Fr) (msg : Vector Fips.Byte 32) :=
  c23_rotate_sound (ex_rotate_accepted (mode := mode) M oldW newW msg)
instance_of inst_c23_pairing_equation {mode : Mode} (M : G2In) (w : Fin 10 → Fr) :=
  c23_pairing_equation (ex_accepted (mode := mode) M w) (∑ i, key i) exSig (all_apk M w) sum_keys_ne
    (c58_signature _).2 S_ne S_order

/-- the aggregated key of the example -/
noncomputable def exApk (mode : Mode) : G1Var := (c19_all_sign (mode := mode) exKeys_denote (key_general _) fun _ => 0).choose
theorem exApk_enc (mode : Mode) : (⟨(exApk mode).X, (exApk mode).Y⟩ : G1Affine Fp) = enc1 (∑ i, key i) :=
  (c19_all_sign (mode := mode) exKeys_denote (key_general _) fun _ => 0).choose_spec.1
theorem exApk_rotate (mode : Mode) : aggregatePublicKeysRotate mode exKeys (fun _ => 1) = pure (exApk mode) :=
  (c19_all_sign (mode := mode) exKeys_denote (key_general _) fun _ => 0).choose_spec.2.2

instance_of inst_c23_complete_of_key {mode : Mode} (M : G2In) (w : Fin 10 → Fr) :=
  c23_complete_of_key (fun i => (exKeys_denote i).1) (fun _ => 1) w (fun _ => Or.inr rfl) (exApk_rotate mode)
    (exApk_enc mode) (msgVars G2.exMsg) exSig Hpt M H_hash H_ne H_order S_ne S_order sum_keys_ne ex_equation _
    (commit_isCommitment exKeys w)
instance_of inst_c23_rotate_complete {mode : Mode} (M : G2In) (oldW newW : Fin 10 → Fr) :=
  c23_rotate_complete (old := exKeys) (fun i => (exKeys_denote i).1) (fun _ => 1) oldW newW (fun _ => Or.inr rfl)
    (exApk_rotate mode) (exApk_enc mode) (msgVars G2.exMsg) exSig Hpt M H_hash H_ne H_order S_ne S_order sum_keys_ne
    ex_equation _ _ _ (commit_isCommitment exKeys oldW) (commit_isCommitment exKeys newW) rfl
instance_of inst_c23_complete_all_sign {mode : Mode} (M : G2In) (w : Fin 10 → Fr) :=
  c23_complete_all_sign (mode := mode) exKeys_denote w (key_general _) (msgVars G2.exMsg) exSig Hpt M H_hash H_ne
    H_order S_ne S_order sum_keys_ne ex_equation _ (commit_isCommitment exKeys w)

theorem three_sum : signersSum key (fun i => three i = 1) = 7 • G1gen := by
  have := signersSum_secret exSk fun i => three i = 1
  rw [three_secret] at this
  exact this
theorem seven_order : rOrder • (7 • Hpt) = 0 := by rw [nsmul_left_comm, H_order, nsmul_zero]
theorem seven_ne : 7 • Hpt ≠ 0 := small_smul_ne H_ne H_order (by norm_num) (by decide)
theorem seven_gen_ne : 7 • G1gen ≠ 0 := smul_ne (by norm_num) (lt_trans (by norm_num) big)

instance_of inst_c23_complete (M : G2In) (w : Fin 10 → Fr) :=
  c23_complete exKeys_denote three w three_bit (key_general _) (msgVars G2.exMsg) (7 • Hpt) Hpt M H_hash H_ne H_order
    seven_ne seven_order (by rw [three_sum]; exact seven_gen_ne)
    (by rw [three_sum]; exact (bls_iff 7 seven_order H_order).2 rfl) _ (commit_isCommitment exKeys w)

/-! ## C58, C63 -/

instance_of inst_c58_denotes := c58_denotes G1gen G1gen_ne
instance_of inst_c58_noncanonical := c58_noncanonical 1 (by decide +kernel)

/-! ## C80-C82 -/

/-- two pairs, one of them with infinity -/
noncomputable def infPairs : List (E1 Fp × ETwist Fp) := [(G1gen, 0), (G1gen, G2gen)]

theorem infPairs_good : ∀ x ∈ infPairs, ForgeryProps.GoodOrInfinity x := by
  intro x hx
  rcases List.mem_cons.1 hx with rfl | hx
  · exact ⟨G1gen_ne, nsmul_zero _⟩
  · obtain rfl := List.mem_singleton.1 hx
    exact ⟨G1gen_ne, G2gen_order⟩

theorem infPairs_ne : ateProd infPairs ≠ 1 := by
  simp only [infPairs, ateProd, List.map_cons, List.map_nil, List.prod_cons, List.prod_nil, ate_zero_right, one_mul,
    mul_one]
  exact ate_gen_ne

instance_of inst_c80_pair := ForgeryProps.c80_pair infPairs (by simp [infPairs]) infPairs_good infPairs_ne
instance_of inst_c80_check := ForgeryProps.c80_check infPairs (by simp [infPairs]) infPairs_good infPairs_ne
instance_of inst_c80_infinite_signature := ForgeryProps.c80_infinite_signature G1gen Hpt G1gen_ne G1gen_order H_ne H_order
instance_of inst_c80_all_infinity := ForgeryProps.c80_all_infinity [enc1 G1gen, enc1 (-G1gen), enc1 G1gen] (by simp) (by
  intro p hp
  simp only [List.mem_cons, List.not_mem_nil, or_false] at hp
  rcases hp with rfl | rfl | rfl
  · exact ForgeryProps.enc1_Y_ne G1gen_ne
  · exact ForgeryProps.enc1_Y_ne (neg_ne_zero.2 G1gen_ne)
  · exact ForgeryProps.enc1_Y_ne G1gen_ne)
instance_of inst_c80_undetermined := ForgeryProps.c80_undetermined (enc1 G1gen) (fun h => by
  have h1 : ((gen1x : ℕ) : ZMod fpOrder) = 0 := h
  rw [ZMod.natCast_eq_zero_iff] at h1
  exact absurd h1 (by decide +kernel)) (ForgeryProps.enc1_Y_ne G1gen_ne)

theorem exApk_sat (mode : Mode) : (aggregatePublicKeysRotate mode exKeys fun _ => 1).sat (exApk mode) := by
  rw [exApk_rotate]; exact rfl
theorem exApk_Y (mode : Mode) : (exApk mode).Y ≠ 0 := by
  have := ForgeryProps.enc1_Y_ne sum_keys_ne
  rwa [← exApk_enc mode] at this

instance_of inst_c82_transaction {mode : Mode} (w : Fin 10 → Fr) (msg : Vector Fips.Byte 32) (M : G2In) :=
  ForgeryProps.c82_transaction (fun i => (exKeys_denote i).1) (fun _ => 1) w (fun _ => Or.inr rfl) (exApk_sat mode)
    (exApk_Y mode) msg M _ (commit_isCommitment exKeys w)
instance_of inst_c82_engine (w : Fin 10 → Fr) (msg : Vector Fips.Byte 32) (M : G2In) :=
  ForgeryProps.c82_engine exKeys_denote three w three_bit (key_general _) (by rw [three_sum]; exact seven_gen_ne) msg M _
    (commit_isCommitment exKeys w)
instance_of inst_c82_all_sign {mode : Mode} (w : Fin 10 → Fr) (msg : Vector Fips.Byte 32) (M : G2In) :=
  ForgeryProps.c82_all_sign (mode := mode) exSk exSk_denote (exSk_general _) exSk_sum_ne w msg M _
    (commit_isCommitment exKeys w)
instance_of inst_c82_rotation {mode : Mode} (old : Fin 10 → G1In) (oldW newW : Fin 10 → Fr) (msg : Vector Fips.Byte 32)
    (M : G2In) :=
  ForgeryProps.c82_rotation (old := old) (fun i => (exKeys_denote i).1) (fun _ => 1) oldW newW (fun _ => Or.inr rfl)
    (exApk_sat mode) (exApk_Y mode) msg M _ _ _ (commit_isCommitment old oldW) (commit_isCommitment exKeys newW) rfl
instance_of inst_c82_rotation_all_sign {mode : Mode} (old : Fin 10 → G1In) (oldW newW : Fin 10 → Fr)
    (msg : Vector Fips.Byte 32) (M : G2In) :=
  ForgeryProps.c82_rotation_all_sign (mode := mode) (old := old) exSk exSk_denote (exSk_general _) exSk_sum_ne oldW newW
    msg M _ _ (commit_isCommitment old oldW) (commit_isCommitment exKeys newW)

/-! ## C83-C85 -/

/-- the example set -/
noncomputable def exSet (w : Fin 10 → Fr) : ValidatorSet := ⟨exKeys, w⟩
theorem exSet_commits (w : Fin 10 → Fr) : (exSet w).CommitsTo (commit exKeys w) := commit_isCommitment _ _

/-- a transaction and a change of all weights -/
noncomputable def exEvents (M : G2In) : List Event :=
  [.transaction (exPub M fun _ => 100) (exPriv fun _ => 100),
    .rotation (exRotPub M (fun _ => 100) (fun _ => 7) G2.exMsg) (exRotPriv (fun _ => 100) fun _ => 7)]

theorem exEvents_follow {mode : Mode} (M : G2In) :
    Follows mode (commit exKeys fun _ => 100) (exEvents M) (commit exKeys fun _ => 7) :=
  .transaction (ex_accepted M _) rfl (.rotation (ex_rotate_accepted M _ _ _) rfl (.nil _))

instance_of inst_c83_custody {mode : Mode} (M : G2In) :=
  HistoryProps.c83_custody (exEvents_follow (mode := mode) M) (exSet fun _ => 100) (exSet_commits _)

theorem exEvents_ideal (M : G2In) : Spec.Ideal (exSet fun _ => 100) (exEvents M) (exSet fun _ => 7) :=
  .transaction rfl (by simp [exPub, exPriv, exSet])
    (.rotation rfl (by simp [exRotPub, exRotPriv, exSet]) (.nil _))

instance_of inst_c83_converse {mode : Mode} (M : G2In) :=
  HistoryProps.c83_converse (mode := mode) (exEvents_ideal M) (by
    intro e he
    rcases List.mem_cons.1 he with rfl | he
    · exact ex_accepted M _
    · obtain rfl := List.mem_singleton.1 he
      exact ex_rotate_accepted M _ _ _) _ (exSet_commits _)
instance_of inst_c83_deterministic (M : G2In) := HistoryProps.c83_deterministic (exEvents_ideal M) (exEvents_ideal M)
instance_of inst_c83_append {mode : Mode} (M : G2In) (w : Fin 10 → Fr) :=
  HistoryProps.c83_append (exEvents_follow (mode := mode) M)
    (.rotation (ex_rotate_accepted M (fun _ => 7) w G2.exMsg) rfl (.nil _))

instance_of inst_c84_reweigh {mode : Mode} (M : G2In) (oldW newW oldW' newW' : Fin 10 → Fr) (msg : Vector Fips.Byte 32) :=
  HistoryProps.c84_reweigh (ex_rotate_accepted (mode := mode) M oldW newW msg) oldW' newW' _ _
    (commit_isCommitment exKeys oldW') (commit_isCommitment exKeys newW')
instance_of inst_c20_wrap {mode : Mode} (M : G2In) (oldW newW : Fin 10 → Fr) (msg : Vector Fips.Byte 32) :=
  HistoryProps.c20_wrap (ex_rotate_accepted (mode := mode) M oldW newW msg) 0 1 (by decide) ⟨rfl, rfl⟩ ⟨rfl, rfl⟩
/-- the keys after the first forged rotation of `HistoryProps.c84_example` -/
def skMid (i : Fin 10) : ℕ := if i = 0 then exSk 0 else HistoryProps.skAttack i
theorem small_denote {n : ℕ} (h0 : n ≠ 0) (h : n < 5000) : Denotes (newG1Affine (enc1 (n • G1gen))) (n • G1gen) :=
  c58_denotes _ (smul_ne h0 (lt_of_lt_of_le h big.le))

instance_of inst_c84_takeover {mode : Mode} (w w'' : Fin 10 → Fr) :=
  HistoryProps.c84_takeover (mode := mode) (K := exKeys) (K' := fun i => newG1Affine (enc1 (skMid i • G1gen)))
    (K'' := fun i => newG1Affine (enc1 (HistoryProps.skAttack i • G1gen)))
    (HistoryProps.carries_forged _ exSk exSk_denote (exSk_general _) exSk_sum_ne)
    (HistoryProps.carries_forged _ skMid (fun i => small_denote (by revert i; decide) (by revert i; decide))
      (HistoryProps.general_all (by decide)) (by decide +kernel))
    (HistoryProps.carries_forged _ HistoryProps.skAttack
      (fun i => small_denote (by revert i; decide) (by revert i; decide))
      (HistoryProps.general_all (by decide)) (by decide +kernel))
    rfl rfl w w'' _ _ (commit_isCommitment _ _) (commit_isCommitment _ _)
instance_of inst_c85_transaction_to_rotation {mode : Mode} (M M' : G2In) (w newW : Fin 10 → Fr) (V : ValidatorSet) :=
  HistoryProps.c85_transaction_to_rotation (ex_accepted (mode := mode) M w) V newW M' _ _
    (commit_isCommitment V.keys V.weights) (commit_isCommitment exKeys newW)
instance_of inst_c85_rotation_to_transaction {mode : Mode} (M M' : G2In) (oldW newW w : Fin 10 → Fr)
    (msg : Vector Fips.Byte 32) :=
  HistoryProps.c85_rotation_to_transaction (ex_rotate_accepted (mode := mode) M oldW newW msg) w M' _
    (commit_isCommitment exKeys w)
instance_of inst_c85_reweigh {mode : Mode} (M M' : G2In) (w newW : Fin 10 → Fr) :=
  HistoryProps.c85_reweigh (ex_accepted (mode := mode) M w) (fun _ => rfl) newW M' _ (commit_isCommitment exKeys newW)

/-! ## C86, C87 -/

instance_of inst_c86_pairingCheck := ExceptionProps.c86_pairingCheck sigPairs le_rfl sigPairs_good
instance_of inst_c87_cancel := ExceptionProps.c87_cancel twoPairs (by simp [twoPairs]) twoPairs_good
instance_of inst_c87_four := ExceptionProps.c87_four G1gen G2gen (2 • G2gen) G1gen_ne G2gen_ne
  (gen_small 2 (by omega) (by omega)) G2gen_order two_order

/-! ## C91, C94 -/

instance_of inst_c91_transaction {mode : Mode} (M : G2In) (c t : Fr) (w : Fin 10 → Fr) :=
  HonestProps.c91_transaction (mode := mode) (pub := ⟨M, c, t⟩) (priv := exPriv w) exSk exSk_denote
    (fun _ => Or.inr rfl) (exSk_general _) all_exact all_secret_ne exSig Hpt H_hash H_ne H_order rfl S_ne S_order
instance_of inst_c91_rotation {mode : Mode} (M : G2In) (oldW newW : Fin 10 → Fr) :=
  HonestProps.c91_rotation (mode := mode) (pub := exRotPub M oldW newW G2.exMsg) (priv := exRotPriv oldW newW) exSk
    exSk_denote (fun _ => Or.inr rfl) (exSk_general _) all_exact all_secret_ne exSig Hpt H_hash H_ne H_order rfl S_ne
    S_order
theorem inst_c91_message {mode : Mode} (M : G2In) (c t : Fr) (w : Fin 10 → Fr) : ∃ H z : _, 
    millerLoop [enc1 (-G1gen), enc1 (∑ i, key i)] [enc2 exSig, enc2 H] = .ok (pure z) ∧
    ((txDefine mode ⟨M, c, t⟩ (exPriv w)).run = some () ↔
      t = (∑ i, if (exPriv w).bitList i = 1 then w i else 0) ∧
      IsCommitment (fun i => (exKeys i).X) (fun i => (exKeys i).Y) w c ∧
      exSig = aggregateSignature exSk (fun i => (exPriv w).bitList i = 1) H ∧ ¬ ExceptionProps.Exceptional z) := by
  obtain ⟨u0, u1, hu, n0, n1, h⟩ := c92_example
  obtain ⟨Q0, Q1, m0, m1, hh⟩ := HonestProps.c91_message (mode := mode) (pub := ⟨M, c, t⟩) (priv := exPriv w) exSk
    exSk_denote (fun _ => Or.inr rfl) (exSk_general _) all_exact all_secret_ne (msg := G2.exMsg) rfl G2.isPsi_psiHom hu
    n0 n1
  obtain ⟨hne, hb⟩ := h Q0 Q1 m0 m1
  obtain ⟨z, hz, hiff⟩ := hh _ rfl hne hb exSig rfl S_ne S_order
  rw [show (fun i => (exPriv w).bitList i = 1) = fun _ => (1 : Fr) = 1 from rfl, all_sum] at hz
  exact ⟨_, z, hz, hiff⟩
instance_of inst_c91_general_position := HonestProps.c91_general_position exKeys_denote three three_bit
instance_of inst_c91_transaction_position (M : G2In) (w : Fin 10 → Fr) :=
  HonestProps.c91_transaction_position exKeys_denote (ex_accepted_run M w)
instance_of inst_c91_rotation_position (M : G2In) (oldW newW : Fin 10 → Fr) :=
  HonestProps.c91_rotation_position exKeys_denote (ex_rotate_run M oldW newW)
-- the first two validators have the same key
instance_of inst_c91_duplicate_key (M : G2In) (c t : Fr) (w : Fin 10 → Fr) :=
  HonestProps.c91_duplicate_key (pub := ⟨M, c, t⟩)
    (priv := { exPriv w with publicKeys := fun i => newG1Affine (enc1 ((if i = 1 then 1 else 2 ^ i.val : ℕ) • G1gen)) })
    (K := fun i => (if i = 1 then 1 else 2 ^ i.val : ℕ) • G1gen)
    (fun i => c58_denotes _ (smul_ne (by split <;> positivity)
      (lt_of_lt_of_le (by revert i; decide : (if i = 1 then 1 else 2 ^ i.val : ℕ) < 5000) big.le))) rfl rfl rfl
instance_of inst_c94_aggregate (mode : Mode) (w : Fin 10 → Fr) :=
  CircuitProps.c94_aggregate mode exKeys (fun i => (exKeys_denote i).1) three w three_bit

/-! ## C97-C99 -/

instance_of inst_c97_spec (msg : List Fips.Byte) := HonestProps.c97_spec msg (Rfc.ascii Rfc.dstString) (by decide)
instance_of inst_c97_clear_cofactor := HonestProps.c97_clear_cofactor G2.isPsi_psiHom
instance_of inst_c97_circuits := HonestProps.c97_circuits (p := dA) dJ_jac
theorem inst_c97_hash : ∃ H, Rfc.HashesTo G2.exMsg.toList (Rfc.ascii Rfc.dstString) H ∧
    (G2.hashToG2 (msgVars G2.exMsg)).run = some (enc2 H) := by
  obtain ⟨u0, u1, H, hu, t0, t1, hne, hH, h0, -⟩ := HonestProps.c97_example
  exact ⟨H, hH, (HonestProps.c97_hash hu t0 t1 hH).2.2 h0 hne⟩
theorem inst_c97_encode : ∃ H, Rfc.EncodesTo G2.exMsg.toList (Rfc.ascii Rfc.dstString) H ∧
    (G2.encodeToG2 (msgVars G2.exMsg)).run = some (enc2 H) := by
  obtain ⟨Q, hm, -⟩ := inst_c57_encode_to_g2
  have hH : Rfc.EncodesTo G2.exMsg.toList (Rfc.ascii Rfc.dstString) (Rfc.hEff • Q) :=
    ⟨_, Q, enc_hash_to_field, c57_map_rfc enc_swu.2.1 hm, rfl⟩
  have h0 : Rfc.hEff • Q ≠ 0 := by
    rw [← HonestProps.c97_clear_cofactor G2.isPsi_psiHom]
    exact (c92_defined G2.isPsi_psiHom _).1 (enc_swu.2.2 Q hm)
  exact ⟨_, hH, ((HonestProps.c97_encode enc_hash_to_field enc_swu.2.1 hH).1 h0).2⟩
theorem inst_c97_transaction {mode : Mode} (M : G2In) (c t : Fr) (w : Fin 10 → Fr) : ∃ H z : _,
    Rfc.HashesTo G2.exMsg.toList (Rfc.ascii Rfc.dstString) H ∧
    millerLoop [enc1 (-G1gen), enc1 (∑ i, key i)] [enc2 exSig, enc2 H] = .ok (pure z) ∧
    ((txDefine mode ⟨M, c, t⟩ (exPriv w)).run = some () ↔
      t = (∑ i, if (exPriv w).bitList i = 1 then w i else 0) ∧
      IsCommitment (fun i => (exKeys i).X) (fun i => (exKeys i).Y) w c ∧
      exSig = aggregateSignature exSk (fun i => (exPriv w).bitList i = 1) H ∧ ¬ ExceptionProps.Exceptional z) := by
  obtain ⟨u0, u1, H, hu, t0, t1, hne, hH, h0, -⟩ := HonestProps.c97_example
  obtain ⟨z, hz, hiff⟩ := HonestProps.c97_transaction (mode := mode) (pub := ⟨M, c, t⟩) (priv := exPriv w) exSk
    exSk_denote (fun _ => Or.inr rfl) (exSk_general _) all_exact all_secret_ne (msg := G2.exMsg) rfl hu t0 t1 hne hH h0
    exSig rfl S_ne S_order
  rw [show (fun i => (exPriv w).bitList i = 1) = fun _ => (1 : Fr) = 1 from rfl, all_sum] at hz
  exact ⟨_, z, hH, hz, hiff⟩
theorem inst_c97_rotation {mode : Mode} (M : G2In) (oldW newW : Fin 10 → Fr) : ∃ H z : _,
    Rfc.HashesTo G2.exMsg.toList (Rfc.ascii Rfc.dstString) H ∧
    millerLoop [enc1 (-G1gen), enc1 (∑ i, key i)] [enc2 exSig, enc2 H] = .ok (pure z) ∧
    ((rotateDefine mode (exRotPub M oldW newW G2.exMsg) (exRotPriv oldW newW)).run = some () →
      exSig = aggregateSignature exSk (fun i => (exRotPriv oldW newW).bitList i = 1) H) := by
  obtain ⟨u0, u1, H, hu, t0, t1, hne, hH, h0, -⟩ := HonestProps.c97_example
  obtain ⟨z, hz, hiff⟩ := HonestProps.c97_rotation (mode := mode) (pub := exRotPub M oldW newW G2.exMsg)
    (priv := exRotPriv oldW newW) exSk exSk_denote (fun _ => Or.inr rfl) (exSk_general _) all_exact all_secret_ne
    (msg := G2.exMsg) rfl hu t0 t1 hne hH h0 exSig rfl S_ne S_order
  rw [show (fun i => (exRotPriv oldW newW).bitList i = 1) = fun _ => (1 : Fr) = 1 from rfl, all_sum] at hz
  exact ⟨_, z, hH, hz, fun h => (hiff.1 h).2.2.2.1⟩

instance_of inst_c98_keys := HonestProps.c98_keys (fun i => three i = 1) ⟨0, by rw [three_iff]; decide⟩
theorem inst_c98_fine {mode : Mode} : ∃ (sk : Fin 10 → Fin rOrder) (apk : G1Var),
    aggregatePublicKeysRotate mode (fun i => newG1Affine (enc1 ((sk i).val • G1gen))) (fun _ => 1) = pure apk := by
  obtain ⟨sk, h⟩ := HonestProps.c98_example
  obtain ⟨apk, e, -⟩ := HonestProps.c98_fine (mode := mode) (bits := fun _ => 1) (fun _ => Or.inr rfl)
    (h (fun _ => (1 : Fr) = 1) ⟨0, rfl⟩) all_exact
  exact ⟨sk, apk, e⟩
theorem inst_c99_fine : ∃ H, Rfc.HashesTo G2.exMsg.toList (Rfc.ascii Rfc.dstString) H ∧ H ≠ 0 ∧
    (G2.hashToG2 (msgVars G2.exMsg)).run = some (enc2 H) := by
  obtain ⟨u0, u1, hu, hf⟩ := HonestProps.c99_example
  obtain ⟨H, h1, h2, -, h3, -⟩ := HonestProps.c99_fine hu hf
  exact ⟨H, h1, h2, h3⟩

end Spark.Instances
