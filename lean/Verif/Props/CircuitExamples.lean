import Verif.Props.Circuit
import Verif.Lemmas.PairingGroup

/-!
# Concrete accepted proofs

One explicit signed transaction and one explicit rotation, accepted in both modes and found by the honest prover,
for the theorems of `Props/Circuit.lean`; and, with them, the negations of C18 and C22.  The secret keys are
`1, 2, 4, …, 512`, all ten validators sign, the signature is `1023` times the hash of the message.
-/

namespace Spark.CircuitProps
open Spark Circ Spec Circuit Pairing PairingProps HashProps Witness
open scoped BigOperators

variable {mode : Mode}

/-- the public keys as circuit inputs -/
noncomputable def exKeys (i : Fin 10) : G1In := newG1Affine (enc1 (key i))

theorem exKeys_denote (i : Fin 10) : Denotes (exKeys i) (key i) := c58_denotes _ (key_ne i)

/-- the aggregated signature -/
noncomputable def exSig : ETwist Fp := 1023 • Hpt

theorem H_hash : (G2.hashToG2 (msgVars G2.exMsg)).run = some (enc2 Hpt) := by
  obtain ⟨-, -, -, -, -, h⟩ := G2.nHash_spec hash_check
  rw [G2.hashToG2_tail, run_bind, hashToField_run (n := 2) (by norm_num) (by norm_num) G2.ex_hash_to_field,
    Option.bind_some, h]
  rfl

theorem ex_equation : ate (-G1gen) exSig * ate (∑ i, key i) Hpt = 1 := by
  rw [sum_keys]; exact (bls_iff 1023 S_order H_order).2 rfl

theorem ex_z {z : E12 Fp} (h : millerLoop [enc1 (-G1gen), enc1 (∑ i, key i)] [enc2 exSig, enc2 Hpt] = .ok (pure z)) :
    safeInput z ^ ((fpOrder ^ 6 - 1) * (fpOrder ^ 2 + 1)) ≠ 1 := by
  rw [sum_keys] at h
  have e := Except.ok.inj (h.symm.trans miller_value)
  rw [pure_inj e]
  exact easy_ne

theorem sum_keys_ne : ∑ i, key i ≠ 0 := by rw [sum_keys]; exact A_ne

/-- public inputs of the example transaction, for any weights and any message hash -/
noncomputable def exPub (M : G2In) (weights : Fin 10 → Fr) : TxPublic :=
  ⟨M, commit exKeys weights, ∑ i, weights i⟩
/-- its private inputs -/
noncomputable def exPriv (weights : Fin 10 → Fr) : TxPrivate :=
  ⟨exKeys, newG2Affine (enc2 exSig), fun _ => 1, weights, msgVars G2.exMsg⟩

/-- The example transaction is accepted, in both modes, by the honest prover. -/
theorem ex_accepted_run (M : G2In) (weights : Fin 10 → Fr) :
    (txDefine mode (exPub M weights) (exPriv weights)).run = some () := by
  obtain ⟨z, hm, h⟩ := c23_complete_all_sign (mode := mode) exKeys_denote weights (key_general _) (msgVars G2.exMsg)
    exSig Hpt M H_hash H_ne H_order S_ne S_order sum_keys_ne ex_equation (commit exKeys weights)
    (commit_isCommitment _ _)
  exact h (ex_z hm)

theorem ex_accepted (M : G2In) (weights : Fin 10 → Fr) : TxAccepted mode (exPub M weights) (exPriv weights) :=
  ⟨(), (txDefine _ _ _).ok _ (ex_accepted_run M weights)⟩

/-! ## C18 -/

/-- the claim: an accepted transaction carries a signature over the point given as public message hash -/
def C18Claim (mode : Mode) : Prop :=
  ∀ (pub : TxPublic) (priv : TxPrivate) (K : Fin 10 → E1 Fp) (S M : ETwist Fp), TxAccepted mode pub priv →
    (∀ i, Denotes (priv.publicKeys i) (K i)) → GeneralPosition K (fun i => priv.bitList i = 1) →
    priv.signature = newG2Affine (enc2 S) → S ≠ 0 → rOrder • S = 0 →
    pub.messageHash = newG2Affine (enc2 M) → M ≠ 0 → rOrder • M = 0 →
    ate (-G1gen) S * ate (signersSum K fun i => priv.bitList i = 1) M = 1

/-- **C18 is false of the code**, in both modes. -/
theorem c18_false : ¬ C18Claim mode := by
  intro h
  have := h _ _ key exSig G2gen (ex_accepted (newG2Affine (enc2 G2gen)) fun _ => 100) exKeys_denote (key_general _) rfl
    S_ne S_order rfl G2gen_ne G2gen_order
  have hs : signersSum key (fun i => (exPriv fun _ => 100).bitList i = 1) = ∑ i, key i := by
    simp [signersSum, exPriv]
  rw [hs, sum_keys] at this
  exact other_ne this

/-! ## rotation -/

/-- public inputs of the example rotation, for any weights, message hash and signed bytes -/
noncomputable def exRotPub (M : G2In) (oldW newW : Fin 10 → Fr) (msg : Vector Fips.Byte 32) : RotatePublic :=
  ⟨M, commit exKeys oldW, commit exKeys newW, msgVars msg, ∑ i, oldW i⟩
/-- its private inputs -/
noncomputable def exRotPriv (oldW newW : Fin 10 → Fr) : RotatePrivate :=
  ⟨oldW, newW, exKeys, exKeys, fun _ => 1, newG2Affine (enc2 exSig)⟩

/-- The example rotation (all validators stay) is accepted, in both modes, by the honest prover. -/
theorem ex_rotate_run (M : G2In) (oldW newW : Fin 10 → Fr) :
    (rotateDefine mode (exRotPub M oldW newW G2.exMsg) (exRotPriv oldW newW)).run = some () := by
  obtain ⟨apk, ha, -, hrot⟩ := c19_all_sign (mode := mode) exKeys_denote (key_general _) oldW
  obtain ⟨z, hm, h⟩ := c23_rotate_complete (mode := mode) (old := exKeys) (new := exKeys)
    (fun i => (exKeys_denote i).1) (fun _ => 1) oldW newW
    (fun _ => Or.inr rfl) hrot ha (msgVars G2.exMsg) exSig Hpt M H_hash H_ne H_order S_ne S_order sum_keys_ne
    ex_equation _ _ (∑ i, oldW i) (commit_isCommitment exKeys oldW) (commit_isCommitment exKeys newW) (by simp)
  exact h (ex_z hm)

/-- It is accepted with any other signed bytes as well. -/
theorem ex_rotate_accepted (M : G2In) (oldW newW : Fin 10 → Fr) (msg : Vector Fips.Byte 32) :
    RotateAccepted mode (exRotPub M oldW newW msg) (exRotPriv oldW newW) :=
  (c22_bytes_free (rpub := exRotPub M oldW newW msg) G2.exMsg msg).1
    ⟨(), (rotateDefine _ _ _).ok _ (ex_rotate_run M oldW newW)⟩

/-! ## C22 -/

/-- the claim: the signed bytes of an accepted rotation are the 32-byte big-endian encoding of the new commitment -/
def C22Claim (mode : Mode) : Prop :=
  ∀ (pub : RotatePublic) (priv : RotatePrivate) (msg : Vector Fips.Byte 32), RotateAccepted mode pub priv →
    pub.newApkCommitmentBytes = msgVars msg → msg.toList = Rfc.I2OSP pub.newCommitment.val 32

/-- **C22 is false of the code**, in both modes. -/
theorem c22_false : ¬ C22Claim mode := by
  intro h
  have h1 := h _ _ (Vector.replicate 32 0) (ex_rotate_accepted (newG2Affine (enc2 G2gen)) (fun _ => 100)
    (fun _ => 100) (Vector.replicate 32 0)) rfl
  have h2 := h _ _ (Vector.replicate 32 1) (ex_rotate_accepted (newG2Affine (enc2 G2gen)) (fun _ => 100)
    (fun _ => 100) (Vector.replicate 32 1)) rfl
  exact absurd (h1.trans h2.symm) (by decide)

/-! ## C19 -/

/-- the claim: for distinct signers' keys in general position every aggregated key the circuit accepts is the sum of
the keys whose bit is 1 -/
def C19Claim (mode : Mode) : Prop :=
  ∀ (keys : Fin 10 → G1In) (K : Fin 10 → E1 Fp) (bits : Fin 10 → Fr), (∀ i, Denotes (keys i) (K i)) →
    (∀ i, bits i = 0 ∨ bits i = 1) → GeneralPosition K (fun i => bits i = 1) → ∀ apk,
    (aggregatePublicKeysRotate mode keys bits).sat apk → (⟨apk.X, apk.Y⟩ : G1Affine Fp) = enc1 (signersSum K fun i => bits i = 1)

/-- C19 holds in the test engine ... -/
theorem c19_true_engine : C19Claim .engine := by
  intro keys K bits hk hb hg apk h
  obtain ⟨v, hv, -, e⟩ := c19_engine_partial hk bits (fun _ => 0) hb hg
  rw [e] at h
  obtain rfl : v = apk := h.symm
  exact hv

theorem first_signer : signersSum key (fun i : Fin 10 => i.val < 1) = G1gen := by
  rw [signersSum_key]
  refine Eq.trans ?_ (one_nsmul _)
  refine congrArg (· • G1gen) ?_
  refine Eq.trans (Finset.sum_congr rfl (g := fun i : Fin 10 => if i = 0 then 1 else 0) ?_) ?_
  · intro i _
    rcases Nat.eq_zero_or_pos i.val with e | e
    · rw [if_pos (by omega), if_pos (Fin.ext e), e, pow_zero]
    · rw [if_neg (by omega), if_neg (fun c => by rw [c] at e; exact absurd e (by decide))]
  · rw [Finset.sum_ite_eq' Finset.univ 0, if_pos (Finset.mem_univ _)]

/-- ... and **is false of the compiled circuit**: only the first validator signs, with secret key 1. -/
theorem c19_false_compiled : ¬ C19Claim .compiled := by
  intro h
  obtain ⟨apk, e, -, hne⟩ := c19_compiled_false exKeys_denote 1 le_rfl (by norm_num) rfl (key_general _) (by
    intro x y hp
    rw [first_signer] at hp
    obtain ⟨rfl, rfl⟩ := G1Affine.mk.inj ((enc1_pt hp).symm.trans (enc1_pt gen_pt))
    constructor <;> decide +kernel)
  refine hne ?_
  have hb : (fun i : Fin 10 => i.val < 1) = fun i => firstSign 1 i = 1 := by
    funext i; rw [firstSign]; split <;> simp_all
  rw [hb]
  exact h exKeys key (firstSign 1) exKeys_denote (fun i => by rw [firstSign]; split <;> simp) (key_general _) apk
    (by rw [e]; rfl)

/-! ## the hypotheses of the other theorems are met -/

theorem hundred : (100 : Fr).val ≤ 100 := by decide +kernel

/-- C14, C15, C16: the declared weight of the example is the sum, 1000 -/
example : (exPub (newG2Affine (enc2 G2gen)) fun _ => 100).signedWeight.val = 1000 := by
  rw [c15_no_wrap_64 (ex_accepted (mode := .compiled) _ _) (fun _ => hundred.trans_lt (by norm_num))]
  simp only [exPriv, if_true, Finset.sum_const, Finset.card_univ, Fintype.card_fin]
  decide +kernel

/-- C15: the declared weight of an accepted transaction can be smaller than the integer sum -/
theorem c15_wrap_example : ∃ (pub : TxPublic) (priv : TxPrivate), TxAccepted mode pub priv ∧
    pub.signedWeight.val < ∑ k, if priv.bitList k = 1 then (priv.weights k).val else 0 := by
  obtain ⟨c, w, h, hlt⟩ := c15_wrap (ex_accepted (mode := mode) (newG2Affine (enc2 G2gen)) fun _ => 100) 0 1
    (by decide) rfl rfl (by decide +kernel)
  exact ⟨_, _, h, hlt⟩

/-- C17, C21: the example rotation with new weights 100 hands over to the example transaction with weights 100 -/
example (oldW : Fin 10 → Fr) (M : G2In) :=
  c21_chain (ex_rotate_accepted (mode := mode) M oldW (fun _ => 100) G2.exMsg) (ex_accepted M fun _ => 100) rfl

/-- C20: the trusted weight of the example rotation with old weights 100 is 1000 -/
example (M : G2In) (newW : Fin 10 → Fr) : (exRotPub M (fun _ => 100) newW G2.exMsg).trustedWeight.val = 1000 := by
  rw [c20_no_wrap (ex_rotate_accepted (mode := .compiled) M (fun _ => 100) newW G2.exMsg) 100 (by decide +kernel)
    (fun _ => hundred)]
  simp only [exRotPriv, true_and, true_or, if_true, Finset.sum_const, Finset.card_univ, Fintype.card_fin]
  decide +kernel

theorem enc1_injective : Function.Injective enc1 := by
  have h4 : (4 : Fp) ≠ 0 := by decide +kernel
  intro P Q h
  match P, Q, h with
  | .zero, .zero, _ => rfl
  | .zero, .some x y hQ, h =>
    obtain ⟨rfl, rfl⟩ := G1Affine.mk.inj h
    have := (sw_nonsingular 0 0).1 hQ |>.1
    exact absurd (by simpa using this) h4.symm
  | .some x y hP, .zero, h =>
    obtain ⟨rfl, rfl⟩ := G1Affine.mk.inj h
    have := (sw_nonsingular 0 0).1 hP |>.1
    exact absurd (by simpa using this) h4.symm
  | .some x y hP, .some x' y' hQ, h =>
    obtain ⟨rfl, rfl⟩ := G1Affine.mk.inj h
    rfl

/-- C20: the keys are the same but every validator has moved; the rotation is accepted with trusted weight 0. -/
theorem c20_moved (M : G2In) (oldW newW : Fin 10 → Fr) :
    RotateAccepted mode ⟨M, commit (fun i => exKeys (i + 1)) oldW, commit exKeys newW, msgVars G2.exMsg, 0⟩
      ⟨oldW, newW, fun i => exKeys (i + 1), exKeys, fun _ => 1, newG2Affine (enc2 exSig)⟩ := by
  have hinj : ∀ i j, exKeys i = exKeys j → i = j := by
    intro i j e
    have h1 := enc1_injective (c58_keys.1 e)
    have hi := pow_lt i
    have hj := pow_lt j
    have hb := big
    rw [key, key] at h1
    refine Fin.ext (Nat.pow_right_injective le_rfl (?_ : 2 ^ i.val = 2 ^ j.val))
    generalize 2 ^ i.val = m at *
    generalize 2 ^ j.val = n at *
    by_contra hne
    rcases lt_or_gt_of_ne hne with h | h
    · exact smul_ne (n := n - m) (by omega) (by omega) (smul_diff h h1)
    · exact smul_ne (n := m - n) (by omega) (by omega) (smul_diff h h1.symm)
  have hz : ∀ i, exKeys (i + 1) ≠ ⟨fun _ => 0, fun _ => 0⟩ := by
    intro i e
    have h0 : newG1Affine (enc1 0) = ⟨fun _ => 0, fun _ => 0⟩ := by
      refine G1In.ext ?_ ?_ <;> funext j <;>
        simp [newG1Affine, enc1, valueOfIn, valueOf]
    exact key_ne _ (enc1_injective (c58_keys.1 (e.trans h0.symm)))
  obtain ⟨apk, ha, -, hrot⟩ := c19_all_sign (mode := mode) exKeys_denote (key_general _) oldW
  obtain ⟨z, hm, h⟩ := c23_rotate_complete (mode := mode) (old := fun i => exKeys (i + 1)) (new := exKeys)
    (fun i => (exKeys_denote i).1) (fun _ => 1) oldW newW
    (fun _ => Or.inr rfl) hrot ha (msgVars G2.exMsg) exSig Hpt M H_hash H_ne H_order S_ne S_order sum_keys_ne
    ex_equation _ _ 0 (commit_isCommitment _ oldW) (commit_isCommitment exKeys newW) (by
      refine (Finset.sum_eq_zero fun i _ => if_neg ?_).symm
      rintro (⟨-, h⟩ | ⟨h, -⟩)
      · exact (by decide : ∀ i : Fin 10, i ≠ i + 1) i (hinj _ _ h)
      · exact one_ne_zero h)
  exact ⟨(), (rotateDefine _ _ _).ok _ (h (ex_z hm))⟩

/-- C23: the pairing equation theorem applies to the example -/
example (M : G2In) (weights : Fin 10 → Fr) :=
  c23_pairing_equation (ex_accepted (mode := mode) M weights) (∑ i, key i) exSig (by
    intro apk h
    obtain ⟨v, hv, e, -⟩ := c19_all_sign (mode := mode) exKeys_denote (key_general _) weights
    rw [show (exPub M weights).signedWeight = ∑ i, weights i from rfl,
      show (exPriv weights).publicKeys = exKeys from rfl, show (exPriv weights).bitList = fun _ => 1 from rfl,
      show (exPriv weights).weights = weights from rfl, e] at h
    obtain rfl : v = apk := h.symm
    exact hv) sum_keys_ne (c58_signature _).2 S_ne S_order

end Spark.CircuitProps
