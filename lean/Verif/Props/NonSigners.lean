import Verif.Props.Honest
import Verif.Props.NineOfTen
import Verif.Props.Api

/-!
# C100: validators who do not sign

Keys and weights of validators whose bit is 0 enter the circuits through the commitment only.  So a validator set of
fewer than ten members can be padded with arbitrary entries that never sign; and a rotation does not protect the keys
of the new validators who did not sign it.
-/

namespace Spark.NonSignerProps
open Spark Circ Spec Circuit Pairing PairingProps CircuitProps GroupProps ExceptionProps HashProps HonestProps
open scoped BigOperators
set_option maxRecDepth 100000
set_option autoImplicit false

/-- the two lists agree wherever the bit is 1 -/
def SameSigners {α : Type} (bits : Fin 10 → Fr) (a b : Fin 10 → α) : Prop := ∀ i, bits i = 1 → a i = b i

/-- the entry of an unused place: both coordinates zero -/
def emptySlot : G1In := ⟨fun _ => 0, fun _ => 0⟩

theorem emptySlot_fits : emptySlot.Fits := by
  constructor <;> intro j <;> simp only [emptySlot, ZMod.val_zero] <;> split <;> positivity

theorem selVal_same (mode : Mode) {b : Bool} {k k' : G1In} (h : b = true → k = k') :
    selVal mode b k = selVal mode b k' := by
  cases b
  · simp only [selVal.eq_def, Bool.false_eq_true, if_false]
  · rw [h rfl]

theorem selected_same (mode : Mode) {bs : Fin 10 → Bool} {keys keys' : Fin 10 → G1In}
    (h : SameSigners (fun i => bit (bs i)) keys keys') : selected mode keys bs = selected mode keys' bs := by
  rw [selected, selected]
  exact congrArg List.ofFn (funext fun i => selVal_same mode fun e => h i ((congrArg bit e).trans bit_true))

/-- **C100, aggregation.** The key aggregated by either circuit does not depend on the keys of those who do not sign. -/
theorem c100_aggregate (mode : Mode) {keys keys' : Fin 10 → G1In} (hf : ∀ i, (keys i).Fits) (hf' : ∀ i, (keys' i).Fits)
    (bits : Fin 10 → Fr) (hs : SameSigners bits keys keys') :
    aggregatePublicKeysRotate mode keys bits = aggregatePublicKeysRotate mode keys' bits := by
  by_cases hb : ∃ bs : Fin 10 → Bool, bits = fun i => bit (bs i)
  · obtain ⟨bs, rfl⟩ := hb
    rw [aggregateRotate_eq _ _ hf, aggregateRotate_eq _ _ hf', selected_same mode hs]
  · rw [aggregateRotate_fail _ fun h => hb h.2, aggregateRotate_fail _ fun h => hb h.2]

/-- **C100, transactions.** Two transactions that differ in keys and weights of non-signers only, each with the
commitment to its own keys and weights, are the same system of constraints: the same provers succeed. -/
theorem c100_transaction (mode : Mode) {keys keys' : Fin 10 → G1In} (hf : ∀ i, (keys i).Fits)
    (hf' : ∀ i, (keys' i).Fits) {bits weights weights' : Fin 10 → Fr} (hs : SameSigners bits keys keys')
    (hw : SameSigners bits weights weights') {c c' : Fr}
    (hc : IsCommitment (fun i => (keys i).X) (fun i => (keys i).Y) weights c)
    (hc' : IsCommitment (fun i => (keys' i).X) (fun i => (keys' i).Y) weights' c') (M S : G2In) (t : Fr)
    (msg : Vector Fr 32) :
    txDefine mode ⟨M, c, t⟩ ⟨keys, S, bits, weights, msg⟩ = txDefine mode ⟨M, c', t⟩ ⟨keys', S, bits, weights', msg⟩ := by
  obtain rfl := isCommitment_unique (commit_isCommitment _ _) hc
  obtain rfl := isCommitment_unique (commit_isCommitment _ _) hc'
  rw [txDefine, txDefine, verifyTx, verifyTx]
  have e : aggregatePublicKeys mode keys bits weights t = aggregatePublicKeys mode keys' bits weights' t := by
    by_cases hb : ∃ bs : Fin 10 → Bool, bits = fun i => bit (bs i)
    · obtain ⟨bs, rfl⟩ := hb
      rw [aggregate_eq _ _ _ _ hf, aggregate_eq _ _ _ _ hf', selected_same mode hs]
      congr 3
      refine Finset.sum_congr rfl fun i _ => ?_
      cases e : bs i
      · rfl
      · rw [hw i (by simp [e])]
    · rw [aggregate_fail _ _ _ fun h => hb h.2, aggregate_fail _ _ _ fun h => hb h.2]
  simp only [e, computeAPKCommitment_eq, pure_bind, commitmentCheck, apiAssertEq, assert_true]

/-- the weight a rotation has to declare as trusted (C20) -/
noncomputable def trusted (old new : Fin 10 → G1In) (bits oldW : Fin 10 → Fr) : Fr := open Classical in
  ∑ i, if (bits i = 1 ∧ new i = old i) ∨ (bits i = 0 ∧ old i = emptySlot) then oldW i else 0

/-- **C100, rotations.** Two rotations with the same signers that differ in keys of non-signers and in new weights, and
start from sets with the same trusted weight, each with its own commitments, are the same system of constraints. -/
theorem c100_rotation (mode : Mode) {old old' new new' : Fin 10 → G1In} (hf : ∀ i, (new i).Fits)
    (hf' : ∀ i, (new' i).Fits) {bits oldW oldW' newW newW' : Fin 10 → Fr} (hs : SameSigners bits new new')
    (ht : trusted old new bits oldW = trusted old' new' bits oldW') {c c' n n' : Fr}
    (hc : IsCommitment (fun i => (old i).X) (fun i => (old i).Y) oldW c)
    (hc' : IsCommitment (fun i => (old' i).X) (fun i => (old' i).Y) oldW' c')
    (hn : IsCommitment (fun i => (new i).X) (fun i => (new i).Y) newW n)
    (hn' : IsCommitment (fun i => (new' i).X) (fun i => (new' i).Y) newW' n') (M S : G2In) (t : Fr)
    (msg : Vector Fr 32) :
    rotateDefine mode ⟨M, c, n, msg, t⟩ ⟨oldW, newW, old, new, bits, S⟩ =
      rotateDefine mode ⟨M, c', n', msg, t⟩ ⟨oldW', newW', old', new', bits, S⟩ := by
  obtain rfl := isCommitment_unique (commit_isCommitment _ _) hc
  obtain rfl := isCommitment_unique (commit_isCommitment _ _) hc'
  obtain rfl := isCommitment_unique (commit_isCommitment _ _) hn
  obtain rfl := isCommitment_unique (commit_isCommitment _ _) hn'
  rw [rotateDefine, rotateDefine, verifyRotate, verifyRotate]
  have e : calculateTrustedWeight old new bits oldW = calculateTrustedWeight old' new' bits oldW' := by
    by_cases hb : ∃ bs : Fin 10 → Bool, bits = fun i => bit (bs i)
    · have hb' : ∀ i, bits i = 0 ∨ bits i = 1 := by
        obtain ⟨bs, rfl⟩ := hb
        exact fun i => by show bit (bs i) = 0 ∨ bit (bs i) = 1; cases bs i <;> simp
      rw [(c94_trusted_weight _ _ _ _).1 hb', (c94_trusted_weight _ _ _ _).1 hb']
      exact congrArg pure ht
    · rw [trustedWeight_fail _ _ _ hb, trustedWeight_fail _ _ _ hb]
  simp only [e, c100_aggregate mode hf hf' bits hs, computeAPKCommitment_eq, pure_bind, commitmentCheck, apiAssertEq,
    assert_true]

theorem trusted_same {old new new' : Fin 10 → G1In} {bits oldW : Fin 10 → Fr} (hs : SameSigners bits new new') :
    trusted old new bits oldW = trusted old new' bits oldW := by
  classical
  rw [trusted, trusted]
  refine Finset.sum_congr rfl fun i _ => ?_
  by_cases h : bits i = 1
  · rw [hs i h]
  · exact if_congr (or_congr_left (iff_of_false (fun e => h e.1) fun e => h e.1)) rfl rfl

/-- **C100, the keys of new validators who do not sign are not protected.** Whoever holds an accepted rotation can
replace the keys (and the weights) of the new validators who did not sign by any others: with the same signature, the
same signed bytes and the same trusted weight the rotation to the altered set is accepted. -/
theorem c100_keys_replaced {mode : Mode} {pub : RotatePublic} {priv : RotatePrivate} (h : RotateAccepted mode pub priv)
    {keys : Fin 10 → G1In} (hf : ∀ i, (keys i).Fits) (hs : SameSigners priv.bitList priv.newPublicKeys keys)
    (weights : Fin 10 → Fr) :
    ∃ n, IsCommitment (fun i => (keys i).X) (fun i => (keys i).Y) weights n ∧
      RotateAccepted mode { pub with newCommitment := n }
        { priv with newPublicKeys := keys, newWeights := weights } := by
  refine ⟨commit keys weights, commit_isCommitment _ _, ?_⟩
  obtain ⟨hc, hn⟩ := c21_commitments h
  obtain ⟨bs, -, hfit, -⟩ := (rotate_cases mode pub priv).1 h
  rw [RotateAccepted] at h ⊢
  exact (congrArg Circ.Satisfiable (c100_rotation mode hfit hf hs (trusted_same hs) hc hc hn
    (commit_isCommitment keys weights) pub.messageHash priv.signature pub.trustedWeight
    pub.newApkCommitmentBytes)).mp h

/-- **C100, smaller validator sets.** Some places are not used: any entries of the right width there, with bit 0.  The
honest prover succeeds exactly as it would for ten validators (C91). -/
theorem c100_padded {mode : Mode} {pub : TxPublic} {priv : TxPrivate} (sk : Fin 10 → ℕ)
    (hf : ∀ i, (priv.publicKeys i).Fits)
    (hk : ∀ i, priv.bitList i = 1 → Denotes (priv.publicKeys i) (sk i • G1gen))
    (hb : ∀ i, priv.bitList i = 0 ∨ priv.bitList i = 1)
    (hg : GeneralPosition (fun i => sk i • G1gen) fun i => priv.bitList i = 1)
    (hmode : ExactAggregation mode priv.bitList)
    (hsk : ¬ rOrder ∣ secretSum sk fun i => priv.bitList i = 1) (S H : ETwist Fp)
    (hH : (G2.hashToG2 priv.msgBytes).run = some (enc2 H)) (hH0 : H ≠ 0) (hHr : rOrder • H = 0)
    (hS : priv.signature = newG2Affine (enc2 S)) (hS0 : S ≠ 0) (hSr : rOrder • S = 0) :
    ∃ z, millerLoop [enc1 (-G1gen), enc1 (signersSum (fun i => sk i • G1gen) fun i => priv.bitList i = 1)]
        [enc2 S, enc2 H] = .ok (pure z) ∧
      ((txDefine mode pub priv).run = some () ↔
        pub.signedWeight = (∑ i, if priv.bitList i = 1 then priv.weights i else 0) ∧
        IsCommitment (fun i => (priv.publicKeys i).X) (fun i => (priv.publicKeys i).Y) priv.weights
          pub.apkCommitment ∧
        S = aggregateSignature sk (fun i => priv.bitList i = 1) H ∧ ¬ Exceptional z) := by
  classical
  let sk' : Fin 10 → ℕ := fun i => if priv.bitList i = 1 then sk i else 1
  let keys' : Fin 10 → G1In := fun i => if priv.bitList i = 1 then priv.publicKeys i else newG1Affine (enc1 G1gen)
  have hgen : G1gen ≠ 0 := fun e => Witness.smul_ne (n := 1) (by norm_num) (lt_trans (by norm_num) Witness.big) (by rw [e, smul_zero])
  have hk' : ∀ i, Denotes (keys' i) (sk' i • G1gen) := fun i => by
    simp only [keys', sk']
    split
    · next h => exact hk i h
    · rw [one_nsmul]; exact c58_denotes _ hgen
  have hs : SameSigners priv.bitList priv.publicKeys keys' := fun i h => by simp only [keys', if_pos h]
  have esum : ∀ s : Fin 10 → Prop, (∀ i, s i → priv.bitList i = 1) →
      signersSum (fun i => sk' i • G1gen) s = signersSum (fun i => sk i • G1gen) s := fun s h => by
    rw [signersSum, signersSum]
    refine Finset.sum_congr rfl fun i _ => ?_
    by_cases hi : s i
    · rw [if_pos hi, if_pos hi]; simp only [sk', if_pos (h i hi)]
    · rw [if_neg hi, if_neg hi]
  have hg' : GeneralPosition (fun i => sk' i • G1gen) fun i => priv.bitList i = 1 := fun i hi hj => by
    have := hg i hi hj
    rw [esum _ fun _ h => h.2]
    simpa only [sk', if_pos hi] using this
  have esec : secretSum sk' (fun i => priv.bitList i = 1) = secretSum sk fun i => priv.bitList i = 1 := by
    rw [secretSum, secretSum]
    refine Finset.sum_congr rfl fun i _ => ?_
    by_cases hi : priv.bitList i = 1
    · rw [if_pos hi, if_pos hi]; simp only [sk', if_pos hi]
    · rw [if_neg hi, if_neg hi]
  obtain ⟨z, hm, hz⟩ := c91_transaction (mode := mode)
    (pub := ⟨pub.messageHash, commit keys' priv.weights, pub.signedWeight⟩)
    (priv := { priv with publicKeys := keys' }) sk' hk' hb hg' hmode (by rw [esec]; exact hsk) S H hH hH0 hHr hS hS0 hSr
  rw [esum _ fun _ h => h] at hm
  refine ⟨z, hm, ?_⟩
  rw [aggregateSignature_eq, esec, ← aggregateSignature_eq] at hz
  constructor
  · intro h
    have hc := c17_commitment (mode := mode) (pub := pub) (priv := priv) ⟨(), (txDefine _ _ _).ok _ h⟩
    have h2 := (congrArg Circ.run (c100_transaction mode hf (fun i => (hk' i).1) hs (fun _ _ => rfl) hc
      (commit_isCommitment keys' priv.weights) pub.messageHash priv.signature pub.signedWeight priv.msgBytes)).symm.trans h
    obtain ⟨h3, -, h4⟩ := hz.1 h2
    exact ⟨h3, hc, h4⟩
  · rintro ⟨h3, hc, h4⟩
    exact (congrArg Circ.run (c100_transaction mode hf (fun i => (hk' i).1) hs (fun _ _ => rfl) hc
      (commit_isCommitment keys' priv.weights) pub.messageHash priv.signature pub.signedWeight priv.msgBytes)).trans
      (hz.2 ⟨h3, commit_isCommitment _ _, h4⟩)

/-- eight validators and two empty places, all eight sign: accepted by the compiled circuit -/
theorem c100_eight (M : G2In) (weights : Fin 10 → Fr) :
    (txDefine .compiled
      ⟨M, commit (fun i => if patA i then newG1Affine (enc1 (skA i • G1gen)) else emptySlot) weights,
        ∑ i, if bit (patA i) = 1 then weights i else 0⟩
      ⟨fun i => if patA i then newG1Affine (enc1 (skA i • G1gen)) else emptySlot, newG2Affine (enc2 exSig),
        fun i => bit (patA i), weights, HashProps.msgVars G2.exMsg⟩).run = some () := by
  have hf : ∀ i, (newG1Affine (enc1 (skA i • G1gen))).Fits := fun i => ⟨(c58_circuit _).1, (c58_circuit _).1⟩
  refine (congrArg Circ.run (c100_transaction .compiled (fun i => ?_) hf (fun i h => ?_) (fun _ _ => rfl)
    (commit_isCommitment _ _) (commit_isCommitment _ _) M _ _ _)).trans (c63_compiled_example M weights)
  · split
    · exact hf i
    · exact emptySlot_fits
  · cases e : patA i
    · simp [e] at h
    · rfl

/-- **C100, nine validators.** A set of nine validators with the tenth place empty, all nine honest and signing: the
compiled circuit accepts no proof attempt with honest hints, the test engine accepts. -/
theorem c100_nine (M : G2In) (weights : Fin 10 → Fr) :
    let keys : Fin 10 → G1In := fun i => if patN i then exKeys i else emptySlot
    (txDefine .compiled ⟨M, commit keys weights, ∑ i, if bit (patN i) = 1 then weights i else 0⟩
      ⟨keys, newG2Affine (enc2 sigN), fun i => bit (patN i), weights, HashProps.msgVars G2.exMsg⟩).run = none ∧
    (txDefine .engine ⟨M, commit keys weights, ∑ i, if bit (patN i) = 1 then weights i else 0⟩
      ⟨keys, newG2Affine (enc2 sigN), fun i => bit (patN i), weights, HashProps.msgVars G2.exMsg⟩).run = some () := by
  intro keys
  have hf : ∀ i, (keys i).Fits := fun i => by
    simp only [keys]
    split
    · exact (exKeys_denote i).1
    · exact emptySlot_fits
  have hs : SameSigners (fun i => bit (patN i)) keys exKeys := fun i h => by
    cases e : patN i
    · simp [e] at h
    · simp only [keys, e, if_true]
  have h := fun mode t => congrArg Circ.run (c100_transaction mode hf (fun i => (exKeys_denote i).1) hs
    (fun _ _ => rfl) (commit_isCommitment _ _) (commit_isCommitment exKeys weights) M (newG2Affine (enc2 sigN)) t
    (HashProps.msgVars G2.exMsg))
  exact ⟨(h .compiled _).trans ((c63_nine_of_ten M weights).1 _ _), (h .engine _).trans (c63_nine_of_ten M weights).2⟩

end Spark.NonSignerProps
