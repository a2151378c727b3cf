import Verif.Props.Compiled
import Verif.Lemmas.NineWitness

/-!
# C63 fails of the compiled circuit when one validator does not sign

Ten validators with secret keys `2^i`; the first nine sign the example message honestly.  In the test engine the
transaction is accepted, in the compiled circuit the honest prover fails.
-/

namespace Spark.CircuitProps
open Spark Circ Spec Circuit Pairing PairingProps GroupProps
open scoped BigOperators
set_option maxRecDepth 100000

/-- everybody but the last validator signs -/
def patN (i : Fin 10) : Bool := decide (i ≠ 9)
/-- the secret keys -/
def skN (i : Fin 10) : ℕ := 2 ^ i.val

theorem skN_sum : secretSum skN (fun i => bit (patN i) = 1) = 511 := by
  rw [secret_bits]; decide

/-- the honest prover fails if the pairing check does -/
theorem tx_run_none {mode : Mode} {pub : TxPublic} {priv : TxPrivate} {bs : Fin 10 → Bool} {apk : G1Var}
    {h : G2Affine Fp} (hb : priv.bitList = fun i => bit (bs i)) (hf : ∀ i, (priv.publicKeys i).Fits)
    (hs : priv.signature.Fits) (ha : addAll (selected mode priv.publicKeys bs) = pure apk)
    (hh : (G2.hashToG2 priv.msgBytes).run = some h)
    (hp : ¬ (pairingCheckStmt [g1neg, ⟨apk.X, apk.Y⟩] [priv.signature.val, h]).Satisfiable) :
    (txDefine mode pub priv).run = none := by
  rcases hr : (txDefine mode pub priv).run with _ | u
  · rfl
  refine absurd hr ?_
  rw [txDefine, verifyTx, hb, aggregate_eq mode bs priv.weights _ hf, ha]
  simp only [computeAPKCommitment_eq, pure_bind, bind_assoc, commitmentCheck, apiAssertEq, run_bind]
  intro hr
  simp only [Option.bind_eq_some_iff] at hr
  obtain ⟨-, -, -, -, h', e, s, hs', hr⟩ := hr
  rw [hh] at e
  obtain rfl := Option.some.inj e
  rw [useG2_fits hs, run_pure] at hs'
  obtain rfl := Option.some.inj hs'
  exact hp ⟨u, Circ.ok _ _ hr⟩

theorem rotate_run_none {mode : Mode} {pub : RotatePublic} {priv : RotatePrivate} {bs : Fin 10 → Bool} {apk : G1Var}
    {h : G2Affine Fp} (hb : priv.bitList = fun i => bit (bs i)) (hf : ∀ i, (priv.newPublicKeys i).Fits)
    (hs : priv.signature.Fits) (ha : addAll (selected mode priv.newPublicKeys bs) = pure apk)
    (hh : (G2.hashToG2 pub.newApkCommitmentBytes).run = some h)
    (hp : ¬ (pairingCheckStmt [g1neg, ⟨apk.X, apk.Y⟩] [priv.signature.val, h]).Satisfiable) :
    (rotateDefine mode pub priv).run = none := by
  rcases hr : (rotateDefine mode pub priv).run with _ | u
  · rfl
  refine absurd hr ?_
  rw [rotateDefine, verifyRotate, hb, trustedWeight_eq, aggregateRotate_eq mode bs hf, ha]
  simp only [computeAPKCommitment_eq, pure_bind, commitmentCheck, apiAssertEq, run_bind]
  intro hr
  simp only [Option.bind_eq_some_iff] at hr
  obtain ⟨-, -, -, -, -, -, h', e, s, hs', hr⟩ := hr
  rw [hh] at e
  obtain rfl := Option.some.inj e
  rw [useG2_fits hs, run_pure] at hs'
  obtain rfl := Option.some.inj hs'
  exact hp ⟨u, Circ.ok _ _ hr⟩

/-- the aggregate of the nine signatures -/
noncomputable def sigN : ETwist Fp := aggregateSignature skN (fun i => bit (patN i) = 1) Witness.Hpt

theorem sigN_eq : sigN = 511 • Witness.Hpt := by rw [sigN, aggregateSignature_eq, skN_sum]

theorem sumN_eq : signersSum Witness.key (fun i => bit (patN i) = 1) = 511 • G1gen := by
  rw [show Witness.key = fun i => skN i • G1gen from rfl, signersSum_secret, skN_sum]

/-- the key aggregated by the compiled circuit -/
theorem apkN : ∃ apk : G1Var, addAll (selected .compiled exKeys patN) = pure apk ∧
    (⟨apk.X, apk.Y⟩ : G1Affine Fp) = ⟨(Witness.cx9 : Fp), (Witness.cy9 : Fp)⟩ := by
  obtain ⟨x, y, hs, -, apk, hagg, -, h⟩ := c19_compiled_gaps exKeys_denote (K := Witness.key)
    (fun i => by rw [Witness.key, smul_comm, Witness.G1gen_order, nsmul_zero])
    (fun i => bit (patN i)) (fun i => by cases patN i <;> simp) (Witness.key_general _)
    ((evenGaps_bits patN).2 (by unfold GoodPattern; decide))
  have h := h (by rw [absentees_even]; decide)
  rw [aggregateRotate_eq _ _ fun i => (exKeys_denote i).1] at hagg
  rw [sumN_eq, enc1_pt Witness.pt9] at hs
  obtain ⟨rfl, rfl⟩ := G1Affine.mk.inj hs
  obtain ⟨-, e1, e2⟩ := Witness.cast9
  rw [e1, e2] at h
  exact ⟨apk, hagg, by rw [(Prod.mk.inj h).1, (Prod.mk.inj h).2]⟩

theorem checkN : ¬ (pairingCheckStmt [g1neg, ⟨(Witness.cx9 : Fp), (Witness.cy9 : Fp)⟩]
    [(newG2Affine (enc2 sigN)).val, enc2 Witness.Hpt]).Satisfiable := by
  obtain ⟨z, -, hm, hz, -⟩ := Witness.nine_values
  rw [(c58_signature _).2, sigN_eq, g1neg_eq]
  obtain ⟨c, hc, e⟩ := check_ok (enc1 (-G1gen)) ⟨(Witness.cx9 : Fp), (Witness.cy9 : Fp)⟩ (enc2 (511 • Witness.Hpt))
    (enc2 Witness.Hpt)
  rw [e]
  intro hs
  obtain ⟨m, z', hm', hz', -, h1⟩ := c43_sound_general _ _ c hc hs
  rw [hm] at hm'
  obtain rfl := Except.ok.inj hm'
  rw [sat_pure] at hz'
  subst hz'
  exact hz h1

/-- **An honest transaction with nine of ten signers is rejected by the compiled circuit and accepted by the test
engine**, for every message hash and all weights. -/
theorem c63_nine_of_ten (M : G2In) (weights : Fin 10 → Fr) :
    (∀ c t : Fr, (txDefine .compiled ⟨M, c, t⟩
      ⟨exKeys, newG2Affine (enc2 sigN), fun i => bit (patN i), weights, HashProps.msgVars G2.exMsg⟩).run = none) ∧
    (txDefine .engine ⟨M, commit exKeys weights, ∑ i, if bit (patN i) = 1 then weights i else 0⟩
      ⟨exKeys, newG2Affine (enc2 sigN), fun i => bit (patN i), weights, HashProps.msgVars G2.exMsg⟩).run = some () := by
  refine ⟨fun c t => ?_, ?_⟩
  · obtain ⟨apk, ha, e⟩ := apkN
    refine tx_run_none (bs := patN) (apk := apk) rfl (fun i => (exKeys_denote i).1) (c58_signature _).1 ha H_hash ?_
    rw [e]
    exact checkN
  · obtain ⟨z, hm, h⟩ := c63_transaction skN exKeys_denote (fun i => bit (patN i)) weights
      (fun i => by cases patN i <;> simp) (Witness.key_general _) (HashProps.msgVars G2.exMsg) Witness.Hpt M H_hash
      Witness.H_ne Witness.H_order (by rw [skN_sum]; decide +kernel) _ (commit_isCommitment _ _)
    refine h ?_
    obtain ⟨-, w, -, -, hw, hne⟩ := Witness.nine_values
    rw [signersSum_secret, aggregateSignature_eq, skN_sum, hw] at hm
    rw [← Witness.pure_inj (Except.ok.inj hm)]
    exact hne

/-- **The same for rotations**: nine of the ten new validators sign. -/
theorem c63_nine_of_ten_rotation (M : G2In) (old : Fin 10 → G1In) (oldW newW : Fin 10 → Fr) :
    (∀ c c' tw : Fr, (rotateDefine .compiled ⟨M, c, c', HashProps.msgVars G2.exMsg, tw⟩
      ⟨oldW, newW, old, exKeys, fun i => bit (patN i), newG2Affine (enc2 sigN)⟩).run = none) ∧
    ∃ tw, (rotateDefine .engine ⟨M, commit old oldW, commit exKeys newW, HashProps.msgVars G2.exMsg, tw⟩
      ⟨oldW, newW, old, exKeys, fun i => bit (patN i), newG2Affine (enc2 sigN)⟩).run = some () := by
  refine ⟨fun c c' tw => ?_, ?_⟩
  · obtain ⟨apk, ha, e⟩ := apkN
    refine rotate_run_none (bs := patN) (apk := apk) rfl (fun i => (exKeys_denote i).1) (c58_signature _).1 ha H_hash ?_
    rw [e]
    exact checkN
  · obtain ⟨z, hm, h⟩ := c63_rotation (mode := .engine) (old := old) skN exKeys_denote (fun i => bit (patN i)) oldW newW
      (fun i => by cases patN i <;> simp) (Witness.key_general _) (Or.inl rfl) (HashProps.msgVars G2.exMsg)
      Witness.Hpt M H_hash Witness.H_ne Witness.H_order (by rw [skN_sum]; decide +kernel) _ _ _
      (commit_isCommitment _ _) (commit_isCommitment _ _) rfl
    refine ⟨_, h ?_⟩
    obtain ⟨-, w, -, -, hw, hne⟩ := Witness.nine_values
    rw [signersSum_secret, aggregateSignature_eq, skN_sum, hw] at hm
    rw [← Witness.pure_inj (Except.ok.inj hm)]
    exact hne

end Spark.CircuitProps
