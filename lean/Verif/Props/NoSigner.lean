import Verif.Props.Forgery
import Verif.Props.Honest

/-!
# C106: proofs in which nobody is said to have signed

Neither circuit requires a signer.  What becomes of a bit list of zeros (and, in the compiled circuit, of a bit list in which the
first two validators are absent) follows from how the aggregated key is computed.
-/

namespace Spark.HonestProps
open Spark Circ Spec Circuit Pairing PairingProps CircuitProps GroupProps HashProps ForgeryProps
open scoped BigOperators
set_option maxRecDepth 100000

/-- no line can be evaluated at a pair with ordinate 0 -/
theorem miller_second_ne {P1 P2 : G1Affine Fp} {Q1 Q2 : G2Affine Fp} {m : Circ (E12 Fp)} {z : E12 Fp}
    (h : millerLoop [P1, P2] [Q1, Q2] = .ok m) (hz : m.sat z) : P2.Y ≠ 0 := by
  intro h0
  have h : Except.ok _ = Except.ok m := h
  obtain rfl := Except.ok.inj h
  have e : initPairs [P1, P2] [Q1, Q2] = fail := by
    refine eq_fail fun b hb => ?_
    simp [initPairs, initPair, fpInverse, h0] at hb
  rw [e, fail_bind] at hz
  exact hz

theorem engine_none (keys : Fin 10 → G1In) :
    addAll (selected .engine keys fun _ => false) = pure ⟨0, 0, true⟩ := by
  have e : selected .engine keys (fun _ => false) = List.replicate 10 ⟨0, 0, true⟩ := by
    simp [selected, selVal]
  rw [e]
  simp [addAll, List.replicate, addG1Points]

theorem all_false {bits : Fin 10 → Fr} {bs : Fin 10 → Bool} (h : bits = fun i => bit (bs i)) (h0 : ∀ i, bits i = 0) :
    bs = fun _ => false := funext fun i => by
  have := congrFun h i
  rw [h0] at this
  cases hb : bs i
  · rfl
  · rw [hb] at this; simp at this

theorem bits_bool {bits : Fin 10 → Fr} {bs : Fin 10 → Bool} (h : bits = fun i => bit (bs i)) (i : Fin 10) :
    bits i = 0 ∨ bits i = 1 := by
  rw [h]
  show bit (bs i) = 0 ∨ bit (bs i) = 1
  cases bs i
  · left; rfl
  · right; rfl

theorem check_zero_key {P : G1Affine Fp} {Q1 Q2 : G2Affine Fp} : ¬ (pairingCheckStmt [P, ⟨0, 0⟩] [Q1, Q2]).Satisfiable := by
  rintro ⟨u, hu⟩
  have hm : ∃ m, millerLoop [P, ⟨0, 0⟩] [Q1, Q2] = .ok m := ⟨_, rfl⟩
  obtain ⟨m, hm⟩ := hm
  rw [pairingCheckStmt, pairingCheck, pair, hm] at hu
  dsimp only at hu
  rw [sat_bind] at hu
  obtain ⟨f, hf, -⟩ := hu
  rw [sat_bind] at hf
  obtain ⟨z, hz, -⟩ := hf
  exact miller_second_ne hm hz rfl

/-- **C106, test engine.** No prover can have a transaction accepted in which nobody signs, ... -/
theorem c106_engine {pub : TxPublic} {priv : TxPrivate} (h0 : ∀ i, priv.bitList i = 0) :
    ¬ TxAccepted .engine pub priv := fun h => by
  obtain ⟨bs, hbs, hf, -, -, -, apk, hp, ha, -, hc⟩ := (tx_cases _ _ _).1 h
  obtain rfl := all_false hbs h0
  rw [engine_none] at ha
  obtain rfl : apk = _ := ha
  exact check_zero_key hc

/-- ... or a rotation. -/
theorem c106_engine_rotation {pub : RotatePublic} {priv : RotatePrivate} (h0 : ∀ i, priv.bitList i = 0) :
    ¬ RotateAccepted .engine pub priv := fun h => by
  obtain ⟨bs, hbs, hf, -, -, -, -, apk, hp, ha, -, hc⟩ := (rotate_cases _ _ _).1 h
  obtain rfl := all_false hbs h0
  rw [engine_none] at ha
  obtain rfl : apk = _ := ha
  exact check_zero_key hc

/-- **C106, compiled circuit, honest prover.** If neither of the first two validators signs, no transaction is accepted, whoever
else signs, ... -/
theorem c106_compiled {pub : TxPublic} {priv : TxPrivate} (h0 : priv.bitList 0 = 0) (h1 : priv.bitList 1 = 0) :
    (txDefine .compiled pub priv).run = none := by
  by_contra hn
  obtain ⟨u, hu⟩ := Option.ne_none_iff_exists'.1 hn
  obtain ⟨bs, hbs, hf, -⟩ := (tx_cases _ _ _).1 ⟨u, (txDefine _ _ _).ok _ hu⟩
  obtain ⟨apk, e, -⟩ := run_first hu
  rw [(c19_compiled_two_absent hf _ _ (bits_bool hbs) h0 h1 _).2] at e
  cases e

/-- ... and no rotation. -/
theorem c106_compiled_rotation {pub : RotatePublic} {priv : RotatePrivate} (h0 : priv.bitList 0 = 0)
    (h1 : priv.bitList 1 = 0) : (rotateDefine .compiled pub priv).run = none := by
  by_contra hn
  obtain ⟨u, hu⟩ := Option.ne_none_iff_exists'.1 hn
  obtain ⟨bs, hbs, hf, -⟩ := (rotate_cases _ _ _).1 ⟨u, (rotateDefine _ _ _).ok _ hu⟩
  rw [rotateDefine, verifyRotate] at hu
  obtain ⟨t, -, hu⟩ := run_first hu
  obtain ⟨-, -, hu⟩ := run_first hu
  obtain ⟨c, -, hu⟩ := run_first hu
  obtain ⟨-, -, hu⟩ := run_first hu
  obtain ⟨c', -, hu⟩ := run_first hu
  obtain ⟨-, -, hu⟩ := run_first hu
  obtain ⟨apk, e, -⟩ := run_first hu
  rw [(c19_compiled_two_absent hf _ (fun _ => 0) (bits_bool hbs) h0 h1 0).1] at e
  cases e

/-- **C106, compiled circuit, dishonest prover.** For every message and every validator set somebody can have a transaction
accepted that nobody is said to have signed; its declared weight is 0. -/
theorem c106_compiled_forged {keys : Fin 10 → G1In} (hf : ∀ i, (keys i).Fits) (weights : Fin 10 → Fr)
    (msg : Vector Fips.Byte 32) (M : G2In) (c w : Fr)
    (hc : IsCommitment (fun i => (keys i).X) (fun i => (keys i).Y) weights c) :
    TxAccepted .compiled ⟨M, c, w⟩ ⟨keys, newG2Affine ⟨0, 0⟩, fun _ => 0, weights, msgVars msg⟩ ↔ w = 0 := by
  constructor
  · intro h
    have := c14_signed_weight h
    simpa using this
  · rintro rfl
    obtain ⟨apk, e, -, ha⟩ := c19_compiled_nobody hf weights 1
    have hY : apk.Y ≠ 0 := by rw [(Prod.mk.inj e).2]; norm_num
    simpa using c82_transaction hf (fun _ => 0) weights (fun _ => Or.inl rfl) ha hY msg M c hc

theorem empty_slot (p q : Prop) : q ↔ ((0 : Fr) = 1 ∧ p) ∨ ((0 : Fr) = 0 ∧ q) :=
  ⟨fun h => Or.inr ⟨rfl, h⟩, fun h => h.elim (fun h => absurd h.1 zero_ne_one) And.right⟩

/-- **The same for rotations**, between any two sets; the trusted weight is that of the empty slots of the old set (0 if there are
none). -/
theorem c106_compiled_forged_rotation {old new : Fin 10 → G1In} (hf : ∀ i, (new i).Fits) (oldW newW : Fin 10 → Fr)
    (msg : Vector Fips.Byte 32) (M : G2In) (c c' w : Fr)
    (hc : IsCommitment (fun i => (old i).X) (fun i => (old i).Y) oldW c)
    (hc' : IsCommitment (fun i => (new i).X) (fun i => (new i).Y) newW c') :
    RotateAccepted .compiled ⟨M, c, c', msgVars msg, w⟩ ⟨oldW, newW, old, new, fun _ => 0, newG2Affine ⟨0, 0⟩⟩ ↔
      w = ∑ i, open Classical in if old i = ⟨fun _ => 0, fun _ => 0⟩ then oldW i else 0 := by
  classical
  constructor
  · intro h
    exact (c20_trusted_weight h).trans (Finset.sum_congr rfl fun i _ => if_congr ((empty_slot _ _).symm) rfl rfl)
  · intro hw
    obtain ⟨apk, e, -, ha⟩ := c19_compiled_nobody hf newW 1
    have hY : apk.Y ≠ 0 := by rw [(Prod.mk.inj e).2]; norm_num
    exact c82_rotation hf (fun _ => 0) oldW newW (fun _ => Or.inl rfl) ha hY msg M c c' w hc hc'
      (hw.trans (Finset.sum_congr rfl fun i _ => if_congr (empty_slot _ _) rfl rfl))

end Spark.HonestProps
