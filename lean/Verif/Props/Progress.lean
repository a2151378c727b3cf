import Verif.Props.EndToEnd
import Verif.Props.History

/-!
# C104: honest histories are accepted

The liveness counterpart of C83.  Ten validators hold secret keys; step after step some of them sign a message or hand over
to a new set, and the circuits get exactly what those validators publish.  Every such history is accepted by the verifier that
keeps only commitments, and the ideal verifier agrees with it.
-/

namespace Spark.HistoryProps
open Spark Circ Spec Circuit Pairing PairingProps CircuitProps GroupProps HonestProps ExceptionProps HelperProps HashProps
open scoped BigOperators
set_option maxRecDepth 100000

/-- ten validators: secret keys and weights -/
structure Validators where
  sk : Fin 10 → ℕ
  weights : Fin 10 → Fr

/-- the public keys as the circuits get them -/
noncomputable def Validators.keys (V : Validators) (i : Fin 10) : G1In := newG1Affine (enc1 (V.sk i • G1gen))

/-- what the verifier may know of them -/
noncomputable def Validators.set (V : Validators) : ValidatorSet := ⟨V.keys, V.weights⟩

/-- the aggregate signature of the validators marked in `b` on the RFC 9380 hash `H` -/
noncomputable def Validators.sign (V : Validators) (b : Fin 10 → Bool) (H : ETwist Fp) : G2In :=
  newG2Affine (enc2 (aggregateSignature V.sk (fun i => bit (b i) = 1) H))

/-- `H` is the RFC 9380 hash of `msg`, and the validators marked in `b` can sign it without meeting one of the exceptions of
C101: keys in general position, an aggregation the mode computes exactly, a regular message with a finite hash, and a Miller
value that is not exceptional. -/
structure Validators.CanSign (mode : Mode) (V : Validators) (b : Fin 10 → Bool) (msg : Vector Fips.Byte 32)
    (H : ETwist Fp) : Prop where
  keys : ∀ i, V.sk i • G1gen ≠ 0
  general : GeneralPosition (fun i => V.sk i • G1gen) fun i => bit (b i) = 1
  exact : ExactAggregation mode fun i => bit (b i)
  secret : ¬ rOrder ∣ secretSum V.sk fun i => bit (b i) = 1
  regular : RegularMessage msg.toList
  hash : Rfc.HashesTo msg.toList (Rfc.ascii Rfc.dstString) H
  finite : H ≠ 0
  miller : ∀ z, millerLoop [enc1 (-G1gen), enc1 (signersSum (fun i => V.sk i • G1gen) fun i => bit (b i) = 1)]
    [enc2 (aggregateSignature V.sk (fun i => bit (b i) = 1) H), enc2 H] = .ok (pure z) → ¬ Exceptional z

/-- **Honest histories.** Starting from the validators `V`, the events `es` are what honest parties produce, and `V'` are the
validators at the end. In a transaction some of the current validators sign 32 bytes; in a rotation some of the next ones
sign the 32 bytes that stand for their commitment.  The first public input `M` is not looked at by the circuits. -/
inductive Performs (mode : Mode) : Validators → List Event → Validators → Prop
  | nil (V : Validators) : Performs mode V [] V
  | transaction {V V' : Validators} {es : List Event} {b : Fin 10 → Bool} {msg : Vector Fips.Byte 32} {H : ETwist Fp}
      (M : G2In) {c w : Fr} : V.CanSign mode b msg H → V.set.CommitsTo c →
      w = (∑ i, if b i then V.weights i else 0) → Performs mode V es V' →
      Performs mode V (.transaction ⟨M, c, w⟩ ⟨V.keys, V.sign b H, fun i => bit (b i), V.weights, msgVars msg⟩ :: es) V'
  | rotation {V N V' : Validators} {es : List Event} {b : Fin 10 → Bool} {msg : Vector Fips.Byte 32} {H : ETwist Fp}
      (M : G2In) {c c' w : Fr} : N.CanSign mode b msg H → V.set.CommitsTo c → N.set.CommitsTo c' →
      w = (∑ i, open Classical in if b i ∧ N.sk i • G1gen = V.sk i • G1gen then V.weights i else 0) →
      (∀ i, V.sk i • G1gen ≠ 0) → Performs mode N es V' →
      Performs mode V (.rotation ⟨M, c, c', msgVars msg, w⟩
        ⟨V.weights, N.weights, V.keys, N.keys, fun i => bit (b i), N.sign b H⟩ :: es) V'

/-- the honest prover succeeds -/
def Event.Proved (mode : Mode) : Event → Prop
  | .transaction pub priv => (txDefine mode pub priv).run = some ()
  | .rotation pub priv => (rotateDefine mode pub priv).run = some ()

theorem Validators.denotes {V : Validators} (h : ∀ i, V.sk i • G1gen ≠ 0) (i : Fin 10) :
    Denotes (V.keys i) (V.sk i • G1gen) := c58_denotes _ (h i)

theorem bit_cases (b : Bool) : (bit b : Fr) = 0 ∨ (bit b : Fr) = 1 := by cases b <;> simp

theorem sum_bits (b : Fin 10 → Bool) (w : Fin 10 → Fr) :
    (∑ i, if b i then w i else 0) = ∑ i, if bit (b i) = 1 then w i else 0 :=
  Finset.sum_congr rfl fun i _ => by simp only [bits_eq]

/-- the trusted weight of honest validators, in the words of the ideal verifier -/
theorem sum_trusted {V N : Validators} (hV : ∀ i, V.sk i • G1gen ≠ 0) (b : Fin 10 → Bool) :
    (∑ i, open Classical in if b i ∧ N.sk i • G1gen = V.sk i • G1gen then V.weights i else 0) =
      ∑ i, open Classical in if (bit (b i) = 1 ∧ N.keys i = V.keys i) ∨
        (bit (b i) = 0 ∧ V.keys i = ⟨fun _ => 0, fun _ => 0⟩) then V.weights i else 0 := by
  classical
  refine Finset.sum_congr rfl fun i _ => ?_
  have h0 : V.keys i ≠ ⟨fun _ => 0, fun _ => 0⟩ := newG1Affine_ne (hV i)
  have : N.keys i = V.keys i ↔ N.sk i • G1gen = V.sk i • G1gen :=
    ⟨fun e => enc1_injective (c58_keys.1 e), fun e => by rw [Validators.keys, Validators.keys, e]⟩
  simp only [bits_eq, this, h0, and_false, or_false]

/-- what the signers publish is the only non-trivial hypothesis of the circuits' theorems -/
theorem CanSign_signature {mode : Mode} {V : Validators} {b : Fin 10 → Bool} {msg : Vector Fips.Byte 32} {H : ETwist Fp}
    (h : V.CanSign mode b msg H) : aggregateSignature V.sk (fun i => bit (b i) = 1) H ≠ 0 ∧
      rOrder • aggregateSignature V.sk (fun i => bit (b i) = 1) H = 0 := by
  have hr := rfcHash_order h.hash
  rw [aggregateSignature_eq]
  exact ⟨smul_ne_of hr h.finite h.secret, order_nsmul hr _⟩

theorem transaction_proved {mode : Mode} {V : Validators} {b : Fin 10 → Bool} {msg : Vector Fips.Byte 32} {H : ETwist Fp}
    (M : G2In) {c w : Fr} (h : V.CanSign mode b msg H) (hc : V.set.CommitsTo c)
    (hw : w = ∑ i, if b i then V.weights i else 0) :
    (txDefine mode ⟨M, c, w⟩ ⟨V.keys, V.sign b H, fun i => bit (b i), V.weights, msgVars msg⟩).run = some () := by
  obtain ⟨u0, u1, hu, t0, t1, hne⟩ := h.regular
  obtain ⟨z, hz, hrun⟩ := c97_transaction (mode := mode) (pub := ⟨M, c, w⟩)
    (priv := ⟨V.keys, V.sign b H, fun i => bit (b i), V.weights, msgVars msg⟩) V.sk (V.denotes h.keys)
    (fun i => bit_cases (b i)) h.general h.exact h.secret rfl hu t0 t1 hne h.hash h.finite _ rfl
    (CanSign_signature h).1 (CanSign_signature h).2
  exact hrun.2 ⟨hw.trans (sum_bits b V.weights), hc, rfl, h.miller z hz⟩

theorem rotation_proved {mode : Mode} {V N : Validators} {b : Fin 10 → Bool} {msg : Vector Fips.Byte 32} {H : ETwist Fp}
    (M : G2In) {c c' w : Fr} (h : N.CanSign mode b msg H) (hc : V.set.CommitsTo c) (hc' : N.set.CommitsTo c')
    (hw : w = ∑ i, open Classical in if b i ∧ N.sk i • G1gen = V.sk i • G1gen then V.weights i else 0)
    (hV : ∀ i, V.sk i • G1gen ≠ 0) :
    (rotateDefine mode ⟨M, c, c', msgVars msg, w⟩
      ⟨V.weights, N.weights, V.keys, N.keys, fun i => bit (b i), N.sign b H⟩).run = some () := by
  obtain ⟨u0, u1, hu, t0, t1, hne⟩ := h.regular
  obtain ⟨z, hz, hrun⟩ := c97_rotation (mode := mode) (pub := ⟨M, c, c', msgVars msg, w⟩)
    (priv := ⟨V.weights, N.weights, V.keys, N.keys, fun i => bit (b i), N.sign b H⟩) N.sk (N.denotes h.keys)
    (fun i => bit_cases (b i)) h.general h.exact h.secret rfl hu t0 t1 hne h.hash h.finite _ rfl
    (CanSign_signature h).1 (CanSign_signature h).2
  exact hrun.2 ⟨hw.trans (sum_trusted hV b), hc, hc', rfl, h.miller z hz⟩

/-- **C104.** Every honest history is accepted: the honest prover finds a proof of each event, the verifier which starts with
the commitment of the first validators accepts all of them and ends with the commitment of the last ones, and the ideal
verifier, which knows the sets, agrees with every declared weight. -/
theorem c104_progress {mode : Mode} {V V' : Validators} {es : List Event} (h : Performs mode V es V') {c c' : Fr}
    (hc : V.set.CommitsTo c) (hc' : V'.set.CommitsTo c') :
    (∀ e ∈ es, Event.Proved mode e) ∧ Follows mode c es c' ∧ Ideal V.set es V'.set := by
  induction h generalizing c with
  | nil V => exact ⟨by simp, isCommitment_unique hc hc' ▸ .nil c, .nil _⟩
  | @transaction V V' es b msg H M c₁ w hs h1 hw _ ih =>
    have hp := transaction_proved M hs h1 hw
    obtain ⟨i1, i2, i3⟩ := ih hc hc'
    refine ⟨?_, .transaction ⟨(), Circ.ok _ _ hp⟩ (isCommitment_unique h1 hc) i2, .transaction rfl ?_ i3⟩
    · intro e he
      rcases List.mem_cons.1 he with rfl | he
      · exact hp
      · exact i1 e he
    · exact hw.trans (sum_bits b V.weights)
  | @rotation V N V' es b msg H M c₁ c₂ w hs h1 h2 hw hV _ ih =>
    have hp := rotation_proved M hs h1 h2 hw hV
    obtain ⟨i1, i2, i3⟩ := ih h2 hc'
    refine ⟨?_, .rotation ⟨(), Circ.ok _ _ hp⟩ (isCommitment_unique h1 hc) i2, .rotation rfl ?_ i3⟩
    · intro e he
      rcases List.mem_cons.1 he with rfl | he
      · exact hp
      · exact i1 e he
    · exact hw.trans (sum_trusted hV b)

/-! ## honest histories of every length -/

/-- the validators with secret keys `1, 2, 4, …, 512`, everybody signing -/
def exFirst : Validators := ⟨fun i => 2 ^ i.val, fun _ => 100⟩
/-- a second set, of which validators 1 and 2 will be absent -/
def exSecond : Validators := ⟨skA, fun i => i.val + 1⟩

theorem ex_hashesTo : Rfc.HashesTo G2.exMsg.toList (Rfc.ascii Rfc.dstString) Witness.Hpt := by
  obtain ⟨-, -, H, -, -, -, -, h, -⟩ := c97_example
  have e : H = Witness.Hpt := Pt.ext ((regular_of (msg := G2.exMsg) Witness.hash_check G2.ex_hash_to_field
    (by decide +kernel) (by decide +kernel)).2 _ h) Witness.H_pt
  exact e ▸ h

/-- signers whose secret keys add up to 1023 can sign the example message -/
theorem can_sign {mode : Mode} {V : Validators} {b : Fin 10 → Bool} (hk : ∀ i, V.sk i ≠ 0 ∧ V.sk i < 5000)
    (hg : GeneralPosition (fun i => V.sk i • G1gen) fun i => bit (b i) = 1) (he : ExactAggregation mode fun i => bit (b i))
    (hs : secretSum V.sk (fun i => bit (b i) = 1) = 1023) : V.CanSign mode b G2.exMsg Witness.Hpt where
  keys i := Witness.smul_ne (hk i).1 (lt_of_lt_of_le (hk i).2 Witness.big.le)
  general := hg
  exact := he
  secret := by rw [hs]; decide +kernel
  regular := ex_regular
  hash := ex_hashesTo
  finite := Witness.H_ne
  miller z hm hx := by
    rw [signersSum_secret, aggregateSignature_eq, hs] at hm
    exact ex_z (by rw [Witness.sum_keys]; exact hm) ((exceptional_easy z).1 hx)

theorem exFirst_can {mode : Mode} : exFirst.CanSign mode (fun _ => true) G2.exMsg Witness.Hpt :=
  can_sign (by decide) (Witness.key_general _) (Or.inr ⟨by simp [EvenGaps], by simp [absentees]⟩)
    (by rw [secret_bits]; decide)

theorem exSecond_can {mode : Mode} : exSecond.CanSign mode patA G2.exMsg Witness.Hpt :=
  can_sign (by decide) skA_general (Or.inr ⟨patA_gaps, patA_absent⟩) skA_sum

/-- The two sets take turns: for every `n` there is an honest history of `2 n` transactions and `2 n` rotations. -/
theorem c104_example {mode : Mode} (M : G2In) (n : ℕ) : ∃ es, Performs mode exFirst es exFirst ∧ es.length = 4 * n := by
  induction n with
  | zero => exact ⟨[], .nil _, rfl⟩
  | succ n ih =>
    obtain ⟨es, h, hl⟩ := ih
    refine ⟨_, .transaction M exFirst_can (commit_isCommitment _ _) rfl
      (.rotation M exSecond_can (commit_isCommitment _ _) (commit_isCommitment _ _) rfl (exFirst_can (mode := mode)).keys
        (.transaction M exSecond_can (commit_isCommitment _ _) rfl
          (.rotation M exFirst_can (commit_isCommitment _ _) (commit_isCommitment _ _) rfl
            (exSecond_can (mode := mode)).keys h))), ?_⟩
    simp only [List.length_cons, hl]; omega

end Spark.HistoryProps
