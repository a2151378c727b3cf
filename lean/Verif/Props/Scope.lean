import Verif.Props.Accountability

/-!
# C110: what a signature is bound to

An aggregate signature is bound to the message by its hash, and to the validators by the sum of their keys; to nothing else.  In
particular it does not name the validator set: a signature made before a rotation is accepted after it, with the new weights, if
the signers kept their keys.
-/

namespace Spark.HistoryProps
open Spark Circ Spec Circuit Pairing PairingProps CircuitProps GroupProps HonestProps ExceptionProps HelperProps HashProps
open scoped BigOperators
set_option maxRecDepth 100000

/-- `b'` of `W` can sign; the transaction carries some point `S` of order `r` -/
theorem tx_point {mode : Mode} {W : Validators} {b' : Fin 10 → Bool} {msg : Vector Fips.Byte 32} {H : ETwist Fp}
    (h : W.CanSign mode b' msg H) {S : ETwist Fp} (hS : S ≠ 0) (hSr : rOrder • S = 0) (M : G2In) {c : Fr}
    (hc : W.set.CommitsTo c) (w : Fr) :
    (txDefine mode ⟨M, c, w⟩ ⟨W.keys, newG2Affine (enc2 S), fun i => bit (b' i), W.weights, msgVars msg⟩).run = some () ↔
      w = (∑ i, if b' i then W.weights i else 0) ∧ S = aggregateSignature W.sk (fun i => bit (b' i) = 1) H := by
  obtain ⟨u0, u1, hu, t0, t1, hne⟩ := h.regular
  obtain ⟨z, hz, hrun⟩ := c97_transaction (mode := mode) (pub := ⟨M, c, w⟩)
    (priv := ⟨W.keys, newG2Affine (enc2 S), fun i => bit (b' i), W.weights, msgVars msg⟩) W.sk (W.denotes h.keys)
    (fun i => bit_cases (b' i)) h.general h.exact h.secret rfl hu t0 t1 hne h.hash h.finite _ rfl hS hSr
  rw [hrun, sum_bits]
  refine ⟨fun ⟨a1, _, a3, _⟩ => ⟨a1, a3⟩, fun ⟨a1, a2⟩ => ⟨a1, hc, a2, h.miller z ?_⟩⟩
  rw [← a2]; exact hz

/-- the same for rotations from `V` to `W` -/
theorem rotate_point {mode : Mode} {V W : Validators} {b' : Fin 10 → Bool} {msg : Vector Fips.Byte 32} {H : ETwist Fp}
    (h : W.CanSign mode b' msg H) {S : ETwist Fp} (hS : S ≠ 0) (hSr : rOrder • S = 0) (M : G2In) {c c' : Fr}
    (hV : ∀ i, V.sk i • G1gen ≠ 0) (hc : V.set.CommitsTo c) (hc' : W.set.CommitsTo c') (w : Fr) :
    (rotateDefine mode ⟨M, c, c', msgVars msg, w⟩
        ⟨V.weights, W.weights, V.keys, W.keys, fun i => bit (b' i), newG2Affine (enc2 S)⟩).run = some () ↔
      w = (∑ i, open Classical in if b' i ∧ W.sk i • G1gen = V.sk i • G1gen then V.weights i else 0) ∧
      S = aggregateSignature W.sk (fun i => bit (b' i) = 1) H := by
  obtain ⟨u0, u1, hu, t0, t1, hne⟩ := h.regular
  obtain ⟨z, hz, hrun⟩ := c97_rotation (mode := mode) (pub := ⟨M, c, c', msgVars msg, w⟩)
    (priv := ⟨V.weights, W.weights, V.keys, W.keys, fun i => bit (b' i), newG2Affine (enc2 S)⟩) W.sk (W.denotes h.keys)
    (fun i => bit_cases (b' i)) h.general h.exact h.secret rfl hu t0 t1 hne h.hash h.finite _ rfl hS hSr
  rw [hrun, sum_trusted hV b']
  refine ⟨fun ⟨a1, _, _, a3, _⟩ => ⟨a1, a3⟩, fun ⟨a1, a2⟩ => ⟨a1, hc, hc', a2, h.miller z ?_⟩⟩
  rw [← a2]; exact hz

theorem smul_cancel {a : ℕ} (ha : ¬ rOrder ∣ a) {H H' : ETwist Fp} (hr : rOrder • H = 0) (hr' : rOrder • H' = 0) :
    a • H = a • H' ↔ H = H' := by
  refine ⟨fun e => ?_, fun e => e ▸ rfl⟩
  by_contra hn
  refine smul_ne_of (H := H - H') ?_ (sub_ne_zero.2 hn) ha ?_
  · rw [nsmul_sub, hr, hr', sub_zero]
  · rw [nsmul_sub, e, sub_self]

/-- **C110, messages.** The validators in `b` have signed `msg`; their signature is presented for `msg'`. -/
theorem c110_message {mode : Mode} {V : Validators} {b : Fin 10 → Bool} {msg msg' : Vector Fips.Byte 32} {H H' : ETwist Fp}
    (hH : Rfc.HashesTo msg.toList (Rfc.ascii Rfc.dstString) H) (h0 : H ≠ 0) (h : V.CanSign mode b msg' H') (M : G2In) {c : Fr}
    (hc : V.set.CommitsTo c) (w : Fr) :
    (txDefine mode ⟨M, c, w⟩ ⟨V.keys, V.sign b H, fun i => bit (b i), V.weights, msgVars msg'⟩).run = some () ↔
      w = (∑ i, if b i then V.weights i else 0) ∧ H = H' := by
  have hr := rfcHash_order hH
  refine (tx_point h (S := aggregateSignature V.sk (fun i => bit (b i) = 1) H) ?_ ?_ M hc w).trans ?_
  · rw [aggregateSignature_eq]; exact smul_ne_of hr h0 h.secret
  · rw [aggregateSignature_eq]; exact order_nsmul hr _
  · rw [aggregateSignature_eq, aggregateSignature_eq, smul_cancel h.secret hr (rfcHash_order h.hash)]

/-- The same for rotations to `V`. -/
theorem c110_message_rotation {mode : Mode} {U V : Validators} {b : Fin 10 → Bool} {msg msg' : Vector Fips.Byte 32}
    {H H' : ETwist Fp} (hH : Rfc.HashesTo msg.toList (Rfc.ascii Rfc.dstString) H) (h0 : H ≠ 0) (h : V.CanSign mode b msg' H')
    (M : G2In) {c c' : Fr} (hU : ∀ i, U.sk i • G1gen ≠ 0) (hc : U.set.CommitsTo c) (hc' : V.set.CommitsTo c') (w : Fr) :
    (rotateDefine mode ⟨M, c, c', msgVars msg', w⟩
        ⟨U.weights, V.weights, U.keys, V.keys, fun i => bit (b i), V.sign b H⟩).run = some () ↔
      w = (∑ i, open Classical in if b i ∧ V.sk i • G1gen = U.sk i • G1gen then U.weights i else 0) ∧ H = H' := by
  have hr := rfcHash_order hH
  refine (rotate_point h (S := aggregateSignature V.sk (fun i => bit (b i) = 1) H) ?_ ?_ M hU hc hc' w).trans ?_
  · rw [aggregateSignature_eq]; exact smul_ne_of hr h0 h.secret
  · rw [aggregateSignature_eq]; exact order_nsmul hr _
  · rw [aggregateSignature_eq, aggregateSignature_eq, smul_cancel h.secret hr (rfcHash_order h.hash)]

/-- **C110, validator sets.** Validators of the set `V`, those in `b`, have signed; their signature is presented as one of those in
`b'` of the set `W`. -/
theorem c110_set {mode : Mode} {V W : Validators} {b b' : Fin 10 → Bool} {msg : Vector Fips.Byte 32} {H : ETwist Fp}
    (hs : ¬ rOrder ∣ secretSum V.sk fun i => bit (b i) = 1) (h : W.CanSign mode b' msg H) (M : G2In) {c : Fr}
    (hc : W.set.CommitsTo c) (w : Fr) :
    (txDefine mode ⟨M, c, w⟩ ⟨W.keys, V.sign b H, fun i => bit (b' i), W.weights, msgVars msg⟩).run = some () ↔
      w = (∑ i, if b' i then W.weights i else 0) ∧
      signersSum (fun i => V.sk i • G1gen) (fun i => b i = true) = signersSum (fun i => W.sk i • G1gen) fun i => b' i = true := by
  have hp := Fact.mk rOrder_prime
  have hr := rfcHash_order h.hash
  have o1 : addOrderOf H = rOrder := addOrderOf_eq_prime hr h.finite
  have o2 : addOrderOf G1gen = rOrder := addOrderOf_eq_prime Witness.G1gen_order G1gen_ne
  refine (tx_point h (S := aggregateSignature V.sk (fun i => bit (b i) = 1) H) ?_ ?_ M hc w).trans ?_
  · rw [aggregateSignature_eq]; exact smul_ne_of hr h.finite hs
  · rw [aggregateSignature_eq]; exact order_nsmul hr _
  · simp only [bits_eq]
    rw [aggregateSignature_eq, aggregateSignature_eq, signersSum_secret, signersSum_secret, nsmul_eq_nsmul_iff_modEq,
      nsmul_eq_nsmul_iff_modEq, o1, o2]

/-- The same for rotations: validators of the set `U`, those in `b`, have signed; their signature is presented as one of those in
`b'` of `W`, in a rotation from `V` to `W`. -/
theorem c110_set_rotation {mode : Mode} {U V W : Validators} {b b' : Fin 10 → Bool} {msg : Vector Fips.Byte 32} {H : ETwist Fp}
    (hs : ¬ rOrder ∣ secretSum U.sk fun i => bit (b i) = 1) (h : W.CanSign mode b' msg H) (M : G2In) {c c' : Fr}
    (hV : ∀ i, V.sk i • G1gen ≠ 0) (hc : V.set.CommitsTo c) (hc' : W.set.CommitsTo c') (w : Fr) :
    (rotateDefine mode ⟨M, c, c', msgVars msg, w⟩
        ⟨V.weights, W.weights, V.keys, W.keys, fun i => bit (b' i), U.sign b H⟩).run = some () ↔
      w = (∑ i, open Classical in if b' i ∧ W.sk i • G1gen = V.sk i • G1gen then V.weights i else 0) ∧
      signersSum (fun i => U.sk i • G1gen) (fun i => b i = true) = signersSum (fun i => W.sk i • G1gen) fun i => b' i = true := by
  have hp := Fact.mk rOrder_prime
  have hr := rfcHash_order h.hash
  have o1 : addOrderOf H = rOrder := addOrderOf_eq_prime hr h.finite
  have o2 : addOrderOf G1gen = rOrder := addOrderOf_eq_prime Witness.G1gen_order G1gen_ne
  refine (rotate_point h (S := aggregateSignature U.sk (fun i => bit (b i) = 1) H) ?_ ?_ M hV hc hc' w).trans ?_
  · rw [aggregateSignature_eq]; exact smul_ne_of hr h.finite hs
  · rw [aggregateSignature_eq]; exact order_nsmul hr _
  · simp only [bits_eq]
    rw [aggregateSignature_eq, aggregateSignature_eq, signersSum_secret, signersSum_secret, nsmul_eq_nsmul_iff_modEq,
      nsmul_eq_nsmul_iff_modEq, o1, o2]

/-- what the signers can do in one set they can do in every other set in which they have the same places -/
theorem kept_can {mode : Mode} {V W : Validators} {b : Fin 10 → Bool} {msg : Vector Fips.Byte 32} {H : ETwist Fp}
    (h : V.CanSign mode b msg H) (hW : ∀ i, W.sk i • G1gen ≠ 0) (hk : ∀ i, b i = true → W.sk i = V.sk i) :
    W.CanSign mode b msg H := by
  have hk' : ∀ i, bit (b i) = 1 → W.sk i = V.sk i := fun i hi => hk i ((bits_eq b i).1 hi)
  have e1 : ∀ A : Fin 10 → Prop, (∀ i, A i → bit (b i) = 1) →
      signersSum (fun i => W.sk i • G1gen) A = signersSum (fun i => V.sk i • G1gen) A := fun A hA =>
    HonestProps.signersSum_congr fun i hi => by rw [hk' i (hA i hi)]
  have e2 : secretSum W.sk (fun i => bit (b i) = 1) = secretSum V.sk fun i => bit (b i) = 1 := by
    unfold secretSum
    refine Finset.sum_congr rfl fun i _ => ?_
    by_cases hi : bit (b i) = 1
    · rw [if_pos hi, if_pos hi, hk' i hi]
    · rw [if_neg hi, if_neg hi]
  refine ⟨hW, fun i hi hj => ?_, h.exact, by rw [e2]; exact h.secret, h.regular, h.hash, h.finite, fun z hz => h.miller z ?_⟩
  · have := h.general i hi hj
    rw [e1 _ fun j hj => hj.2]
    dsimp only
    rw [hk' i hi]
    exact this
  · rw [e1 _ fun _ h => h, aggregateSignature_eq, e2, ← aggregateSignature_eq] at hz
    exact hz

/-- **C110, rotations do not invalidate signatures.** If the signers have the same keys at the same places in another set `W` (the
others may have changed, and all weights), their signature is accepted for `W`, exactly with their weight in `W`. -/
theorem c110_kept {mode : Mode} {V W : Validators} {b : Fin 10 → Bool} {msg : Vector Fips.Byte 32} {H : ETwist Fp}
    (h : V.CanSign mode b msg H) (hW : ∀ i, W.sk i • G1gen ≠ 0) (hk : ∀ i, b i = true → W.sk i = V.sk i) (M : G2In) {c : Fr}
    (hc : W.set.CommitsTo c) (w : Fr) :
    (txDefine mode ⟨M, c, w⟩ ⟨W.keys, V.sign b H, fun i => bit (b i), W.weights, msgVars msg⟩).run = some () ↔
      w = ∑ i, if b i then W.weights i else 0 := by
  rw [c110_set h.secret (kept_can h hW hk) M hc w, and_iff_left]
  exact HonestProps.signersSum_congr fun i hi => by rw [hk i hi]

/-- The same for rotations: the signature for the set `U` also serves a rotation from any `V` to `W`, exactly with the old weight of
the signers `V` and `W` have in common. -/
theorem c110_kept_rotation {mode : Mode} {U V W : Validators} {b : Fin 10 → Bool} {msg : Vector Fips.Byte 32} {H : ETwist Fp}
    (h : U.CanSign mode b msg H) (hW : ∀ i, W.sk i • G1gen ≠ 0) (hk : ∀ i, b i = true → W.sk i = U.sk i) (M : G2In) {c c' : Fr}
    (hV : ∀ i, V.sk i • G1gen ≠ 0) (hc : V.set.CommitsTo c) (hc' : W.set.CommitsTo c') (w : Fr) :
    (rotateDefine mode ⟨M, c, c', msgVars msg, w⟩
        ⟨V.weights, W.weights, V.keys, W.keys, fun i => bit (b i), U.sign b H⟩).run = some () ↔
      w = ∑ i, open Classical in if b i ∧ W.sk i • G1gen = V.sk i • G1gen then V.weights i else 0 := by
  rw [c110_set_rotation h.secret (kept_can h hW hk) M hV hc hc' w, and_iff_left]
  exact HonestProps.signersSum_congr fun i hi => by rw [hk i hi]

end Spark.HistoryProps
