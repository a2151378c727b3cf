import Verif.Props.RfcHash
import Verif.Props.RotationExample

/-!
# C101: from message bytes to an accepted witness

The composition of the off-circuit helpers (C68-C71), RFC 9380 (C97) and the circuits: the only assumptions about the
libraries outside the repository are that the off-circuit hash is RFC 9380's and that iden3's Poseidon is Poseidon.
-/

namespace Spark.HelperProps
open Spark Circ Spec Circuit Pairing PairingProps CircuitProps GroupProps Helpers NC HonestProps ExceptionProps
open scoped BigOperators
set_option maxRecDepth 100000

/-- the contract of gnark-crypto's `bls12381.HashToG2(msg, DOMAIN_SEPERATOR)`: RFC 9380 `hash_to_curve` -/
def IsRfcHash (hashG2 : List Fips.Byte → ETwist Fp) : Prop :=
  ∀ msg, Rfc.HashesTo msg (Rfc.ascii Rfc.dstString) (hashG2 msg)

/-- the two field elements of the message have no sign tie (real part 0 of `u` or of the root) and are mapped to different
points -/
def RegularMessage (msg : List Fips.Byte) : Prop :=
  ∃ u0 u1, Rfc.hashToFieldFp2 msg (Rfc.ascii Rfc.dstString) 2 = some [u0, u1] ∧ HashProps.NoSignTie u0 ∧
    HashProps.NoSignTie u1 ∧ ∀ Q, Rfc.MapsTo u0 Q → ¬ Rfc.MapsTo u1 Q

theorem rfcHash_order {msg : List Fips.Byte} {M : ETwist Fp} (h : Rfc.HashesTo msg (Rfc.ascii Rfc.dstString) M) :
    rOrder • M = 0 := by
  obtain ⟨_, _, Q0, Q1, -, -, -, rfl⟩ := h
  rw [← c97_clear_cofactor G2.isPsi_psiHom]
  exact TwistPoints.bp_order _

/-- **C101, the contract determines the hash**: any two implementations agree on every message, and there is one. -/
theorem c101_hash_unique : ∃! hashG2, IsRfcHash hashG2 := by
  have h := fun msg => (c97_spec msg (Rfc.ascii Rfc.dstString) (by decide)).1
  choose f hf hu using h
  exact ⟨f, hf, fun g hg => funext fun m => hu m _ (hg m)⟩

/-- **C101, transactions.**  Keys from secret keys `sk`, weights `w`, bits `b`, any regular 32-byte message with a finite
hash: the witness that the helpers assemble from the bytes of the message is accepted exactly when the Miller value is not
exceptional - by the test engine, and by the compiled circuit where it aggregates the signers' keys exactly (C19). -/
theorem c101_transaction {H : List ℕ → Option ℕ} (hH : IsIden3Hash H) {hashG2 : List Fips.Byte → ETwist Fp}
    (hG : IsRfcHash hashG2) {mode : Mode} (sk w b : Fin 10 → ℕ) (hb : ∀ i, b i < 2) (hw : ∀ i, w i < frOrder)
    (hne : ∀ i, sk i • G1gen ≠ 0) (hg : GeneralPosition (fun i => sk i • G1gen) fun i => b i = 1)
    (hmode : ExactAggregation mode fun i => (b i : Fr)) (hsk : ¬ rOrder ∣ secretSum sk fun i => b i = 1)
    (msg : Vector Fips.Byte 32) (hreg : RegularMessage msg.toList) (hM0 : hashG2 msg.toList ≠ 0) :
    ∃ c sig sw pub priv z,
      genCommitment H ((List.ofFn fun i => sk i • G1gen).map coords) (List.ofFn w) = some c ∧
      signTx (List.ofFn sk) (List.ofFn b) (List.ofFn w) (hashG2 msg.toList) = some (sig, sw) ∧
      verifyPairingCheck (List.ofFn fun i => sk i • G1gen) (List.ofFn b) sig (hashG2 msg.toList) = some () ∧
      txWitness (List.ofFn fun i => sk i • G1gen) (List.ofFn b) (List.ofFn w) sig (hashG2 msg.toList) c sw msg.toList =
        some (pub, priv) ∧
      pub.signedWeight = (∑ i, if b i = 1 then (w i : Fr) else 0) ∧
      millerLoop [enc1 (-G1gen), enc1 (signersSum (fun i => sk i • G1gen) fun i => b i = 1)]
        [enc2 sig, enc2 (hashG2 msg.toList)] = .ok (pure z) ∧
      ((txDefine mode pub priv).run = some () ↔ ¬ Exceptional z) := by
  obtain ⟨u0, u1, hu, t0, t1, hd⟩ := hreg
  obtain ⟨c, hc, -, hcom⟩ := commitment_of hH sk w hw
  have hMr := rfcHash_order (hG msg.toList)
  have hbits : (fun i => ((b i : ℕ) : Fr) = 1) = fun i => b i = 1 := funext fun i => propext (bit_cast (hb i))
  have hbf : ∀ i, ((b i : ℕ) : Fr) = 0 ∨ ((b i : ℕ) : Fr) = 1 := fun i => by
    have : b i = 0 ∨ b i = 1 := by have := hb i; omega
    rcases this with h | h <;> simp [h]
  have hsig := aggregateSignature_eq sk (fun i => b i = 1) (hashG2 msg.toList)
  have hwt : ((∑ i, if b i = 1 then w i else 0 : ℕ) : Fr) = ∑ i, if b i = 1 then (w i : Fr) else 0 := by
    rw [Nat.cast_sum]
    exact Finset.sum_congr rfl fun i _ => by rw [Nat.cast_ite, Nat.cast_zero]
  obtain ⟨z, hz, hrun⟩ := c97_transaction (mode := mode)
    (pub := ⟨newG2Affine (coords2 (hashG2 msg.toList)), (c : Fr), ((∑ i, if b i = 1 then w i else 0 : ℕ) : Fr)⟩)
    (priv := ⟨fun i => newG1Affine (enc1 (sk i • G1gen)),
      newG2Affine (coords2 (aggregateSignature sk (fun i => b i = 1) (hashG2 msg.toList))),
      fun i => (b i : Fr), fun i => (w i : Fr), HashProps.msgVars msg⟩) sk (fun i => c58_denotes _ (hne i)) hbf
    (by rw [hbits]; exact hg) hmode (by rw [hbits]; exact hsk) rfl hu t0 t1 hd (hG _) hM0
    (aggregateSignature sk (fun i => b i = 1) (hashG2 msg.toList)) (by rw [coords2_eq])
    (by rw [hsig]; exact smul_ne_of hMr hM0 hsk) (by rw [hsig]; exact order_nsmul hMr _)
  rw [hbits] at hz hrun
  refine ⟨c, _, _, _, _, z, hc, signTx_eq sk w b hb _, ?_, ?_, hwt, hz, hrun.trans ?_⟩
  · rw [aggregateSignature_eq, show (List.ofFn fun i => sk i • G1gen) = (List.ofFn sk).map fun s => s • G1gen by
      rw [List.map_ofFn]; rfl]
    exact (c70_verify _ _ _ _ (order_nsmul hMr _) hMr).2 ⟨by simp, by rw [secretSum_eq _ _ hb]⟩
  · rw [txWitness, keyVariables_ofFn, variables_ofFn, variables_ofFn, byteVariables_vec]
    rfl
  · refine ⟨fun h => h.2.2.2, fun h => ⟨?_, hcom, rfl, h⟩⟩
    refine hwt.trans (Finset.sum_congr rfl fun i _ => ?_)
    simp only [bit_cast (hb i)]

/-- **C101, rotations.**  The witness assembled from an old key set and the result of `generateNew` is accepted exactly
when the Miller value is not exceptional, under the conditions of C71 on the keys, for a regular 32-byte commitment with a
finite hash, in both modes as for transactions. -/
theorem c101_rotation {H : List ℕ → Option ℕ} (hH : IsIden3Hash H) {hashG2 : List Fips.Byte → ETwist Fp}
    (hG : IsRfcHash hashG2) {mode : Mode}
    (sk w b : Fin 10 → ℕ) (hb : ∀ i, b i < 2) (hw : ∀ i, w i < 2 ^ 59) (hne : ∀ i, sk i • G1gen ≠ 0) (oldC : ℕ)
    (hold : genCommitment H ((List.ofFn fun i => sk i • G1gen).map coords) (List.ofFn w) = some oldC)
    (draws rest : List ℕ) (out : NewSet)
    (h : generateNew H hashG2 (List.ofFn sk) (List.ofFn fun i => sk i • G1gen) (List.ofFn w) (List.ofFn b) draws =
      some (out, rest)) (K : Fin 10 → E1 Fp) (bits weights : Fin 10 → ℕ) (hK : out.publicKeys = List.ofFn K)
    (hbits : out.bitlist = List.ofFn bits) (hweights : out.weights = List.ofFn weights) (hK0 : ∀ i, K i ≠ 0)
    (hfresh : ∀ i j, (enc1 (K i)).X = (enc1 (sk j • G1gen)).X → K i = sk i • G1gen ∧ weights i = w i)
    (hg : GeneralPosition K fun i => bits i = 1) (hs : signersSum K (fun i => bits i = 1) ≠ 0)
    (hmode : ExactAggregation mode fun i => (bits i : Fr)) (hlong : 2 ^ 248 ≤ out.commitment)
    (hreg : RegularMessage (bigBytes out.commitment)) (hM0 : out.msg ≠ 0) (M : G2In) :
    ∃ pub priv z, rotateWitness (List.ofFn fun i => sk i • G1gen) out.publicKeys out.bitlist (List.ofFn w) out.weights
        out.signature oldC out.commitment out.trustedWeight M = some (pub, priv) ∧
      millerLoop [enc1 (-G1gen), enc1 (signersSum K fun i => bits i = 1)] [enc2 out.signature, enc2 out.msg] =
        .ok (pure z) ∧
      ((rotateDefine mode pub priv).run = some () ↔ ¬ Exceptional z) := by
  classical
  obtain ⟨u0, u1, hu, t0, t1, hd⟩ := hreg
  have hwf : ∀ i, w i < frOrder := fun i => (hw i).trans (by decide +kernel)
  obtain ⟨R, sk', w', b', -, hrep, e1, e2, e3, hlt, hcom', e4, e5, e6⟩ :=
    c69_generate_new hH hashG2 sk w b hb hwf draws rest out h
  obtain rfl : K = fun i => sk' i • G1gen := List.ofFn_injective (hK.symm.trans e1)
  obtain rfl : bits = b' := List.ofFn_injective (hbits.symm.trans e3)
  obtain rfl : weights = w' := List.ofFn_injective (hweights.symm.trans e2)
  obtain ⟨bytes, hbytes⟩ : ∃ v : Vector Fips.Byte 32, bigBytes out.commitment = v.toList :=
    ⟨⟨(bigBytes out.commitment).toArray, by simpa using (c72_bytes _ hlt).2.2.2 hlong⟩, by simp⟩
  rw [hbytes] at hu e4
  have hMr : rOrder • out.msg = 0 := by rw [e4]; exact rfcHash_order (hG _)
  have hb' : ∀ i, bits i < 2 := fun i => by
    by_cases hi : i ∈ R
    · exact (hrep.fresh i hi).2.2
    · rw [(hrep.same i hi).2.2]; exact hb i
  obtain ⟨c, hc, -, hcom⟩ := commitment_of hH sk w hwf
  obtain rfl : c = oldC := Option.some.inj (hc.symm.trans hold)
  have hbits' : (fun i => ((bits i : ℕ) : Fr) = 1) = fun i => bits i = 1 :=
    funext fun i => propext (bit_cast (hb' i))
  have hbf : ∀ i, ((bits i : ℕ) : Fr) = 0 ∨ ((bits i : ℕ) : Fr) = 1 := fun i => by
    have : bits i = 0 ∨ bits i = 1 := by have := hb' i; omega
    rcases this with h | h <;> simp [h]
  have htw := c69_trusted_weight hb' hw hne hfresh
  rw [← e6] at htw
  have hk : ∀ i, Denotes (newG1Affine (enc1 (sk' i • G1gen))) (sk' i • G1gen) := fun i => c58_denotes _ (hK0 i)
  have hss := signersSum_secret sk' fun i => bits i = 1
  have hn : ¬ rOrder ∣ secretSum sk' fun i => bits i = 1 := fun ⟨k, e⟩ => hs (by
    rw [hss, e, mul_comm, mul_nsmul', Witness.G1gen_order, nsmul_zero])
  have hsig := aggregateSignature_eq sk' (fun i => bits i = 1) out.msg
  rw [← e5] at hsig
  obtain ⟨z, hz, hrun⟩ := c97_rotation (mode := mode)
    (pub := ⟨M, (c : Fr), (out.commitment : Fr), HashProps.msgVars bytes, ((out.trustedWeight.toInt : ℤ) : Fr)⟩)
    (priv := ⟨fun i => (w i : Fr), fun i => (weights i : Fr), fun i => newG1Affine (enc1 (sk i • G1gen)),
      fun i => newG1Affine (enc1 (sk' i • G1gen)), fun i => (bits i : Fr), newG2Affine (enc2 out.signature)⟩) sk' hk hbf
    (by rw [hbits']; exact hg) hmode (by rw [hbits']; exact hn) rfl hu t0 t1 hd (by rw [e4]; exact hG _) hM0
    out.signature rfl (by rw [hsig]; exact smul_ne_of hMr hM0 hn) (by rw [hsig]; exact order_nsmul hMr _)
  rw [hbits'] at hz hrun
  refine ⟨_, _, z, ?_, hz, hrun.trans ⟨fun h => h.2.2.2.2, fun h => ⟨?_, hcom, hcom', e5, h⟩⟩⟩
  · rw [rotateWitness, e1, e2, e3, keyVariables_ofFn, keyVariables_ofFn, variables_ofFn, variables_ofFn, variables_ofFn,
      hbytes, byteVariables_vec, coords2_eq]
    rfl
  · exact htw.trans (Finset.sum_congr rfl fun i _ => by congr)

/-! ## concrete messages -/

/-- a checked computation of the hash shows that the message is regular and what every implementation of the RFC returns -/
theorem regular_of {msg : Vector Fips.Byte 32} {u0 y0 u1 y1 : N2} {R : NPt} (hc : G2.nHash u0 y0 u1 y1 = some R)
    (hu : Rfc.hashToFieldFp2 msg.toList (Rfc.ascii Rfc.dstString) 2 = some [e2 u0, e2 u1])
    (h0 : u0.1 % fpOrder ≠ 0) (h1 : u1.1 % fpOrder ≠ 0) : RegularMessage msg.toList ∧
      ∀ H, Rfc.HashesTo msg.toList (Rfc.ascii Rfc.dstString) H → IsPt H R := by
  obtain ⟨-, -, s0, s1, hQ, -⟩ := G2.nHash_spec hc
  have t0 := G2.noTie_of s0 h0
  have t1 := G2.noTie_of s1 h1
  obtain ⟨Q0, Q1, c0, c1, -⟩ := (HashProps.c92_hash (msg := msg) G2.isPsi_psiHom hu).2
    (fun e => t0.1 (by rw [e]; rfl)) (fun e => t1.1 (by rw [e]; rfl))
  have m0 := HashProps.c57_map_rfc t0 c0
  have m1 := HashProps.c57_map_rfc t1 c1
  obtain ⟨n, -, -, hp⟩ := hQ Q0 Q1 c0 c1
  refine ⟨⟨_, _, hu, t0, t1, fun Q g0 g1 => n ((mapsTo_unique m0 g0).trans (mapsTo_unique m1 g1).symm)⟩, ?_⟩
  rintro H ⟨u0', u1', Q0', Q1', hu', m0', m1', rfl⟩
  rw [hu] at hu'
  obtain ⟨rfl, hu2⟩ := List.cons.inj (Option.some.inj hu')
  obtain ⟨rfl, -⟩ := List.cons.inj hu2
  rw [← mapsTo_unique m0 m0', ← mapsTo_unique m1 m1', ← c97_clear_cofactor G2.isPsi_psiHom]
  exact hp

theorem rot_regular : RegularMessage rotMsg.toList :=
  (regular_of (msg := rotMsg) Rot.hash_check Rot.hash_to_field_check (by decide +kernel) (by decide +kernel)).1

theorem rot_rfc {hashG2 : List Fips.Byte → ETwist Fp} (hG : IsRfcHash hashG2) : hashG2 rotMsg.toList = Rot.Hpt :=
  Pt.ext ((regular_of (msg := rotMsg) Rot.hash_check Rot.hash_to_field_check (by decide +kernel) (by decide +kernel)).2 _
    (hG _)) Rot.H_pt

theorem ex_regular : RegularMessage G2.exMsg.toList :=
  (regular_of (msg := G2.exMsg) Witness.hash_check G2.ex_hash_to_field (by decide +kernel) (by decide +kernel)).1

theorem ex_rfc {hashG2 : List Fips.Byte → ETwist Fp} (hG : IsRfcHash hashG2) : hashG2 G2.exMsg.toList = Witness.Hpt :=
  Pt.ext ((regular_of (msg := G2.exMsg) Witness.hash_check G2.ex_hash_to_field (by decide +kernel) (by decide +kernel)).2 _
    (hG _)) Witness.H_pt

/-- **C101 on a concrete transaction**: secret keys `1, 2, 4, …, 512`, weights 100, everybody signs the message
`00 01 … 1f`; the assembled witness is accepted in both modes. -/
theorem c101_transaction_example {H : List ℕ → Option ℕ} (hH : IsIden3Hash H) {hashG2 : List Fips.Byte → ETwist Fp}
    (hG : IsRfcHash hashG2) {mode : Mode} : ∃ c sig sw pub priv,
      genCommitment H ((List.ofFn fun i => rotSk i • G1gen).map coords) (List.ofFn fun _ : Fin 10 => 100) = some c ∧
      signTx (List.ofFn rotSk) (List.ofFn fun _ : Fin 10 => 1) (List.ofFn fun _ : Fin 10 => 100) (hashG2 G2.exMsg.toList) =
        some (sig, sw) ∧
      txWitness (List.ofFn fun i => rotSk i • G1gen) (List.ofFn fun _ : Fin 10 => 1) (List.ofFn fun _ : Fin 10 => 100) sig
        (hashG2 G2.exMsg.toList) c sw G2.exMsg.toList = some (pub, priv) ∧
      pub.signedWeight = 1000 ∧ (txDefine mode pub priv).run = some () := by
  have hsec : secretSum rotSk (fun _ => 1 = 1) = 1023 := by
    rw [secretSum]; simp only [if_true]; decide
  obtain ⟨c, sig, sw, pub, priv, z, h1, h2, -, h3, h4, hz, h5⟩ := c101_transaction hH hG (mode := mode) rotSk (fun _ => 100)
    (fun _ => 1) (fun _ => by norm_num) (fun _ => by decide +kernel) Witness.key_ne (Witness.key_general _)
    (Or.inr ⟨by simp [EvenGaps], by simp [absentees]⟩) (by rw [hsec]; decide +kernel) G2.exMsg ex_regular
    (by rw [ex_rfc hG]; exact Witness.H_ne)
  refine ⟨c, sig, sw, pub, priv, h1, h2, h3, ?_, h5.2 fun hx => ?_⟩
  · rw [h4]; simp; norm_num
  · have hsig : sig = exSig := by
      have e := (Prod.mk.inj (Option.some.inj (h2.symm.trans (signTx_eq rotSk _ _ (fun _ => by norm_num) _)))).1
      rw [e, ex_rfc hG, aggregateSignature_eq, hsec, exSig]
    rw [hsig, ex_rfc hG, show signersSum (fun i => rotSk i • G1gen) (fun _ => 1 = 1) = ∑ i, Witness.key i by
      simp [signersSum, rotSk, Witness.key]] at hz
    exact ex_z hz ((exceptional_easy z).1 hx)

/-- **C101 on a concrete rotation**: from the random numbers to the accepted witness, for every implementation of iden3's
Poseidon and of RFC 9380. -/
theorem c101_rotation_example {H : List ℕ → Option ℕ} (hH : IsIden3Hash H) {hashG2 : List Fips.Byte → ETwist Fp}
    (hG : IsRfcHash hashG2) (M : G2In) : ∃ oldC out pub priv,
      genCommitment H ((List.ofFn fun i => rotSk i • G1gen).map coords) (List.ofFn fun _ : Fin 10 => 100) = some oldC ∧
      generateNew H hashG2 (List.ofFn rotSk) (List.ofFn fun i => rotSk i • G1gen) (List.ofFn fun _ : Fin 10 => 100)
        (List.ofFn rotBits) [1, 3, 1024, 7, 1] = some (out, []) ∧
      out.trustedWeight = 800 ∧
      rotateWitness (List.ofFn fun i => rotSk i • G1gen) out.publicKeys out.bitlist (List.ofFn fun _ : Fin 10 => 100)
        out.weights out.signature oldC out.commitment out.trustedWeight M = some (pub, priv) ∧
      (rotateDefine .engine pub priv).run = some () :=
  c71_rotation_example hH hashG2 (rot_rfc hG) M

end Spark.HelperProps
