import Verif.Props.Circuit
import Verif.Props.Curve
import Verif.Props.HashG2
import Verif.Props.Expand
import Verif.Props.CircuitExamples
import Verif.Lemmas.PairingGroup

/-!
# C60-C66: what the pairing equation means for the groups of order `r`

The order `r` subgroups of `E(Fp)` and of the twist `E'(Fp2)` are described by the plain condition `r•P = 0`;
`ate` is the textbook ate pairing of `Spec/Pairing.lean`.
-/

namespace Spark.GroupProps
open Spark Circ Spec Circuit Pairing PairingProps CircuitProps TwistPoints CurveProps
open scoped BigOperators
set_option maxRecDepth 100000

/-! ## C60: bilinearity -/

/-- The pairing is additive in the first argument, for all points of `E(Fp)`. -/
theorem c60_add_left (P P' : E1 Fp) (Q : ETwist Fp) (hQ : rOrder • Q = 0) :
    ate (P + P') Q = ate P Q * ate P' Q := ate_add_left P P' (psi_of_order hQ)

/-- The pairing is additive in the second argument, on points of order `r`. -/
theorem c60_add_right (P : E1 Fp) (Q Q' : ETwist Fp) (hQ : rOrder • Q = 0) (hQ' : rOrder • Q' = 0) :
    ate P (Q + Q') = ate P Q * ate P Q' := ate_add_right P (psi_of_order hQ) (psi_of_order hQ')

/-- `e(aP, bQ) = e(P, Q)^(ab)` -/
theorem c60_scalars (P : E1 Fp) (Q : ETwist Fp) (hQ : rOrder • Q = 0) (a b : ℕ) :
    ate (a • P) (b • Q) = ate P Q ^ (a * b) := by
  rw [ate_nsmul_left _ (order_nsmul hQ b), ate_nsmul_right _ hQ, ← pow_mul, mul_comm]

theorem pair_single_sound {P : E1 Fp} {Q : ETwist Fp} (h : GoodPair (P, Q)) {c : Circ (E12 Fp)}
    (hc : pair [enc1 P] [enc2 Q] = .ok c) {x : E12 Fp} (hx : c.sat x) : x = ate P Q ^ 3 := by
  obtain ⟨c', e, hs⟩ := c40_pair_sound [(P, Q)] (by simp) (by simpa using h)
  rw [List.map_cons, List.map_nil, List.map_cons, List.map_nil, hc] at e
  obtain rfl := Except.ok.inj e
  simpa [ateProd] using hs x hx

/-- In the circuit: whatever the prover does, the value of `Pair(aP, bQ)` is the `ab`-th power of the value of
`Pair(P, Q)`. -/
theorem c60_pair (P : E1 Fp) (Q : ETwist Fp) (hP : P ≠ 0) (hQ0 : Q ≠ 0) (hQ : rOrder • Q = 0) (a b : ℕ)
    (ha : a • P ≠ 0) (hb : b • Q ≠ 0) (c c' : Circ (E12 Fp)) (hc : pair [enc1 P] [enc2 Q] = .ok c)
    (hc' : pair [enc1 (a • P)] [enc2 (b • Q)] = .ok c') (x x' : E12 Fp) (hx : c.sat x) (hx' : c'.sat x') :
    x' = x ^ (a * b) := by
  rw [pair_single_sound ⟨hP, hQ0, hQ⟩ hc hx, pair_single_sound ⟨ha, hb, order_nsmul hQ b⟩ hc' hx',
    c60_scalars P Q hQ, ← pow_mul, ← pow_mul, mul_comm]

/-! ## C61: non-degeneracy -/

/-- On points of order `r` the pairing is 1 only if one of the points is zero; its values are `r`-th roots of unity. -/
theorem c61_nondegenerate (P : E1 Fp) (Q : ETwist Fp) (hP : rOrder • P = 0) (hQ : rOrder • Q = 0) :
    (ate P Q = 1 ↔ P = 0 ∨ Q = 0) ∧ ate P Q ^ rOrder = 1 := ⟨ate_eq_one_iff hP hQ, ate_pow_r P Q⟩

theorem cube_ne {z : E12 Fp} (h : z ^ rOrder = 1) (h1 : z ≠ 1) : z ^ 3 ≠ 1 := fun e => by
  have := pow_eq_one_of h1 h e
  exact absurd (Nat.le_of_dvd (by norm_num) this) (by decide +kernel)

/-- The circuit `Pair(P, Q)` of two non-zero points of order `r` has exactly one value, the honest prover finds it,
and it is not 1. -/
theorem c61_pair (P : E1 Fp) (Q : ETwist Fp) (hP0 : P ≠ 0) (hP : rOrder • P = 0) (hQ0 : Q ≠ 0)
    (hQ : rOrder • Q = 0) :
    ∃ x : E12 Fp, pair [enc1 P] [enc2 Q] = .ok (pure x) ∧ x ≠ 1 ∧ x ^ rOrder = 1 := by
  have h1 : ate P Q ≠ 1 := fun e => by
    rcases (ate_eq_one_iff hP hQ).1 e with h | h
    · exact hP0 h
    · exact hQ0 h
  refine ⟨_, c40_single P Q ⟨hP0, hQ0, hQ⟩ h1, cube_ne (ate_pow_r P Q) h1, ?_⟩
  rw [← pow_mul, mul_comm, pow_mul, ate_pow_r, one_pow]

/-- The standard generators are such points. -/
theorem c61_example : ∃ x : E12 Fp, pair [enc1 G1gen] [enc2 G2gen] = .ok (pure x) ∧ x ≠ 1 ∧ x ^ rOrder = 1 :=
  c61_pair _ _ G1gen_ne Witness.G1gen_order G2gen_ne G2gen_order

/-! ## C62: an accepted signature is the signature of the aggregated key -/

/-- The verification equation for the public key `a•g1`, a signature `S` and a hash point `H` of order `r` holds
exactly when `S = a•H`. -/
theorem c62_equation (a : ℕ) (S H : ETwist Fp) (hS : rOrder • S = 0) (hH : rOrder • H = 0) :
    ate (-G1gen) S * ate (a • G1gen) H = 1 ↔ S = a • H := bls_iff a hS hH

/-- Every key of order `r` is `a•g1` for exactly one `a < r`. -/
theorem c62_secret (A : E1 Fp) (hA : rOrder • A = 0) : ∃! a : ℕ, a < rOrder ∧ A = a • G1gen := by
  obtain ⟨a, ha, e⟩ := G1_nsmul hA
  refine ⟨a, ⟨ha, e⟩, fun b hb => ?_⟩
  obtain ⟨hb, e'⟩ := hb
  have key : ∀ x y : ℕ, y < rOrder → x ≤ y → x • G1gen = y • G1gen → x = y := by
    intro x y hy hxy e
    have h1 : (y - x) • G1gen = 0 := by
      have : (y - x) • G1gen + x • G1gen = y • G1gen := by rw [← add_nsmul, Nat.sub_add_cancel hxy]
      rw [← e] at this
      exact add_eq_right.1 this
    have := Witness.smul_gen_eq_zero h1
    have := Nat.eq_zero_of_dvd_of_lt this (by omega)
    omega
  rcases Nat.le_total a b with h | h
  · exact (key a b hb h (e.symm.trans e')).symm
  · exact key b a ha h (e'.symm.trans e)

/-- **PairingCheck verifies BLS signatures**: whatever the prover does, if `PairingCheck([-g1, A], [S, H])` passes for
a key `A = a•g1`, then the signature is `a•H`. -/
theorem c62_check (a : ℕ) (S H : ETwist Fp) (hA : a • G1gen ≠ 0) (hS0 : S ≠ 0) (hS : rOrder • S = 0) (hH0 : H ≠ 0)
    (hH : rOrder • H = 0) (c : Circ Unit)
    (hc : pairingCheck [enc1 (-G1gen), enc1 (a • G1gen)] [enc2 S, enc2 H] = .ok c) (hs : c.Satisfiable) :
    S = a • H := by
  have := c43_sound [(-G1gen, S), (a • G1gen, H)] (by
    intro x hx
    simp only [List.mem_cons, List.not_mem_nil, or_false] at hx
    rcases hx with rfl | rfl
    · exact ⟨neg_gen_good, hS0, hS⟩
    · exact ⟨hA, hH0, hH⟩) c hc hs
  exact (bls_iff a hS hH).1 (by simpa [ateProd] using this)

open Classical in
/-- the sum of the secret keys of the signers -/
noncomputable def secretSum (sk : Fin 10 → ℕ) (signs : Fin 10 → Prop) : ℕ := ∑ i, if signs i then sk i else 0

theorem sum_ite_nsmul {A : Type*} [AddCommGroup A] (sk : Fin 10 → ℕ) (signs : Fin 10 → Prop) [DecidablePred signs]
    (g : A) : (∑ i, if signs i then sk i • g else 0) = (∑ i, if signs i then sk i else 0) • g := by
  rw [Finset.sum_smul]
  refine Finset.sum_congr rfl fun i _ => ?_
  split
  · rfl
  · rw [zero_nsmul]

theorem sum_nsmul' {A : Type*} [AddCommGroup A] (sk : Fin 10 → ℕ) (g : A) :
    ∑ i, sk i • g = (∑ i, sk i) • g := (Finset.sum_smul).symm

theorem smul_ne_of {H : ETwist Fp} (hr : rOrder • H = 0) (h0 : H ≠ 0) {n : ℕ} (hn : ¬ rOrder ∣ n) : n • H ≠ 0 := by
  intro e
  have := Fact.mk rOrder_prime
  have ho := addOrderOf_eq_prime hr h0
  exact hn (ho ▸ addOrderOf_dvd_of_nsmul_eq_zero e)

open Classical in
theorem signersSum_secret (sk : Fin 10 → ℕ) (signs : Fin 10 → Prop) :
    signersSum (fun i => sk i • G1gen) signs = secretSum sk signs • G1gen := by
  rw [signersSum, secretSum]
  exact sum_ite_nsmul sk signs G1gen

variable {mode : Mode}

/-- **Accepted transactions carry the signers' aggregate signature.**  If a transaction is accepted whose aggregated
key is that of the signers with secret keys `sk` (see `C19` for when it is), and whose signature is a point of order
`r`, then that signature is `(∑ sk_i)•H` for a point `H` the prover presented as the hash of the message, provided
`H` is a point of order `r` (the circuit does not enforce it, see `C09`). -/
theorem c62_transaction {pub : TxPublic} {priv : TxPrivate} (h : TxAccepted mode pub priv) (sk : Fin 10 → ℕ)
    (S : ETwist Fp)
    (hA : ∀ apk, (aggregatePublicKeys mode priv.publicKeys priv.bitList priv.weights pub.signedWeight).sat apk →
      ⟨apk.X, apk.Y⟩ = enc1 (signersSum (fun i => sk i • G1gen) fun i => priv.bitList i = 1))
    (hA0 : signersSum (fun i => sk i • G1gen) (fun i => priv.bitList i = 1) ≠ 0)
    (hS : priv.signature.val = enc2 S) (hS0 : S ≠ 0) (hSr : rOrder • S = 0) :
    ∃ hp, (G2.hashToG2 priv.msgBytes).sat hp ∧
      ∀ H : ETwist Fp, hp = enc2 H → H ≠ 0 → rOrder • H = 0 →
        S = secretSum sk (fun i => priv.bitList i = 1) • H := by
  obtain ⟨hp, h1, h2⟩ := c23_pairing_equation h _ S hA hA0 hS hS0 hSr
  refine ⟨hp, h1, fun H e h0 hr => ?_⟩
  have := h2 H e h0 hr
  rw [signersSum_secret] at this
  exact (bls_iff _ hSr hr).1 this

/-- In gnark's test engine: keys `sk_i•g1` in general position. -/
theorem c62_engine {pub : TxPublic} {priv : TxPrivate} (h : TxAccepted .engine pub priv) (sk : Fin 10 → ℕ)
    (hk : ∀ i, Denotes (priv.publicKeys i) (sk i • G1gen))
    (hg : GeneralPosition (fun i => sk i • G1gen) fun i => priv.bitList i = 1)
    (hsk : ¬ rOrder ∣ secretSum sk fun i => priv.bitList i = 1) (S : ETwist Fp)
    (hS : priv.signature.val = enc2 S) (hS0 : S ≠ 0) (hSr : rOrder • S = 0) :
    ∃ hp, (G2.hashToG2 priv.msgBytes).sat hp ∧
      ∀ H : ETwist Fp, hp = enc2 H → H ≠ 0 → rOrder • H = 0 →
        S = secretSum sk (fun i => priv.bitList i = 1) • H := by
  refine c62_transaction h sk S (fun apk ha => ?_) ?_ hS hS0 hSr
  · obtain ⟨apk', e1, e2, -⟩ := c19_engine_partial hk priv.bitList priv.weights (c16_tx_bits h) hg
    rw [c14_signed_weight h, e2, sat_pure] at ha
    rw [← ha] at e1 -- the only aggregated key
    exact e1
  · rw [signersSum_secret]
    exact fun e => hsk (Witness.smul_gen_eq_zero e)

/-- In both modes when all ten validators sign. -/
theorem c62_all_sign {pub : TxPublic} {priv : TxPrivate} (h : TxAccepted mode pub priv) (sk : Fin 10 → ℕ)
    (hk : ∀ i, Denotes (priv.publicKeys i) (sk i • G1gen)) (hb : ∀ i, priv.bitList i = 1)
    (hg : GeneralPosition (fun i => sk i • G1gen) fun _ => True) (hsk : ¬ rOrder ∣ ∑ i, sk i) (S : ETwist Fp)
    (hS : priv.signature.val = enc2 S) (hS0 : S ≠ 0) (hSr : rOrder • S = 0) :
    ∃ hp, (G2.hashToG2 priv.msgBytes).sat hp ∧
      ∀ H : ETwist Fp, hp = enc2 H → H ≠ 0 → rOrder • H = 0 → S = (∑ i, sk i) • H := by
  have hbits : priv.bitList = fun _ => 1 := funext hb
  have hs : secretSum sk (fun i => priv.bitList i = 1) = ∑ i, sk i := by simp [secretSum, hb]
  have := c62_transaction h sk S (fun apk ha => ?_) ?_ hS hS0 hSr
  · rwa [hs] at this
  · obtain ⟨apk', e1, e2, -⟩ := c19_all_sign (mode := mode) hk hg priv.weights
    have hw := c14_signed_weight h
    simp only [hb, if_true] at hw
    rw [hw, hbits, e2, sat_pure] at ha
    rw [← ha] at e1
    rw [e1, signersSum]
    simp [hb]
  · rw [signersSum_secret, hs]
    exact fun e => hsk (Witness.smul_gen_eq_zero e)

/-- Rotations: the signature is the aggregate signature of the signers among the *new* keys. -/
theorem c62_rotation {pub : RotatePublic} {priv : RotatePrivate} (h : RotateAccepted mode pub priv) (sk : Fin 10 → ℕ)
    (S : ETwist Fp)
    (hA : ∀ apk, (aggregatePublicKeysRotate mode priv.newPublicKeys priv.bitList).sat apk →
      ⟨apk.X, apk.Y⟩ = enc1 (signersSum (fun i => sk i • G1gen) fun i => priv.bitList i = 1))
    (hsk : ¬ rOrder ∣ secretSum sk fun i => priv.bitList i = 1)
    (hS : priv.signature.val = enc2 S) (hS0 : S ≠ 0) (hSr : rOrder • S = 0) :
    ∃ hp, (G2.hashToG2 pub.newApkCommitmentBytes).sat hp ∧
      ∀ H : ETwist Fp, hp = enc2 H → H ≠ 0 → rOrder • H = 0 →
        S = secretSum sk (fun i => priv.bitList i = 1) • H := by
  obtain ⟨bs, e, hf, hw, ho, hn, hs, apk, hp, h1, h2, h3⟩ := (rotate_cases mode pub priv).1 h
  refine ⟨hp, h2, fun H hH hH0 hHr => ?_⟩
  have ha := hA apk (by rw [e, aggregateRotate_eq mode bs hf]; exact h1)
  obtain ⟨c, hc1, hc2⟩ := check_ok g1neg ⟨apk.X, apk.Y⟩ priv.signature.val hp
  rw [hc2] at h3
  rw [g1neg_eq, ha, hS, hH, signersSum_secret] at hc1
  exact c62_check _ S H (fun e => hsk (Witness.smul_gen_eq_zero e)) hS0 hSr hH0 hHr c hc1 h3

/-! ## C63: honest aggregate signatures are accepted -/

open Classical in
/-- the sum of the signers' individual signatures `sk_i•H` -/
noncomputable def aggregateSignature (sk : Fin 10 → ℕ) (signs : Fin 10 → Prop) (H : ETwist Fp) : ETwist Fp :=
  ∑ i, if signs i then sk i • H else 0

open Classical in
theorem aggregateSignature_eq (sk : Fin 10 → ℕ) (signs : Fin 10 → Prop) (H : ETwist Fp) :
    aggregateSignature sk signs H = secretSum sk signs • H := by
  rw [aggregateSignature, secretSum]
  exact sum_ite_nsmul sk signs H

/-- The signers' aggregate signature satisfies the verification equation with the signers' aggregate key. -/
theorem c63_equation (sk : Fin 10 → ℕ) (signs : Fin 10 → Prop) (H : ETwist Fp) (hH : rOrder • H = 0) :
    ate (-G1gen) (aggregateSignature sk signs H) * ate (signersSum (fun i => sk i • G1gen) signs) H = 1 := by
  rw [aggregateSignature_eq, signersSum_secret]
  exact (bls_iff _ (order_nsmul hH _) hH).2 rfl

/-- **Honest transactions are accepted** (test engine): keys `sk_i•g1` in general position, the aggregate of the
signers' signatures on the hash `H` of the message, matching public inputs - unless the secret keys of the signers sum
to a multiple of `r` or the easy part of the Miller value is already 1. -/
theorem c63_transaction {keys : Fin 10 → G1In} (sk : Fin 10 → ℕ) (hk : ∀ i, Denotes (keys i) (sk i • G1gen))
    (bits weights : Fin 10 → Fr) (hb : ∀ i, bits i = 0 ∨ bits i = 1)
    (hg : GeneralPosition (fun i => sk i • G1gen) fun i => bits i = 1)
    (msg : Vector Fr 32) (H : ETwist Fp) (M : G2In)
    (hH : (G2.hashToG2 msg).run = some (enc2 H)) (hH0 : H ≠ 0) (hHr : rOrder • H = 0)
    (hsk : ¬ rOrder ∣ secretSum sk fun i => bits i = 1) (c : Fr)
    (hc : IsCommitment (fun i => (keys i).X) (fun i => (keys i).Y) weights c) :
    ∃ z, millerLoop [enc1 (-G1gen), enc1 (signersSum (fun i => sk i • G1gen) fun i => bits i = 1)]
        [enc2 (aggregateSignature sk (fun i => bits i = 1) H), enc2 H] = .ok (pure z) ∧
      (safeInput z ^ ((fpOrder ^ 6 - 1) * (fpOrder ^ 2 + 1)) ≠ 1 →
        (txDefine .engine ⟨M, c, ∑ i, if bits i = 1 then weights i else 0⟩
          ⟨keys, newG2Affine (enc2 (aggregateSignature sk (fun i => bits i = 1) H)), bits, weights, msg⟩).run =
            some ()) := by
  have hS0 : aggregateSignature sk (fun i => bits i = 1) H ≠ 0 := fun e => by
    rw [aggregateSignature_eq] at e
    exact smul_ne_of hHr hH0 hsk e
  refine c23_complete hk bits weights hb hg msg _ H M hH hH0 hHr hS0 ?_ ?_ (c63_equation _ _ _ hHr) c hc
  · rw [aggregateSignature_eq]; exact order_nsmul hHr _
  · rw [signersSum_secret]
    exact fun e => hsk (Witness.smul_gen_eq_zero e)

/-- The same in both modes when all ten sign. -/
theorem c63_all_sign {keys : Fin 10 → G1In} (sk : Fin 10 → ℕ) (hk : ∀ i, Denotes (keys i) (sk i • G1gen))
    (weights : Fin 10 → Fr) (hg : GeneralPosition (fun i => sk i • G1gen) fun _ => True)
    (msg : Vector Fr 32) (H : ETwist Fp) (M : G2In)
    (hH : (G2.hashToG2 msg).run = some (enc2 H)) (hH0 : H ≠ 0) (hHr : rOrder • H = 0)
    (hsk : ¬ rOrder ∣ ∑ i, sk i) (c : Fr)
    (hc : IsCommitment (fun i => (keys i).X) (fun i => (keys i).Y) weights c) :
    ∃ z, millerLoop [enc1 (-G1gen), enc1 (∑ i, sk i • G1gen)]
        [enc2 (∑ i, sk i • H), enc2 H] = .ok (pure z) ∧
      (safeInput z ^ ((fpOrder ^ 6 - 1) * (fpOrder ^ 2 + 1)) ≠ 1 →
        (txDefine mode ⟨M, c, ∑ i, weights i⟩
          ⟨keys, newG2Affine (enc2 (∑ i, sk i • H)), fun _ => 1, weights, msg⟩).run = some ()) := by
  have e1 : ∑ i, sk i • H = (∑ i, sk i) • H := sum_nsmul' sk H
  have e2 : ∑ i, sk i • G1gen = (∑ i, sk i) • G1gen := sum_nsmul' sk G1gen
  refine c23_complete_all_sign hk weights hg msg _ H M hH hH0 hHr ?_ ?_ ?_ ?_ c hc
  · rw [e1]
    exact smul_ne_of hHr hH0 hsk
  · rw [e1]; exact order_nsmul hHr _
  · rw [e2]; exact fun e => hsk (Witness.smul_gen_eq_zero e)
  · rw [e1, e2]; exact (bls_iff _ (order_nsmul hHr _) hHr).2 rfl

/-- The hypotheses of `c63_all_sign` hold for the secret keys `1, 2, 4, …, 512` and the hash of the example message,
and the accepted transaction meets those of `c62_all_sign`. -/
example (M : G2In) (weights : Fin 10 → Fr) :
    (∀ i, Denotes (exKeys i) (2 ^ i.val • G1gen)) ∧
    GeneralPosition (fun i : Fin 10 => 2 ^ i.val • G1gen) (fun _ => True) ∧
    ¬ rOrder ∣ (∑ i : Fin 10, 2 ^ i.val) ∧
    (G2.hashToG2 (HashProps.msgVars G2.exMsg)).run = some (enc2 Witness.Hpt) ∧ Witness.Hpt ≠ 0 ∧
    rOrder • Witness.Hpt = 0 ∧ TxAccepted mode (exPub M weights) (exPriv weights) ∧
    (exPriv weights).signature.val = enc2 exSig ∧ exSig ≠ 0 ∧ rOrder • exSig = 0 :=
  ⟨exKeys_denote, Witness.key_general _, by decide +kernel, H_hash, Witness.H_ne, Witness.H_order,
    ex_accepted M weights, (c58_signature _).2, Witness.S_ne, Witness.S_order⟩

/-! ## C64: cofactor clearing and hashing land in the subgroup of order `r` -/

/-- Both cofactor-clearing routines send every point of the twist to a point of order `r`. -/
theorem c64_clear_cofactor (P : ETwist Fp) {p : G2Affine Fp} {j : G2Jacobian Fp} {ψ : ETwist Fp →+ ETwist Fp}
    (hψ : IsPsi ψ) (hJ : JacOf P j.X j.Y j.Z) :
    (∃ R : ETwist Fp, rOrder • R = 0 ∧ ∃ r, (G2.clearCofactorJac j).run = some r ∧ JacOf R r.X r.Y r.Z) ∧
    (Pt P p.X p.Y → AffineDefined ψ P →
      ∃ R : ETwist Fp, rOrder • R = 0 ∧ ∃ r, (G2.clearCofactorAff p).run = some r ∧ Pt R r.X r.Y) := by
  obtain rfl := c48_unique hψ G2.isPsi_psiHom
  refine ⟨⟨_, bp_order P, c49_jacobian hψ hJ⟩, fun hP hd => ⟨_, bp_order P, c49_affine hψ hP hd⟩⟩

/-- On the subgroup of order `r` both variants return `(4u²-2u-1)•P`, whatever the prover does (`C49` without its
hypothesis on `ψ`). -/
theorem c64_subgroup {P : ETwist Fp} {p : G2Affine Fp} {j : G2Jacobian Fp} (hP : Pt P p.X p.Y)
    (hJ : JacOf P j.X j.Y j.Z) (hr : rOrder • P = 0) :
    (∃ r, G2.clearCofactorAff p = pure r ∧ Pt ((4 * seed ^ 2 - 2 * seed - 1) • P) r.X r.Y) ∧
    (∃ r, G2.clearCofactorJac j = pure r ∧ JacOf ((4 * seed ^ 2 - 2 * seed - 1) • P) r.X r.Y r.Z) :=
  c49_subgroup G2.isPsi_psiHom hP hJ hr (psi_of_order hr)

/-- `hash_to_field` yields two elements for every 32-byte message. -/
theorem field_two (msg : Vector Fips.Byte 32) :
    ∃ u0 u1, Rfc.hashToFieldFp2 msg.toList (Rfc.ascii Rfc.dstString) 2 = some [u0, u1] := by
  obtain ⟨h1, h2⟩ := H2C.c08_hash_to_field_honest msg 2 (by omega) (by omega)
  rw [h1, Rfc.hashToFieldFp2, Option.isSome_map] at h2
  obtain ⟨out, ho⟩ := Option.isSome_iff_exists.1 h2
  exact ⟨_, _, by rw [Rfc.hashToFieldFp2, ho]; rfl⟩

/-- Every point the honest prover gets from the Jacobian variant of `HashToG2` is a non-zero point of order `r`, for
every message. -/
theorem c64_hash_jac (msg : Vector Fips.Byte 32) (q : G2Affine Fp)
    (h : (G2.hashToG2OnJac (HashProps.msgVars msg)).run = some q) :
    ∃ H : ETwist Fp, q = enc2 H ∧ H ≠ 0 ∧ rOrder • H = 0 := by
  obtain ⟨u0, u1, hu⟩ := field_two msg
  by_cases h0 : Rfc.den u0 = 0
  · rw [(HashProps.c57_exceptional hu (Or.inl h0)).2] at h; cases h
  by_cases h1 : Rfc.den u1 = 0
  · rw [(HashProps.c57_exceptional hu (Or.inr h1)).2] at h; cases h
  obtain ⟨Q0, Q1, -, -, hj, hz, -⟩ := HashProps.c57_hash_to_g2 G2.isPsi_psiHom hu h0 h1
  by_cases hb : budroniPintore G2.psiHom (Q0 + Q1) = 0
  · rw [hz hb] at h; cases h
  · obtain ⟨q', e, hq⟩ := hj hb
    obtain rfl := Option.some.inj (e.symm.trans h)
    exact ⟨_, (enc2_pt hq).symm, hb, bp_order (Q0 + Q1)⟩

/-- Every message: the honest outputs of `HashToG2` (affine variant) are of order `r` too, wherever its additions are
defined. -/
theorem c64_hash (msg : Vector Fips.Byte 32) {ψ : ETwist Fp →+ ETwist Fp} (hψ : IsPsi ψ) {u0 u1 : E2 Fp}
    (hu : Rfc.hashToFieldFp2 msg.toList (Rfc.ascii Rfc.dstString) 2 = some [u0, u1])
    (h0 : Rfc.den u0 ≠ 0) (h1 : Rfc.den u1 ≠ 0) :
    ∃ Q0 Q1 : ETwist Fp, HashProps.CodeMapsTo u0 Q0 ∧ HashProps.CodeMapsTo u1 Q1 ∧
      (Q0 ≠ Q1 → Q0 ≠ -Q1 → AffineDefined ψ (Q0 + Q1) → ∃ H : ETwist Fp,
        (G2.hashToG2 (HashProps.msgVars msg)).run = some (enc2 H) ∧ H ≠ 0 ∧ rOrder • H = 0) := by
  obtain rfl := c48_unique hψ G2.isPsi_psiHom
  obtain ⟨Q0, Q1, c0, c1, -, -, h⟩ := HashProps.c57_hash_to_g2 hψ hu h0 h1
  refine ⟨Q0, Q1, c0, c1, fun a b c => ?_⟩
  obtain ⟨q, e, hq, -⟩ := h a b c
  exact ⟨_, by rw [e, enc2_pt hq], hq.ne_zero, bp_order (Q0 + Q1)⟩

/-! ## C65: the subgroup of order `r` -/

theorem eigen_aux {G : Type} [AddCommGroup G] (f : G →+ G) (s p : ℤ) (Q : G) (h : f Q = s • Q)
    (hc : f (f Q) - (s + 1) • f Q + p • Q = 0) : (p - s) • Q = 0 := by
  rw [h, map_zsmul, h, ← mul_zsmul', ← mul_zsmul', ← sub_smul, ← add_zsmul] at hc
  rw [← hc]
  congr 1
  ring

theorem order_of_gcd {G : Type} [AddCommGroup G] {k : ℤ} {n r : ℕ} {Q : G} (h1 : k • Q = 0) (h2 : n • Q = 0)
    (hg : Nat.gcd k.natAbs n = r) : r • Q = 0 := by
  rw [← addOrderOf_dvd_iff_nsmul_eq_zero, ← hg]
  refine Nat.dvd_gcd ?_ (addOrderOf_dvd_iff_nsmul_eq_zero.2 h2)
  rw [← addOrderOf_dvd_iff_zsmul_eq_zero] at h1
  exact Int.natCast_dvd.1 h1

/-- The twist has `twistOrder` points; a point is of order `r` exactly when `ψ` multiplies it by the seed, and exactly
when it is a multiple of the standard generator. -/
theorem c65_subgroup {ψ : ETwist Fp →+ ETwist Fp} (hψ : IsPsi ψ) (Q : ETwist Fp) :
    Nat.card (ETwist Fp) = twistOrder ∧
    (rOrder • Q = 0 ↔ ψ Q = seed • Q) ∧ (rOrder • Q = 0 ↔ ∃ n : ℕ, n < rOrder ∧ Q = n • G2gen) := by
  obtain rfl := c48_unique hψ G2.isPsi_psiHom
  refine ⟨twist_card, ⟨psi_of_order, fun h => ?_⟩, ⟨G2_nsmul, ?_⟩⟩
  · have h1 := eigen_aux G2.psiHom seed fpOrder Q h (psi_char Q)
    have h2 : Nat.card (ETwist Fp) • Q = 0 := card_nsmul_eq_zero'
    rw [twist_card] at h2
    exact order_of_gcd h1 h2 (by decide +kernel)
  · rintro ⟨n, -, rfl⟩
    exact order_nsmul G2gen_order n

/-- the characteristic equation of `ψ` on the twist -/
theorem c65_characteristic {ψ : ETwist Fp →+ ETwist Fp} (hψ : IsPsi ψ) (Q : ETwist Fp) :
    ψ (ψ Q) - (seed + 1) • ψ Q + (fpOrder : ℤ) • Q = 0 := by
  obtain rfl := c48_unique hψ G2.isPsi_psiHom
  exact psi_char Q

/-! ## C66: keys are not checked to be in the subgroup -/

/-- Shifting a key by a point whose order is prime to `r` does not change any pairing with it. -/
theorem c66_shift (A T : E1 Fp) (n : ℕ) (hT : n • T = 0) (hn : Nat.Coprime n rOrder) (Q : ETwist Fp)
    (hQ : rOrder • Q = 0) : ate (A + T) Q = ate A Q := by
  rw [ate_add_left _ _ (psi_of_order hQ), ate_small hT hn hQ, mul_one]

/-- So the honest signature `a•H` passes the check against the key `a•g1 + T`, which is not `a•g1`. -/
theorem c66_accepted (a : ℕ) (T : E1 Fp) (n : ℕ) (hT : n • T = 0) (hn : Nat.Coprime n rOrder) (H : ETwist Fp)
    (hH0 : H ≠ 0) (hH : rOrder • H = 0) (ha : ¬ rOrder ∣ a) (hA : a • G1gen + T ≠ 0) :
    ∃ z, millerLoop [enc1 (-G1gen), enc1 (a • G1gen + T)] [enc2 (a • H), enc2 H] = .ok (pure z) ∧
      (safeInput z ^ ((fpOrder ^ 6 - 1) * (fpOrder ^ 2 + 1)) ≠ 1 →
        (pairingCheckStmt [enc1 (-G1gen), enc1 (a • G1gen + T)] [enc2 (a • H), enc2 H]).run = some ()) :=
  pairing_complete hH0 hH (smul_ne_of hH hH0 ha) (order_nsmul hH a) hA (by
    rw [c66_shift _ T n hT hn H hH]
    exact (bls_iff a (order_nsmul hH a) hH).2 rfl)

theorem nonsing02 : (sw (4 : Fp)).Nonsingular 0 2 := by
  rw [sw_nonsingular]
  refine ⟨by norm_num, ?_⟩
  decide +kernel

/-- such a point exists: `(0, 2)` has order 3 -/
theorem c66_example : ∃ T : E1 Fp, T ≠ 0 ∧ 3 • T = 0 ∧ Nat.Coprime 3 rOrder ∧ enc1 T = ⟨0, 2⟩ := by
  have hp : Pt (WeierstrassCurve.Affine.Point.some 0 2 nonsing02 : E1 Fp) 0 2 := ⟨nonsing02, rfl⟩
  refine ⟨_, hp.ne_zero, ?_, by decide +kernel, enc1_pt hp⟩
  have h2 := hp.double (l := 0) (by decide +kernel) (by norm_num)
  have h3 := h2.congr (x' := 0) (y' := -2) (by norm_num) (by norm_num)
  have e := h3.ext hp.neg
  rw [show (3 : ℕ) = 2 + 1 from rfl, succ_nsmul, two_nsmul, e, neg_add_cancel]

/-! ## C67: a rogue key takes over a rotation -/

/-- the keys after the attack: the first nine validators keep their keys `K i`; the last key is
`x•g1 - (K 0 + … + K 8)`, which the attacker computes from the public keys and a number `x` of their choice -/
noncomputable def rogueKeys (K : Fin 10 → E1 Fp) (x : ℕ) (i : Fin 10) : E1 Fp :=
  if i.val < 9 then K i else x • G1gen - ∑ j : Fin 9, K j.castSucc

theorem rogue_sum (K : Fin 10 → E1 Fp) (x : ℕ) : ∑ i, rogueKeys K x i = x • G1gen := by
  rw [Fin.sum_univ_castSucc]
  have h1 : ∀ j : Fin 9, rogueKeys K x j.castSucc = K j.castSucc := fun j => by
    rw [rogueKeys, if_pos (by simp [j.2])]
  have h2 : rogueKeys K x (Fin.last 9) = x • G1gen - ∑ j : Fin 9, K j.castSucc := by
    rw [rogueKeys, if_neg (by simp)]
  rw [h2, Finset.sum_congr rfl fun j _ => h1 j, add_sub_cancel]

/-- **Anyone can rotate the validator set.**  For every validator set `K` (points of the curve, whoever holds the
secret keys), every number `x` and every message with hash `H`, the signature `x•H` makes the rotation to `rogueKeys`
acceptable, and the public trusted weight is the whole weight of the first nine validators. The new weights are
arbitrary.  (Keys distinct enough for the chord additions, `x` not a multiple of `r`, easy part of the Miller value not
1.) -/
theorem c67_rogue_rotation (K : Fin 10 → E1 Fp) (x : ℕ) (hx : ¬ rOrder ∣ x)
    (hne : ∀ i, rogueKeys K x i ≠ 0) (hg : GeneralPosition (rogueKeys K x) fun _ => True)
    (hlast : rogueKeys K x 9 ≠ K 9) (oldW newW : Fin 10 → Fr)
    (msg : Vector Fr 32) (H : ETwist Fp) (M : G2In) (hH : (G2.hashToG2 msg).run = some (enc2 H)) (hH0 : H ≠ 0)
    (hHr : rOrder • H = 0) (c c' : Fr)
    (hc : IsCommitment (fun i => (newG1Affine (enc1 (K i))).X) (fun i => (newG1Affine (enc1 (K i))).Y) oldW c)
    (hc' : IsCommitment (fun i => (newG1Affine (enc1 (rogueKeys K x i))).X)
      (fun i => (newG1Affine (enc1 (rogueKeys K x i))).Y) newW c') :
    ∃ z, millerLoop [enc1 (-G1gen), enc1 (x • G1gen)] [enc2 (x • H), enc2 H] = .ok (pure z) ∧
      (safeInput z ^ ((fpOrder ^ 6 - 1) * (fpOrder ^ 2 + 1)) ≠ 1 →
        (rotateDefine mode ⟨M, c, c', msg, ∑ i : Fin 9, oldW i.castSucc⟩
          ⟨oldW, newW, fun i => newG1Affine (enc1 (K i)), fun i => newG1Affine (enc1 (rogueKeys K x i)), fun _ => 1,
            newG2Affine (enc2 (x • H))⟩).run = some ()) := by
  have hk : ∀ i, Denotes (newG1Affine (enc1 (rogueKeys K x i))) (rogueKeys K x i) := fun i => c58_denotes _ (hne i)
  obtain ⟨apk, ha, -, hrot⟩ := c19_all_sign (mode := mode) hk hg oldW
  rw [rogue_sum] at ha
  refine c23_rotate_complete (mode := mode) (fun i => (hk i).1) (fun _ => 1) oldW newW (fun _ => Or.inr rfl) hrot ha
    msg _ H M hH hH0 hHr (smul_ne_of hHr hH0 hx) (order_nsmul hHr x) (fun e => hx (Witness.smul_gen_eq_zero e))
    ((bls_iff x (order_nsmul hHr x) hHr).2 rfl) c c' _ hc hc' ?_
  refine Eq.symm ?_
  rw [Fin.sum_univ_castSucc (n := 9), if_neg, add_zero]
  · refine Finset.sum_congr rfl fun j _ => ?_
    rw [if_pos (Or.inl ⟨rfl, by rw [rogueKeys, if_pos (by simp [j.2])]⟩)]
  · rintro (⟨-, h⟩ | ⟨h, -⟩)
    · exact hlast (enc1_injective (c58_keys.1 h))
    · exact one_ne_zero h

/-- From then on the attacker signs every transaction alone, with the full weight of the new set. -/
theorem c67_takeover (K : Fin 10 → E1 Fp) (x : ℕ) (hx : ¬ rOrder ∣ x)
    (hne : ∀ i, rogueKeys K x i ≠ 0) (hg : GeneralPosition (rogueKeys K x) fun _ => True) (weights : Fin 10 → Fr)
    (msg : Vector Fr 32) (H : ETwist Fp) (M : G2In) (hH : (G2.hashToG2 msg).run = some (enc2 H)) (hH0 : H ≠ 0)
    (hHr : rOrder • H = 0) (c : Fr)
    (hc : IsCommitment (fun i => (newG1Affine (enc1 (rogueKeys K x i))).X)
      (fun i => (newG1Affine (enc1 (rogueKeys K x i))).Y) weights c) :
    ∃ z, millerLoop [enc1 (-G1gen), enc1 (x • G1gen)] [enc2 (x • H), enc2 H] = .ok (pure z) ∧
      (safeInput z ^ ((fpOrder ^ 6 - 1) * (fpOrder ^ 2 + 1)) ≠ 1 →
        (txDefine mode ⟨M, c, ∑ i, weights i⟩
          ⟨fun i => newG1Affine (enc1 (rogueKeys K x i)), newG2Affine (enc2 (x • H)), fun _ => 1, weights,
            msg⟩).run = some ()) := by
  have := c23_complete_all_sign (mode := mode) (fun i => c58_denotes _ (hne i)) weights hg msg (x • H) H M hH hH0 hHr
    (smul_ne_of hHr hH0 hx) (order_nsmul hHr x)
    (by rw [rogue_sum]; exact fun e => hx (Witness.smul_gen_eq_zero e))
    (by rw [rogue_sum]; exact (bls_iff x (order_nsmul hHr x) hHr).2 rfl) c hc
  rwa [rogue_sum] at this

/-- A concrete instance: nine validators with the keys `1, 2, 4, …, 256` times the generator, a tenth one with
another key.  The attacker's number is `1023`. -/
noncomputable def victims (i : Fin 10) : E1 Fp := if i.val < 9 then Witness.key i else 3 • G1gen

theorem rogue_victims : rogueKeys victims 1023 = Witness.key := by
  funext i
  rw [rogueKeys]
  split
  · next h => rw [victims, if_pos h]
  · next h =>
    obtain rfl : i = Fin.last 9 := Fin.ext (by simp; omega)
    rw [sub_eq_iff_eq_add, ← Witness.sum_keys, Fin.sum_univ_castSucc, add_comm]
    congr 1

theorem victims_last : Witness.key 9 ≠ victims 9 := by
  intro e
  have h : Witness.key 9 = 512 • G1gen := rfl
  have h' : victims 9 = 3 • G1gen := if_neg (by decide)
  have hA : rOrder • (3 • G1gen) = 0 := by
    rw [← mul_nsmul, mul_comm, mul_nsmul, Witness.G1gen_order, nsmul_zero]
  obtain ⟨a, -, hu⟩ := c62_secret (3 • G1gen) hA
  have h1 := hu 3 ⟨by decide +kernel, rfl⟩
  have h2 := hu 512 ⟨by decide +kernel, by rw [← h', ← e, h]⟩
  omega

/-- The rogue rotation of this validator set is accepted in both modes: 900 of the trusted weight is that of
validators that had no part in it. -/
theorem c67_example (M : G2In) (newW : Fin 10 → Fr) :
    (rotateDefine mode ⟨M, commit (fun i => newG1Affine (enc1 (victims i))) fun _ => 100, commit exKeys newW,
        HashProps.msgVars G2.exMsg, 900⟩
      ⟨fun _ => 100, newW, fun i => newG1Affine (enc1 (victims i)), exKeys, fun _ => 1,
        newG2Affine (enc2 (1023 • Witness.Hpt))⟩).run = some () := by
  have hc' : IsCommitment (fun i => (newG1Affine (enc1 (rogueKeys victims 1023 i))).X)
      (fun i => (newG1Affine (enc1 (rogueKeys victims 1023 i))).Y) newW (commit exKeys newW) := by
    rw [rogue_victims]; exact commit_isCommitment exKeys newW
  obtain ⟨z, hm, h⟩ := c67_rogue_rotation (mode := mode) victims 1023 (by decide +kernel)
    (by rw [rogue_victims]; exact Witness.key_ne) (by rw [rogue_victims]; exact Witness.key_general _)
    (by rw [rogue_victims]; exact victims_last) (fun _ => 100) newW (HashProps.msgVars G2.exMsg) Witness.Hpt M H_hash
    Witness.H_ne Witness.H_order _ _ (commit_isCommitment _ _) hc'
  have := h (ex_z (by rw [Witness.sum_keys]; exact hm))
  rw [rogue_victims] at this
  rw [show (∑ i : Fin 9, (fun _ : Fin 10 => (100 : Fr)) i.castSucc) = 900 by
    rw [Finset.sum_const, Finset.card_univ, Fintype.card_fin]; norm_num] at this
  exact this

end Spark.GroupProps
