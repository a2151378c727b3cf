import Verif.Spec.HashToCurve
import Verif.Props.Extra

/-!
# C97: hashing to G2 against the text of RFC 9380

Cofactor clearing is multiplication by the literal `h_eff` of the RFC; the honest `HashToG2` is `hash_to_curve`.
-/

namespace Spark.HonestProps
open Spark Circ Spec Circuit Pairing PairingProps CircuitProps GroupProps ExceptionProps HashProps CurveProps G2 TwistPoints
open scoped BigOperators
set_option maxRecDepth 100000

/-! ## The specification is a function -/

/-- RFC 9380 assigns every field element at most one point ... -/
theorem mapsTo_unique {u : E2 Fp} {Q Q' : ETwist Fp} (h : Rfc.MapsTo u Q) (h' : Rfc.MapsTo u Q') : Q = Q' := by
  obtain ⟨x, y, ⟨rfl, hy, hs⟩, p⟩ := h
  obtain ⟨x', y', ⟨rfl, hy', hs'⟩, p'⟩ := h'
  have e : y = y' := by
    rcases sq_eq_sq_iff_eq_or_eq_neg.1 (hy.trans hy'.symm) with e | e
    · exact e
    · by_cases h0 : y' = 0
      · rw [e, h0, neg_zero]
      · have h1 := hs (by rw [e]; exact neg_ne_zero.2 h0)
        have h2 := hs' h0
        rw [e, sgn0_neg h0, h2] at h1
        omega
  subst e
  exact p.ext p'

/-- ... and at least one. -/
theorem mapsTo_exists (u : E2 Fp) : ∃ Q, Rfc.MapsTo u Q := by
  obtain ⟨x, y, h⟩ := isSswu_exists u
  obtain ⟨Q, hQ⟩ := (c54_isogeny (x := x) (y := y) h.2.1).2.2
  exact ⟨Q, x, y, h, hQ⟩

/-- **C97, specification.** For every message and every tag of at most 255 bytes RFC 9380 defines exactly one hash and
exactly one encoding. -/
theorem c97_spec (msg dst : List Fips.Byte) (h : dst.length ≤ 255) :
    (∃! H, Rfc.HashesTo msg dst H) ∧ ∃! H, Rfc.EncodesTo msg dst H := by
  have hf : ∀ n, n ≤ 2 → ∃ out, Rfc.expandMessageXmd msg dst (n * 2 * 64) = some out := fun n hn => by
    rw [Rfc.expandMessageXmd, if_neg (by omega)]
    exact ⟨_, rfl⟩
  constructor
  · obtain ⟨out, ho⟩ := hf 2 (by omega)
    obtain ⟨u0, u1, hu⟩ : ∃ u0 u1, Rfc.hashToFieldFp2 msg dst 2 = some [u0, u1] := ⟨_, _, by rw [Rfc.hashToFieldFp2, ho]; rfl⟩
    obtain ⟨Q0, m0⟩ := mapsTo_exists u0
    obtain ⟨Q1, m1⟩ := mapsTo_exists u1
    refine ⟨_, ⟨u0, u1, Q0, Q1, hu, m0, m1, rfl⟩, ?_⟩
    rintro H ⟨u0', u1', Q0', Q1', hu', m0', m1', rfl⟩
    rw [hu] at hu'
    obtain ⟨rfl, hu2⟩ := List.cons.inj (Option.some.inj hu')
    obtain ⟨rfl, -⟩ := List.cons.inj hu2
    rw [mapsTo_unique m0 m0', mapsTo_unique m1 m1']
  · obtain ⟨out, ho⟩ := hf 1 (by omega)
    obtain ⟨u, hu⟩ : ∃ u, Rfc.hashToFieldFp2 msg dst 1 = some [u] := ⟨_, by rw [Rfc.hashToFieldFp2, ho]; rfl⟩
    obtain ⟨Q, m⟩ := mapsTo_exists u
    refine ⟨_, ⟨u, Q, hu, m, rfl⟩, ?_⟩
    rintro H ⟨u', Q', hu', m', rfl⟩
    rw [hu] at hu'
    obtain ⟨rfl, -⟩ := List.cons.inj (Option.some.inj hu')
    rw [mapsTo_unique m m']

/-! ## Cofactor clearing -/

theorem hEff_cofactor : Rfc.hEff = (Rfc.hEff / cofactor) * cofactor := by decide +kernel

theorem hEff_mod : ((4 * seed ^ 2 - 2 * seed - 1) - (Rfc.hEff : ℤ)) % (rOrder : ℤ) = 0 := by decide +kernel

/-- **C97, cofactor.** The formula the code evaluates is multiplication by `h_eff`, on every point of the twist. -/
theorem c97_clear_cofactor {ψ : ETwist Fp →+ ETwist Fp} (hψ : IsPsi ψ) (P : ETwist Fp) :
    budroniPintore ψ P = Rfc.hEff • P := by
  obtain rfl := c48_unique hψ isPsi_psiHom
  refine sub_eq_zero.1 (eq_zero_of_coprime (a := cofactor) (b := rOrder) ?_ ?_ cofactor_coprime)
  · have e1 : cofactor • budroniPintore psiHom P = budroniPintore psiHom (cofactor • P) := (map_nsmul bpHom _ _).symm
    have e2 : budroniPintore psiHom (cofactor • P) = (4 * seed ^ 2 - 2 * seed - 1) • (cofactor • P) :=
      bp_eigen psiHom seed (cofactor • P) (psi_of_order (twist_smul P))
    rw [nsmul_sub, e1, e2, nsmul_left_comm, ← natCast_zsmul (cofactor • P) Rfc.hEff, sub_eq_add_neg, ← sub_zsmul]
    obtain ⟨k, hk⟩ := Int.dvd_of_emod_eq_zero hEff_mod
    rw [hk, mul_comm, mul_zsmul, natCast_zsmul, twist_smul, zsmul_zero]
  · have h1 : rOrder • budroniPintore psiHom P = 0 := bp_order P
    rw [nsmul_sub, h1, zero_sub, neg_eq_zero, hEff_cofactor, mul_nsmul', nsmul_left_comm, twist_smul, nsmul_zero]

/-- **C97, the circuits.** Both variants of cofactor clearing return `h_eff * P`: the Jacobian one for every point `P` of the
twist (honest prover), and both, whatever the prover does, where this is not infinity. -/
theorem c97_circuits {P : ETwist Fp} {p : G2Affine Fp} {j : G2Jacobian Fp} (hJ : JacOf P j.X j.Y j.Z) :
    (∃ r, (clearCofactorJac j).run = some r ∧ JacOf (Rfc.hEff • P) r.X r.Y r.Z) ∧
    (Pt P p.X p.Y → Rfc.hEff • P ≠ 0 →
      clearCofactorAff p = pure (enc2 (Rfc.hEff • P)) ∧
      ∃ r, clearCofactorJac j = pure r ∧ JacOf (Rfc.hEff • P) r.X r.Y r.Z) := by
  rw [← c97_clear_cofactor isPsi_psiHom]
  refine ⟨c49_jacobian isPsi_psiHom hJ, fun hP h => ?_⟩
  obtain ⟨⟨r, e, hr⟩, h2⟩ := c92_exact isPsi_psiHom hP hJ h
  exact ⟨by rw [e, enc2_pt hr], h2⟩

/-! ## Hashing -/

/-- **C97.** For every 32-byte message whose field elements `u0`, `u1` have no sign tie (real part 0 of `u` or of the root): with
`H` the hash of RFC 9380, the honest `HashToG2OnJac` returns `H`, and fails if `H` is infinity; the honest `HashToG2` returns
`H` too unless `H` is infinity or `u0` and `u1` are mapped to the same point. -/
theorem c97_hash {msg : Vector Fips.Byte 32} {u0 u1 : E2 Fp} {H : ETwist Fp}
    (hu : Rfc.hashToFieldFp2 msg.toList (Rfc.ascii Rfc.dstString) 2 = some [u0, u1])
    (t0 : NoSignTie u0) (t1 : NoSignTie u1) (hH : Rfc.HashesTo msg.toList (Rfc.ascii Rfc.dstString) H) :
    (H ≠ 0 → (hashToG2OnJac (msgVars msg)).run = some (enc2 H)) ∧
    (H = 0 → (hashToG2OnJac (msgVars msg)).run = none) ∧
    (H ≠ 0 → (∀ Q, Rfc.MapsTo u0 Q → ¬ Rfc.MapsTo u1 Q) → (hashToG2 (msgVars msg)).run = some (enc2 H)) := by
  obtain ⟨Q0, Q1, c0, c1, hz, hq, -⟩ := (c92_hash isPsi_psiHom hu).2
    (fun e => t0.1 (by rw [e]; rfl)) (fun e => t1.1 (by rw [e]; rfl))
  have m0 := c57_map_rfc t0 c0
  have m1 := c57_map_rfc t1 c1
  obtain ⟨u0', u1', Q0', Q1', hu', m0', m1', rfl⟩ := hH
  rw [hu] at hu'
  obtain ⟨rfl, hu2⟩ := List.cons.inj (Option.some.inj hu')
  obtain ⟨rfl, -⟩ := List.cons.inj hu2
  obtain rfl := mapsTo_unique m0 m0'
  obtain rfl := mapsTo_unique m1 m1'
  rw [c97_clear_cofactor isPsi_psiHom] at hz hq
  refine ⟨fun h => ?_, hz, fun h hne => ?_⟩
  · obtain ⟨q, e, hp, -⟩ := hq h
    rw [e, enc2_pt hp]
  · obtain ⟨q, -, hp, e⟩ := hq h
    rw [e fun e => hne Q0 m0 (e ▸ m1), enc2_pt hp]

/-- **C97, nonuniform encoding.** -/
theorem c97_encode {msg : Vector Fips.Byte 32} {u : E2 Fp} {H : ETwist Fp}
    (hu : Rfc.hashToFieldFp2 msg.toList (Rfc.ascii Rfc.dstString) 1 = some [u])
    (t : NoSignTie u) (hH : Rfc.EncodesTo msg.toList (Rfc.ascii Rfc.dstString) H) :
    (H ≠ 0 → (encodeToG2OnJac (msgVars msg)).run = some (enc2 H) ∧ (encodeToG2 (msgVars msg)).run = some (enc2 H)) ∧
    (H = 0 → (encodeToG2OnJac (msgVars msg)).run = none) := by
  obtain ⟨Q, c, hz, hq⟩ := (c92_encode isPsi_psiHom hu).2 (fun e => t.1 (by rw [e]; rfl))
  obtain ⟨u', Q', hu', m', rfl⟩ := hH
  rw [hu] at hu'
  obtain ⟨rfl, -⟩ := List.cons.inj (Option.some.inj hu')
  obtain rfl := mapsTo_unique (c57_map_rfc t c) m'
  rw [c97_clear_cofactor isPsi_psiHom] at hz hq
  refine ⟨fun h => ?_, hz⟩
  obtain ⟨q, e1, e2, hp⟩ := hq h
  rw [e1, e2, enc2_pt hp]
  exact ⟨rfl, rfl⟩

/-- **C97, signatures.** The honest prover of the transaction circuit accepts exactly the aggregate signatures on the RFC 9380
hash of the message bytes, with the right weight and commitment (exceptions as in C86 and C91). -/
theorem c97_transaction {mode : Mode} {pub : TxPublic} {priv : TxPrivate} (sk : Fin 10 → ℕ)
    (hk : ∀ i, Denotes (priv.publicKeys i) (sk i • G1gen)) (hb : ∀ i, priv.bitList i = 0 ∨ priv.bitList i = 1)
    (hg : GeneralPosition (fun i => sk i • G1gen) fun i => priv.bitList i = 1)
    (hmode : ExactAggregation mode priv.bitList)
    (hsk : ¬ rOrder ∣ secretSum sk fun i => priv.bitList i = 1) {msg : Vector Fips.Byte 32}
    (hmsg : priv.msgBytes = msgVars msg) {u0 u1 : E2 Fp} {H : ETwist Fp}
    (hu : Rfc.hashToFieldFp2 msg.toList (Rfc.ascii Rfc.dstString) 2 = some [u0, u1]) (t0 : NoSignTie u0) (t1 : NoSignTie u1)
    (hne : ∀ Q, Rfc.MapsTo u0 Q → ¬ Rfc.MapsTo u1 Q)
    (hH : Rfc.HashesTo msg.toList (Rfc.ascii Rfc.dstString) H) (hH0 : H ≠ 0)
    (S : ETwist Fp) (hS : priv.signature = newG2Affine (enc2 S)) (hS0 : S ≠ 0) (hSr : rOrder • S = 0) :
    ∃ z, millerLoop [enc1 (-G1gen), enc1 (signersSum (fun i => sk i • G1gen) fun i => priv.bitList i = 1)]
        [enc2 S, enc2 H] = .ok (pure z) ∧
      ((txDefine mode pub priv).run = some () ↔
        pub.signedWeight = (∑ i, if priv.bitList i = 1 then priv.weights i else 0) ∧
        IsCommitment (fun i => (priv.publicKeys i).X) (fun i => (priv.publicKeys i).Y) priv.weights
          pub.apkCommitment ∧
        S = aggregateSignature sk (fun i => priv.bitList i = 1) H ∧ ¬ Exceptional z) := by
  have e := (c97_hash hu t0 t1 hH).2.2 hH0 hne
  refine c91_transaction sk hk hb hg hmode hsk S H (by rw [hmsg]; exact e) hH0 ?_ hS hS0 hSr
  obtain ⟨_, _, Q0, Q1, -, -, -, rfl⟩ := hH
  rw [← c97_clear_cofactor isPsi_psiHom]
  exact bp_order _

/-- The same for rotations and the signed bytes of the new commitment. -/
theorem c97_rotation {mode : Mode} {pub : RotatePublic} {priv : RotatePrivate} (sk : Fin 10 → ℕ)
    (hk : ∀ i, Denotes (priv.newPublicKeys i) (sk i • G1gen)) (hb : ∀ i, priv.bitList i = 0 ∨ priv.bitList i = 1)
    (hg : GeneralPosition (fun i => sk i • G1gen) fun i => priv.bitList i = 1)
    (hmode : ExactAggregation mode priv.bitList)
    (hsk : ¬ rOrder ∣ secretSum sk fun i => priv.bitList i = 1) {msg : Vector Fips.Byte 32}
    (hmsg : pub.newApkCommitmentBytes = msgVars msg) {u0 u1 : E2 Fp} {H : ETwist Fp}
    (hu : Rfc.hashToFieldFp2 msg.toList (Rfc.ascii Rfc.dstString) 2 = some [u0, u1]) (t0 : NoSignTie u0) (t1 : NoSignTie u1)
    (hne : ∀ Q, Rfc.MapsTo u0 Q → ¬ Rfc.MapsTo u1 Q)
    (hH : Rfc.HashesTo msg.toList (Rfc.ascii Rfc.dstString) H) (hH0 : H ≠ 0)
    (S : ETwist Fp) (hS : priv.signature = newG2Affine (enc2 S)) (hS0 : S ≠ 0) (hSr : rOrder • S = 0) :
    ∃ z, millerLoop [enc1 (-G1gen), enc1 (signersSum (fun i => sk i • G1gen) fun i => priv.bitList i = 1)]
        [enc2 S, enc2 H] = .ok (pure z) ∧
      ((rotateDefine mode pub priv).run = some () ↔
        pub.trustedWeight = (∑ i, open Classical in
          if (priv.bitList i = 1 ∧ priv.newPublicKeys i = priv.oldPublicKeys i) ∨
            (priv.bitList i = 0 ∧ priv.oldPublicKeys i = ⟨fun _ => 0, fun _ => 0⟩) then priv.oldWeights i else 0) ∧
        IsCommitment (fun i => (priv.oldPublicKeys i).X) (fun i => (priv.oldPublicKeys i).Y) priv.oldWeights
          pub.oldApkCommitment ∧
        IsCommitment (fun i => (priv.newPublicKeys i).X) (fun i => (priv.newPublicKeys i).Y) priv.newWeights
          pub.newCommitment ∧
        S = aggregateSignature sk (fun i => priv.bitList i = 1) H ∧ ¬ Exceptional z) := by
  have e := (c97_hash hu t0 t1 hH).2.2 hH0 hne
  refine c91_rotation sk hk hb hg hmode hsk S H (by rw [hmsg]; exact e) hH0 ?_ hS hS0 hSr
  obtain ⟨_, _, Q0, Q1, -, -, -, rfl⟩ := hH
  rw [← c97_clear_cofactor isPsi_psiHom]
  exact bp_order _

/-- C97 on an explicit message: no sign tie, different points, finite hash; both variants return the RFC's hash. -/
theorem c97_example : ∃ u0 u1 H, Rfc.hashToFieldFp2 exMsg.toList (Rfc.ascii Rfc.dstString) 2 = some [u0, u1] ∧
    NoSignTie u0 ∧ NoSignTie u1 ∧ (∀ Q, Rfc.MapsTo u0 Q → ¬ Rfc.MapsTo u1 Q) ∧
    Rfc.HashesTo exMsg.toList (Rfc.ascii Rfc.dstString) H ∧ H ≠ 0 ∧
    (hashToG2 (msgVars exMsg)).run = some (enc2 H) ∧ (hashToG2OnJac (msgVars exMsg)).run = some (enc2 H) := by
  obtain ⟨u0, u1, -, hu, -, -, t0, t1, h, -⟩ := c57_example
  obtain ⟨Q0, Q1, c0, c1, -⟩ := (c92_hash isPsi_psiHom hu).2 (fun e => t0.1 (by rw [e]; rfl)) (fun e => t1.1 (by rw [e]; rfl))
  have m0 := c57_map_rfc t0 c0
  have m1 := c57_map_rfc t1 c1
  have hne : ∀ Q, Rfc.MapsTo u0 Q → ¬ Rfc.MapsTo u1 Q := fun Q h0 h1 =>
    (h Q0 Q1 c0 c1).1 ((mapsTo_unique m0 h0).trans (mapsTo_unique m1 h1).symm)
  have hH : Rfc.HashesTo exMsg.toList (Rfc.ascii Rfc.dstString) (Rfc.hEff • (Q0 + Q1)) := ⟨u0, u1, Q0, Q1, hu, m0, m1, rfl⟩
  have h0 : Rfc.hEff • (Q0 + Q1) ≠ 0 := by
    rw [← c97_clear_cofactor isPsi_psiHom]
    exact (c92_defined isPsi_psiHom _).1 (h Q0 Q1 c0 c1).2.2
  obtain ⟨e1, -, e2⟩ := c97_hash hu t0 t1 hH
  exact ⟨u0, u1, _, hu, t0, t1, hne, hH, h0, e2 h0 hne, e1 h0⟩

end Spark.HonestProps
