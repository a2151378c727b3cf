import Verif.Props.ClearCofactor
import Verif.Props.Honest
import Verif.Props.Sha256
import Verif.Model.WordApi
import Mathlib.GroupTheory.Perm.Cycle.Type

/-!
# Additions to C05 (machine words) and C45 (multiplication by the seed); C95: the exported byte interface
-/

namespace Spark.Sha
open Spark Circ Spec

/-- **C05** (shifts out of range): shifting by more than the width indexes out of range. -/
theorem c05_shift_out_of_range {n : ℕ} (w : Word n) (s : ℕ) (hs : n < s) :
    ¬ (rshift w s).Satisfiable ∧ ¬ (lshift w s).Satisfiable := by
  constructor
  · rw [not_satisfiable_iff, rshift, if_neg (by omega)]
  · rw [not_satisfiable_iff, lshift, if_neg (by omega)]

/-- **C05** (conversions): widening a byte keeps its value, narrowing keeps the low byte. -/
theorem c05_convert (b : BitVec 8) (v : BitVec 32) (x : BitVec 64) :
    toUint32 (enc b) = enc (BitVec.ofNat 32 b.toNat) ∧
    toUint8 (by decide) (enc v) = enc (BitVec.ofNat 8 (v.toNat % 256)) ∧
    toUint8 (by decide) (enc x) = enc (BitVec.ofNat 8 (x.toNat % 256)) := by
  refine ⟨?_, ?_, ?_⟩
  · rw [toUint32_enc]; congr 1; apply BitVec.eq_of_toNat_eq; simp
  · rw [toUint8_enc]; congr 1; apply BitVec.eq_of_toNat_eq; simp
  · rw [toUint8_enc]; congr 1; apply BitVec.eq_of_toNat_eq; simp

/-- **C05** (constants): a constant is the word of its value. -/
theorem c05_const (n a : ℕ) : constWord n a = enc (BitVec.ofNat n a) := constWord_eq n a

/-- **C05** (equality assertion): satisfied exactly by equal words. -/
theorem c05_assertEq {n : ℕ} (a b : BitVec n) :
    ((assertEqWord (enc a) (enc b)).Satisfiable ↔ a = b) ∧
    ((assertEqWord (enc a) (enc b)).run = some () ↔ a = b) := by
  have h : (∀ i : Fin n, (enc a)[i] = (enc b)[i]) ↔ a = b := by
    rw [← enc_injective.eq_iff]
    exact ⟨fun h => Vector.ext fun i hi => h ⟨i, hi⟩, fun h _ => by rw [h]⟩
  refine ⟨⟨fun ⟨_, hs⟩ => h.1 hs, fun e => ⟨(), h.2 e⟩⟩, ?_⟩
  rw [assertEqWord, ← h]
  by_cases hp : ∀ i : Fin n, (enc a)[i] = (enc b)[i] <;> simp [Circ.assert, hp]

/-! ## C95: `AsUint8`, `Xor`, `FromUint8`, `FromUint64` -/

theorem asByte {v : Fr} (h : v.val < 256) : asWord 8 v = pure (enc (BitVec.ofNat 8 v.val)) := by
  have := asWord_natCast (n := 8) (v := v.val) (by decide) h
  rwa [ZMod.natCast_zmod_val] at this

theorem asByte_fail {v : Fr} (h : 256 ≤ v.val) : asWord 8 v = fail := toBinary_of_le (by simpa using h)

/-- **C95, reading a byte.** `AsUint8` is satisfiable exactly for the field elements `0..255`; then its bits are those of the
number and `FromUint8` gives the number back. -/
theorem c95_byte (v : Fr) :
    ((exportedAsUint8 v).Satisfiable ↔ v.val < 256) ∧
    ∀ w, (exportedAsUint8 v).sat w → (∀ i : Fin 8, w[i] = if v.val.testBit i then 1 else 0) ∧ exportedFromUint8 w = v := by
  rcases lt_or_ge v.val 256 with h | h
  · rw [exportedAsUint8, asByte h]
    refine ⟨⟨fun _ => h, fun _ => ⟨_, rfl⟩⟩, fun w hw => ?_⟩
    rw [sat_pure] at hw
    subst hw
    constructor
    · intro i
      have hi := i.isLt
      simp [enc, bit, -BitVec.getLsbD_eq_getElem, BitVec.getLsbD_ofNat]
    · rw [exportedFromUint8, fromWord_enc, BitVec.toNat_ofNat, Nat.mod_eq_of_lt h, ZMod.natCast_zmod_val]
  · rw [exportedAsUint8, asByte_fail h]
    exact ⟨⟨fun ⟨_, h⟩ => h.elim, fun h' => by omega⟩, fun w hw => hw.elim⟩

/-- **C95, exclusive or.** Reading any list of field elements as bytes, combining them with `Xor` and writing the result with
`FromUint8` yields the bitwise exclusive or of the numbers in every satisfying assignment; if one of them is not a byte no
assignment satisfies the constraints. -/
theorem c95_xor (l : List Fr) :
    ((∀ v ∈ l, v.val < 256) →
      (do let ws ← l.mapM exportedAsUint8
          let w ← exportedXor ws
          pure (exportedFromUint8 w)).Exact (((l.map ZMod.val).foldl (· ^^^ ·) 0 : ℕ) : Fr)) ∧
    ((∃ v ∈ l, 256 ≤ v.val) → ¬ (do
          let ws ← l.mapM exportedAsUint8
          let w ← exportedXor ws
          pure (exportedFromUint8 w)).Satisfiable) := by
  constructor
  · intro h
    have hm : l.mapM exportedAsUint8 = pure ((l.map fun v => BitVec.ofNat 8 v.val).map enc) := by
      induction l with
      | nil => rfl
      | cons a l ih =>
        rw [List.mapM_cons, exportedAsUint8, asByte (h a (List.mem_cons_self ..)), pure_bind,
          ih fun v hv => h v (List.mem_cons_of_mem _ hv), pure_bind]
        rfl
    have hx : ∀ (l : List Fr) (a : BitVec 8), (∀ v ∈ l, v.val < 256) →
        ((l.map fun v => BitVec.ofNat 8 v.val).foldl (· ^^^ ·) a).toNat = (l.map ZMod.val).foldl (· ^^^ ·) a.toNat := by
      intro l
      induction l with
      | nil => intro a _; rfl
      | cons b l ih =>
        intro a h
        have hb := h b (List.mem_cons_self ..)
        rw [List.map_cons, List.foldl_cons, ih _ fun v hv => h v (List.mem_cons_of_mem _ hv), List.map_cons, List.foldl_cons,
          BitVec.toNat_xor, BitVec.toNat_ofNat, Nat.mod_eq_of_lt hb]
    rw [hm, pure_bind, exportedXor, wXor_enc, pure_bind, exact_iff_pure, exportedFromUint8, fromWord_enc, bvXor, hx l _ h]
    rfl
  · intro h
    have hm : l.mapM exportedAsUint8 = fail := by
      induction l with
      | nil => simp at h
      | cons a p ih =>
        rw [List.mapM_cons]
        obtain ⟨v, hv, hlt⟩ := h
        rcases List.mem_cons.1 hv with rfl | hv
        · rw [exportedAsUint8, asByte_fail hlt, fail_bind]
        · rw [ih ⟨v, hv, hlt⟩]
          exact eq_fail fun a ha => by simp at ha
    rw [not_satisfiable_iff, hm, fail_bind]

/-- **C95, 64-bit words.** `FromUint64` of the bits of a number below `2^64` is that number; distinct numbers stay distinct. -/
theorem c95_word (a b : ℕ) (ha : a < 2 ^ 64) (hb : b < 2 ^ 64) :
    exportedFromUint64 (constWord 64 a) = (a : Fr) ∧
    (exportedFromUint64 (constWord 64 a) = exportedFromUint64 (constWord 64 b) ↔ a = b) := by
  have key : ∀ c, c < 2 ^ 64 → exportedFromUint64 (constWord 64 c) = (c : Fr) := fun c hc => by
    rw [exportedFromUint64, constWord_eq, fromWord_enc, BitVec.toNat_ofNat, Nat.mod_eq_of_lt hc]
  refine ⟨key a ha, ?_⟩
  rw [key a ha, key b hb]
  refine ⟨fun e => ?_, fun e => by rw [e]⟩
  have h64 : 2 ^ 64 < frOrder := by decide +kernel
  have := congrArg ZMod.val e
  rwa [ZMod.val_natCast_of_lt (by omega), ZMod.val_natCast_of_lt (by omega)] at this

example : ([0x5a, 0xff, 0x0f] : List ℕ).foldl (· ^^^ ·) 0 = 0xaa := by decide

end Spark.Sha

namespace Spark.CurveProps
open Spark Circ Spec G2 TwistPoints

/-- Once at infinity, some prover stays at infinity through every later iteration. -/
theorem scalarLoop_stuck {P Q : ETwist Fp} {t0 t1 : G2Jacobian Fp} (h0 : JacOf P t0.X t0.Y t0.Z)
    (h1 : JacOf Q t1.X t1.Y t1.Z) (hP : P ≠ 0) (hQ : Q ≠ 0) (l : List ℕ) :
    ∀ res : G2Jacobian Fp, res.Z = 0 → ∃ r, (l.foldlM (scalarStep t0 t1) res).sat r ∧ r.Z = 0 := by
  induction l with
  | nil => intro res h; exact ⟨res, rfl, h⟩
  | cons j l ih =>
    intro res h
    have hd := jacDouble_inf (jacDouble_inf h)
    obtain ⟨a, ha, haz, -⟩ := c44_infinity_lie hd h0 hP
    obtain ⟨b, hb, hbz, -⟩ := c44_infinity_lie hd h1 hQ
    have : ∃ s, (scalarStep t0 t1 res j).sat s ∧ s.Z = 0 := by
      simp only [scalarStep]
      split
      · exact ⟨a, ha, haz⟩
      split
      · exact ⟨b, hb, hbz⟩
      split
      · exact ⟨a, ha, haz⟩
      split
      · exact ⟨a, ha, haz⟩
      · exact ⟨_, rfl, hd⟩
    obtain ⟨s, hs, hz⟩ := this
    obtain ⟨r, hr, hrz⟩ := ih s hz
    exact ⟨r, by rw [List.foldlM_cons]; exact ⟨s, hs, hr⟩, hrz⟩

/-- **C45, negative half.**  Outside the subgroup of order `r` multiplication by the seed is not forced: the twist has a
point of order 13, whose multiple by `15132376222941642752` is not infinity, and a prover may claim that it is. -/
theorem c45_lie : ∃ P : ETwist Fp, addOrderOf P = 13 ∧ 15132376222941642752 • P ≠ 0 ∧
    ∀ p : G2Jacobian Fp, JacOf P p.X p.Y p.Z → ∃ r, (constScalarMul p).sat r ∧ r.Z = 0 ∧
      ¬ JacOf (15132376222941642752 • P) r.X r.Y r.Z := by
  have : Fact (Nat.Prime 13) := ⟨by norm_num⟩
  have : Finite (ETwist Fp) := Nat.finite_of_card_ne_zero (by rw [twist_card]; decide +kernel)
  obtain ⟨P, hP⟩ := exists_prime_addOrderOf_dvd_card' (G := ETwist Fp) 13 (by rw [twist_card]; decide +kernel)
  have hN : ∀ m, 0 < m → m < 13 → m • P ≠ 0 := fun m h0 h1 e => by
    have := Nat.le_of_dvd h0 (addOrderOf_dvd_of_nsmul_eq_zero e)
    omega
  have hk : 15132376222941642752 • P ≠ 0 := fun e => by
    have := addOrderOf_dvd_of_nsmul_eq_zero e
    rw [hP] at this
    revert this; decide
  refine ⟨P, hP, hk, fun p hp => ?_⟩
  have h1 : P ≠ 0 := by simpa using hN 1 (by omega) (by omega)
  have h2 : P + P ≠ 0 := by rw [← two_nsmul]; exact hN 2 (by omega) (by omega)
  have hd : JRep (P + P) (jacDouble p) := jacDouble_rep hp
  obtain ⟨r3, e3, j3⟩ := jacAdd_honest hd hp
  have j3' : JRep (3 • P) r3 := by
    rw [show 3 = 1 + 1 + 1 from rfl, add_nsmul, add_nsmul, one_nsmul]; exact j3
  obtain ⟨r13, e13, j13⟩ := scalarStep_honest hp hd j3' 1
  have hz : r13.Z = 0 := by
    rw [JacOf.Z_eq_zero_iff j13, show mulStep 3 1 = 13 from rfl, ← hP]
    exact addOrderOf_nsmul_eq_zero P
  obtain ⟨r, hr, hrz⟩ := scalarLoop_stuck hp hd h1 h2 (List.range' 2 30) r13 hz
  refine ⟨r, ⟨r3, Circ.ok _ _ e3, ?_⟩, hrz, fun h => hk ((JacOf.Z_eq_zero_iff h).1 hrz)⟩
  change ((1 :: List.range' 2 30).foldlM (scalarStep p (jacDouble p)) r3).sat r
  rw [List.foldlM_cons]
  exact ⟨r13, Circ.ok _ _ e13, hr⟩

end Spark.CurveProps

namespace Spark.HonestProps
open Spark Circ Spec Circuit Pairing PairingProps CircuitProps GroupProps ExceptionProps HashProps CurveProps
open scoped BigOperators

/-- **C64 from the bytes on.**  Unless the two mapped points are equal or their sum is sent to infinity, the honest hash of a
32-byte message is the cofactor-cleared sum, a non-zero point of order `r`. -/
theorem c64_message {msg : Vector Fips.Byte 32} {u0 u1 : E2 Fp} {ψ : ETwist Fp →+ ETwist Fp} (hψ : IsPsi ψ)
    (hu : Rfc.hashToFieldFp2 msg.toList (Rfc.ascii Rfc.dstString) 2 = some [u0, u1]) (h0 : u0 ≠ 0) (h1 : u1 ≠ 0) :
    ∃ Q0 Q1 : ETwist Fp, CodeMapsTo u0 Q0 ∧ CodeMapsTo u1 Q1 ∧ (Q0 ≠ Q1 → budroniPintore ψ (Q0 + Q1) ≠ 0 →
      (G2.hashToG2 (msgVars msg)).run = some (enc2 (budroniPintore ψ (Q0 + Q1))) ∧
      rOrder • budroniPintore ψ (Q0 + Q1) = 0) := by
  obtain ⟨Q0, Q1, m0, m1, -, h, -⟩ := (c92_hash hψ hu).2 h0 h1
  refine ⟨Q0, Q1, m0, m1, fun hne hb => ?_⟩
  obtain ⟨q, -, hq, hr⟩ := h hb
  refine ⟨by rw [hr hne, enc2_pt hq], ?_⟩
  obtain rfl := c48_unique hψ G2.isPsi_psiHom
  exact TwistPoints.bp_order _

/-- **C91 from the bytes of the message on.**  `Q0`, `Q1` are the points the code maps the two field elements of the
message to, `ψ` the endomorphism of the twist and `H` the cofactor-cleared sum: unless the message is exceptional (a zero
field element, equal points, `H` infinite), a transaction whose signature `S` is of order `r` is accepted with honest hints
exactly when weight, commitment and `S = (∑ sk)•H` are right and the Miller value is not exceptional. -/
theorem c91_message {mode : Mode} {pub : TxPublic} {priv : TxPrivate} (sk : Fin 10 → ℕ)
    (hk : ∀ i, Denotes (priv.publicKeys i) (sk i • G1gen)) (hb : ∀ i, priv.bitList i = 0 ∨ priv.bitList i = 1)
    (hg : GeneralPosition (fun i => sk i • G1gen) fun i => priv.bitList i = 1)
    (hmode : ExactAggregation mode priv.bitList)
    (hsk : ¬ rOrder ∣ secretSum sk fun i => priv.bitList i = 1) {msg : Vector Fips.Byte 32}
    (hmsg : priv.msgBytes = msgVars msg) {u0 u1 : E2 Fp} {ψ : ETwist Fp →+ ETwist Fp} (hψ : IsPsi ψ)
    (hu : Rfc.hashToFieldFp2 msg.toList (Rfc.ascii Rfc.dstString) 2 = some [u0, u1]) (h0 : u0 ≠ 0) (h1 : u1 ≠ 0) :
    ∃ Q0 Q1 : ETwist Fp, CodeMapsTo u0 Q0 ∧ CodeMapsTo u1 Q1 ∧
      ∀ H, H = budroniPintore ψ (Q0 + Q1) → Q0 ≠ Q1 → H ≠ 0 →
      ∀ S : ETwist Fp, priv.signature = newG2Affine (enc2 S) → S ≠ 0 → rOrder • S = 0 →
      ∃ z, millerLoop [enc1 (-G1gen), enc1 (signersSum (fun i => sk i • G1gen) fun i => priv.bitList i = 1)]
          [enc2 S, enc2 H] = .ok (pure z) ∧
        ((txDefine mode pub priv).run = some () ↔
          pub.signedWeight = (∑ i, if priv.bitList i = 1 then priv.weights i else 0) ∧
          IsCommitment (fun i => (priv.publicKeys i).X) (fun i => (priv.publicKeys i).Y) priv.weights
            pub.apkCommitment ∧
          S = aggregateSignature sk (fun i => priv.bitList i = 1) H ∧ ¬ Exceptional z) := by
  obtain ⟨Q0, Q1, m0, m1, h⟩ := c64_message hψ hu h0 h1
  refine ⟨Q0, Q1, m0, m1, fun H hH hne hH0 S hS hS0 hSr => ?_⟩
  subst hH
  obtain ⟨e, hr⟩ := h hne hH0
  exact c91_transaction sk hk hb hg hmode hsk S _ (by rw [hmsg]; exact e) hH0 hr hS hS0 hSr

end Spark.HonestProps
