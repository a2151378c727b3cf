import Verif.Lemmas.HashEval
import Verif.Data.HashWitness

/-! Concrete cases of `HashToG2`, evaluated in the kernel: the non-vacuity of C52, C57 and C59, the
concrete failure of the RFC sign rule, and two different points reachable for the same message. -/

namespace Spark.G2
set_option maxRecDepth 100000
set_option exponentiation.threshold 10000
open NC Circ Spec Rfc Fips

/-- the message `00 01 … 1f` -/
def exMsg : Vector Byte 32 := Vector.ofFn fun i => BitVec.ofNat 8 i.val

theorem exMsg_list : exMsg.toList = (List.range 32).map (BitVec.ofNat 8) := by decide +kernel

/-- `DST_prime` -/
def exDst : List Byte := ascii dstString ++ I2OSP (ascii dstString).length 1

/-- the SHA-256 chain of `expand_message_xmd` -/
theorem ex_b0 : sha256 (I2OSP 0 64 ++ exMsg.toList ++ I2OSP 256 2 ++ I2OSP 0 1 ++ exDst) = exDigest0 := by
  rw [exMsg_list, ← sha256T_eq 3 _ (by decide +kernel)]; decide +kernel
theorem ex_b1 : sha256 (exDigest0 ++ I2OSP 1 1 ++ exDst) = exDigest1 := by
  rw [← sha256T_eq 2 _ (by decide +kernel)]; decide +kernel
theorem ex_b2 : sha256 (strxor exDigest0 exDigest1 ++ I2OSP 2 1 ++ exDst) = exDigest2 := by
  rw [← sha256T_eq 2 _ (by decide +kernel)]; decide +kernel
theorem ex_b3 : sha256 (strxor exDigest0 exDigest2 ++ I2OSP 3 1 ++ exDst) = exDigest3 := by
  rw [← sha256T_eq 2 _ (by decide +kernel)]; decide +kernel
theorem ex_b4 : sha256 (strxor exDigest0 exDigest3 ++ I2OSP 4 1 ++ exDst) = exDigest4 := by
  rw [← sha256T_eq 2 _ (by decide +kernel)]; decide +kernel
theorem ex_b5 : sha256 (strxor exDigest0 exDigest4 ++ I2OSP 5 1 ++ exDst) = exDigest5 := by
  rw [← sha256T_eq 2 _ (by decide +kernel)]; decide +kernel
theorem ex_b6 : sha256 (strxor exDigest0 exDigest5 ++ I2OSP 6 1 ++ exDst) = exDigest6 := by
  rw [← sha256T_eq 2 _ (by decide +kernel)]; decide +kernel
theorem ex_b7 : sha256 (strxor exDigest0 exDigest6 ++ I2OSP 7 1 ++ exDst) = exDigest7 := by
  rw [← sha256T_eq 2 _ (by decide +kernel)]; decide +kernel
theorem ex_b8 : sha256 (strxor exDigest0 exDigest7 ++ I2OSP 8 1 ++ exDst) = exDigest8 := by
  rw [← sha256T_eq 2 _ (by decide +kernel)]; decide +kernel

/-- the expanded message -/
def exBytes : List Byte :=
  exDigest1 ++ (exDigest2 ++ (exDigest3 ++ (exDigest4 ++ (exDigest5 ++ (exDigest6 ++ (exDigest7 ++ exDigest8))))))

theorem ex_expand : expandMessageXmd exMsg.toList (ascii dstString) 256 = some exBytes := by
  rw [expandMessageXmd]
  have hd : ¬ (255 < (256 + 31) / 32 ∨ 65535 < 256 ∨ 255 < (ascii dstString).length) := by decide +kernel
  dsimp only
  rw [if_neg hd]
  have hb := ex_b0
  rw [exDst] at hb
  rw [hb]
  have v1 := ex_b1; have v2 := ex_b2; have v3 := ex_b3; have v4 := ex_b4
  have v5 := ex_b5; have v6 := ex_b6; have v7 := ex_b7; have v8 := ex_b8
  rw [← exDst]
  have b1 : bVal exDigest0 exDst 0 = exDigest1 := v1
  have b2 : bVal exDigest0 exDst 1 = exDigest2 := by rw [bVal, b1]; exact v2
  have b3 : bVal exDigest0 exDst 2 = exDigest3 := by rw [bVal, b2]; exact v3
  have b4 : bVal exDigest0 exDst 3 = exDigest4 := by rw [bVal, b3]; exact v4
  have b5 : bVal exDigest0 exDst 4 = exDigest5 := by rw [bVal, b4]; exact v5
  have b6 : bVal exDigest0 exDst 5 = exDigest6 := by rw [bVal, b5]; exact v6
  have b7 : bVal exDigest0 exDst 6 = exDigest7 := by rw [bVal, b6]; exact v7
  have b8 : bVal exDigest0 exDst 7 = exDigest8 := by rw [bVal, b7]; exact v8
  have hr : List.range ((256 + 31) / 32) = [0, 1, 2, 3, 4, 5, 6, 7] := by decide
  rw [hr]
  simp only [List.flatMap_cons, List.flatMap_nil, b1, b2, b3, b4, b5, b6, b7, b8, List.append_nil]
  rw [List.take_of_length_le (by decide +kernel)]
  rfl

theorem cast_of_mod {n m : ℕ} (h : n % fpOrder = m % fpOrder) : (n : Fp) = (m : Fp) :=
  (ZMod.natCast_eq_natCast_iff' _ _ _).2 h

/-- `hash_to_field` of the example message -/
theorem ex_hash_to_field :
    hashToFieldFp2 exMsg.toList (ascii dstString) 2 = some [e2 exU0, e2 exU1] := by
  rw [hashToFieldFp2, show 2 * 2 * 64 = 256 from rfl, ex_expand, Option.map_some]
  have h0 : ((OS2IP (chunk 64 (2 * 0) exBytes) : ℕ) : Fp) = exU0.1 := cast_of_mod (by decide +kernel)
  have h1 : ((OS2IP (chunk 64 (2 * 0 + 1) exBytes) : ℕ) : Fp) = exU0.2 := cast_of_mod (by decide +kernel)
  have h2 : ((OS2IP (chunk 64 (2 * 1) exBytes) : ℕ) : Fp) = exU1.1 := cast_of_mod (by decide +kernel)
  have h3 : ((OS2IP (chunk 64 (2 * 1 + 1) exBytes) : ℕ) : Fp) = exU1.2 := cast_of_mod (by decide +kernel)
  have hr : List.range 2 = [0, 1] := by decide
  rw [hr, List.map_cons, List.map_cons, List.map_nil, h0, h1, h2, h3]
  rfl

/-- the point of the twist for `u` with SWU ordinate `y` -/
def nMap (u y : N2) : Option NPt := if swuCheck u y then nIso (nX u y) y else none

theorem nMap_spec {u y : N2} {T : NPt} (h : nMap u y = some T) : swuCheck u y = true ∧
    Rfc.den (e2 u) ≠ 0 ∧ (∃ Q : ETwist Fp, IsPt Q T) ∧
    ∀ {x' y' : E2 Fp} {Q : ETwist Fp}, CodeSswu (e2 u) x' y' →
      Pt Q (Rfc.isoMapX x') (Rfc.isoMapY x' y') → IsPt Q T := by
  rw [nMap] at h
  split at h
  · next hc =>
    obtain ⟨hX, hY⟩ := nIso_spec h
    refine ⟨hc, (swuCheck_spec hc).1, ?_, ?_⟩
    · obtain ⟨Q, hQ⟩ := iso_point (swuCheck_spec hc).2.2.1
      exact ⟨Q, hQ.congr hX hY⟩
    · intro x' y' Q hs hQ
      obtain ⟨rfl, rfl⟩ := codeSswu_unique hc hs
      exact hQ.congr hX hY
  · cases h

/-- the whole computation after `hash_to_field` -/
def nHash (u0 y0 u1 y1 : N2) : Option NPt := do
  let T0 ← nMap u0 y0
  let T1 ← nMap u1 y1
  let T ← addP T0 T1
  nCof T

theorem nHash_spec {u0 y0 u1 y1 : N2} {R : NPt} (h : nHash u0 y0 u1 y1 = some R) :
    Rfc.den (e2 u0) ≠ 0 ∧ Rfc.den (e2 u1) ≠ 0 ∧ swuCheck u0 y0 = true ∧ swuCheck u1 y1 = true ∧
    (∀ Q0 Q1 : ETwist Fp, HashProps.CodeMapsTo (e2 u0) Q0 → HashProps.CodeMapsTo (e2 u1) Q1 →
      Q0 ≠ Q1 ∧ Q0 ≠ -Q1 ∧ CurveProps.AffineDefined psiHom (Q0 + Q1) ∧ IsPt (bp (Q0 + Q1)) R) ∧
    (hashTail [e2 u0, e2 u1]).run = some ⟨e2 R.1, e2 R.2⟩ := by
  simp only [nHash, Option.bind_eq_bind, Option.bind_eq_some_iff] at h
  obtain ⟨T0, h0, T1, h1, T, hT, hR⟩ := h
  obtain ⟨s0, d0, -, m0⟩ := nMap_spec h0
  obtain ⟨s1, d1, -, m1⟩ := nMap_spec h1
  refine ⟨d0, d1, s0, s1, ?_, ?_⟩
  · rintro Q0 Q1 ⟨x0, y0', a0, b0, c0, q0⟩ ⟨x1, y1', a1, b1, c1, q1⟩
    have conv : ∀ a b : ℕ, a % 2 = b % 2 → a.testBit 0 = b.testBit 0 := by
      intro a b hab; rw [Nat.testBit_zero, Nat.testBit_zero, hab]
    have p0 := m0 ⟨a0, b0, fun hh => conv _ _ (c0 hh)⟩ q0
    have p1 := m1 ⟨a1, b1, fun hh => conv _ _ (c1 hh)⟩ q1
    have ne := addP_ne p0 p1 hT
    have hc := nCof_spec (add_spec p0 p1 hT) hR
    exact ⟨ne.1, ne.2, hc.1, hc.2⟩
  · obtain ⟨x0, y0', x1, y1', Q0, Q1, c0, c1, q0, q1, -, -, a⟩ := hashTail_run d0 d1
    have p0 := m0 c0 q0
    have p1 := m1 c1 q1
    have ne := addP_ne p0 p1 hT
    have hc := nCof_spec (add_spec p0 p1 hT) hR
    obtain ⟨q, hq, hp⟩ := a ne.1 (fun e => ne.2 (eq_neg_of_add_eq_zero_left e)) hc.1.affOk
    rw [hq]
    obtain ⟨e1, e2⟩ := Pt.unique hp hc.2
    obtain ⟨qx, qy⟩ := q
    simp only at e1 e2
    rw [e1, e2]

theorem ex_some : (nHash exU0 exY0 exU1 exY1).isSome = true := by decide +kernel
theorem exAB_some : (nHash exUA exYA exUB exYB).isSome = true := by decide +kernel
theorem ex_ne_AB : (nHash exU0 exY0 exU1 exY1).map (fun T => (T.1.1 % fpOrder)) ≠
    (nHash exUA exYA exUB exYB).map (fun T => (T.1.1 % fpOrder)) := by decide +kernel
theorem exI_check : swuCheck exUI exYI = true := by decide +kernel

end Spark.G2
