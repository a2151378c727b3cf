import Verif.Props.HashG2Examples
import Verif.Props.RfcHash
import Verif.Data.EncodeWitness

/-! A concrete case of `EncodeToG2`, the message `00 01 … 1f`, evaluated in the kernel: its field element has no sign tie and
is mapped to a point that cofactor clearing does not send to infinity. -/

namespace Spark.Instances
set_option maxRecDepth 100000
set_option exponentiation.threshold 10000
open Spark NC Circ Spec Rfc Fips G2 HashProps CurveProps

theorem enc_b0 : sha256 (I2OSP 0 64 ++ exMsg.toList ++ I2OSP 128 2 ++ I2OSP 0 1 ++ exDst) = encDigest0 := by
  rw [exMsg_list, ← sha256T_eq 3 _ (by decide +kernel)]; decide +kernel
theorem enc_b1 : sha256 (encDigest0 ++ I2OSP 1 1 ++ exDst) = encDigest1 := by
  rw [← sha256T_eq 2 _ (by decide +kernel)]; decide +kernel
theorem enc_b2 : sha256 (strxor encDigest0 encDigest1 ++ I2OSP 2 1 ++ exDst) = encDigest2 := by
  rw [← sha256T_eq 2 _ (by decide +kernel)]; decide +kernel
theorem enc_b3 : sha256 (strxor encDigest0 encDigest2 ++ I2OSP 3 1 ++ exDst) = encDigest3 := by
  rw [← sha256T_eq 2 _ (by decide +kernel)]; decide +kernel
theorem enc_b4 : sha256 (strxor encDigest0 encDigest3 ++ I2OSP 4 1 ++ exDst) = encDigest4 := by
  rw [← sha256T_eq 2 _ (by decide +kernel)]; decide +kernel

/-- the expanded message -/
def encBytes : List Byte := encDigest1 ++ (encDigest2 ++ (encDigest3 ++ encDigest4))

theorem enc_expand : expandMessageXmd exMsg.toList (ascii dstString) 128 = some encBytes := by
  rw [expandMessageXmd]
  have hd : ¬ (255 < (128 + 31) / 32 ∨ 65535 < 128 ∨ 255 < (ascii dstString).length) := by decide +kernel
  dsimp only
  rw [if_neg hd]
  have hb := enc_b0
  rw [exDst] at hb
  rw [hb]
  rw [← exDst]
  have b1 : bVal encDigest0 exDst 0 = encDigest1 := enc_b1
  have b2 : bVal encDigest0 exDst 1 = encDigest2 := by rw [bVal, b1]; exact enc_b2
  have b3 : bVal encDigest0 exDst 2 = encDigest3 := by rw [bVal, b2]; exact enc_b3
  have b4 : bVal encDigest0 exDst 3 = encDigest4 := by rw [bVal, b3]; exact enc_b4
  have hr : List.range ((128 + 31) / 32) = [0, 1, 2, 3] := by decide
  rw [hr]
  simp only [List.flatMap_cons, List.flatMap_nil, b1, b2, b3, b4, List.append_nil]
  rw [List.take_of_length_le (by decide +kernel)]
  rfl

/-- `hash_to_field` of the example message, one element -/
theorem enc_hash_to_field : hashToFieldFp2 exMsg.toList (ascii dstString) 1 = some [e2 encU] := by
  rw [hashToFieldFp2, show 1 * 2 * 64 = 128 from rfl, enc_expand, Option.map_some]
  have h0 : ((OS2IP (chunk 64 (2 * 0) encBytes) : ℕ) : Fp) = encU.1 := cast_of_mod (by decide +kernel)
  have h1 : ((OS2IP (chunk 64 (2 * 0 + 1) encBytes) : ℕ) : Fp) = encU.2 := cast_of_mod (by decide +kernel)
  have hr : List.range 1 = [0] := by decide
  rw [hr, List.map_cons, List.map_nil, h0, h1]
  rfl

theorem enc_some : ((nMap encU encY).bind nCof).isSome = true := by decide +kernel

theorem enc_swu : Rfc.den (e2 encU) ≠ 0 ∧ NoSignTie (e2 encU) ∧
    ∀ Q, CodeMapsTo (e2 encU) Q → AffineDefined psiHom Q := by
  obtain ⟨R, hR⟩ := Option.isSome_iff_exists.1 enc_some
  obtain ⟨T, hT, hR⟩ := Option.bind_eq_some_iff.1 hR
  obtain ⟨s, d, -, m⟩ := nMap_spec hT
  refine ⟨d, noTie_of s (by decide +kernel), fun Q hQ => ?_⟩
  obtain ⟨x, y, a, b, c, q⟩ := hQ
  have p := m ⟨a, b, fun hh => by rw [Nat.testBit_zero, Nat.testBit_zero, c hh]⟩ q
  exact (nCof_spec p hR).1

end Spark.Instances
