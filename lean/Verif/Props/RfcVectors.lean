import Verif.Props.RfcHash
import Verif.Data.RfcVector

/-!
# Published test vectors of RFC 9380, for the specification

The specifications in Spec/Rfc9380, Spec/MapToCurve and Spec/HashToCurve, evaluated on vectors of Appendices K.1 and J.10.1.
These are tests of the specification that C07, C08 and C97 are stated against, not claims: the tags are those of the RFC, not the
one this code uses.
-/

namespace Spark.RfcVector
open Spark Circ Spec NC G2 Rfc Fips HashProps HonestProps TwistPoints
set_option maxRecDepth 100000
set_option exponentiation.threshold 10000

/-! ## K.1: expand_message_xmd with SHA-256 -/

/-- the tag of Appendix K.1 -/
def dstK1 : List Byte := ascii "QUUX-V01-CS02-with-expander-SHA256-128"
/-- `DST_prime` -/
def dstK1' : List Byte := dstK1 ++ I2OSP dstK1.length 1

theorem expand_short {msg d0 d1 : List Byte} (h0 : sha256 (I2OSP 0 64 ++ msg ++ I2OSP 32 2 ++ I2OSP 0 1 ++ dstK1') = d0)
    (h1 : sha256 (d0 ++ I2OSP 1 1 ++ dstK1') = d1) (hl : d1.length = 32) : expandMessageXmd msg dstK1 32 = some d1 := by
  have hd : ¬ (255 < (32 + 31) / 32 ∨ 65535 < 32 ∨ 255 < dstK1.length) := by decide +kernel
  rw [expandMessageXmd]
  dsimp only
  rw [if_neg hd, show dstK1 ++ I2OSP dstK1.length 1 = dstK1' from rfl, h0,
    show List.range ((32 + 31) / 32) = [0] by decide]
  simp only [List.flatMap_cons, List.flatMap_nil, List.append_nil]
  rw [show bVal d0 dstK1' 0 = d1 from h1, List.take_of_length_le hl.le]

/-- Appendix K.1, `msg = ""`, `len_in_bytes = 0x20`. -/
theorem expand_vector_empty : expandMessageXmd (ascii "") dstK1 0x20 = some
    (I2OSP 0x68a985b87eb6b46952128911f2a4412bbc302a9d759667f87f7a21d803f07235 32) :=
  expand_short (d0 := I2OSP 0xc03a123444760612c093292a7a6b01ca6ceca5163d0552649f07e91c7e8c6a23 32) (by rw [← sha256T_eq 2 _ (by decide +kernel)]; decide +kernel)
    (by rw [← sha256T_eq 2 _ (by decide +kernel)]; decide +kernel) (by decide +kernel)

/-- Appendix K.1, `msg = "abc"`, `len_in_bytes = 0x20`. -/
theorem expand_vector_abc : expandMessageXmd (ascii "abc") dstK1 0x20 = some
    (I2OSP 0xd8ccab23b5985ccea865c6c97b6e5b8350e794e603b4b97902f53a8a0d605615 32) :=
  expand_short (d0 := I2OSP 0x77ad56c16b22030bb618241e422f48b883a5d3941a07fa67a7bde8b01b982024 32) (by rw [← sha256T_eq 2 _ (by decide +kernel)]; decide +kernel)
    (by rw [← sha256T_eq 2 _ (by decide +kernel)]; decide +kernel) (by decide +kernel)

/-! ## J.10.1: BLS12381G2_XMD:SHA-256_SSWU_RO_ -/

/-- the tag of Appendix J.10.1 -/
def dstJ : List Byte := ascii "QUUX-V01-CS02-with-BLS12381G2_XMD:SHA-256_SSWU_RO_"
/-- `DST_prime` -/
def dstJ' : List Byte := dstJ ++ I2OSP dstJ.length 1

theorem j_b0 : sha256 (I2OSP 0 64 ++ ascii "" ++ I2OSP 256 2 ++ I2OSP 0 1 ++ dstJ') = digest0 := by
  rw [← sha256T_eq 2 _ (by decide +kernel)]; decide +kernel
theorem j_b1 : sha256 (digest0 ++ I2OSP 1 1 ++ dstJ') = digest1 := by
  rw [← sha256T_eq 2 _ (by decide +kernel)]; decide +kernel
theorem j_b2 : sha256 (strxor digest0 digest1 ++ I2OSP 2 1 ++ dstJ') = digest2 := by
  rw [← sha256T_eq 2 _ (by decide +kernel)]; decide +kernel
theorem j_b3 : sha256 (strxor digest0 digest2 ++ I2OSP 3 1 ++ dstJ') = digest3 := by
  rw [← sha256T_eq 2 _ (by decide +kernel)]; decide +kernel
theorem j_b4 : sha256 (strxor digest0 digest3 ++ I2OSP 4 1 ++ dstJ') = digest4 := by
  rw [← sha256T_eq 2 _ (by decide +kernel)]; decide +kernel
theorem j_b5 : sha256 (strxor digest0 digest4 ++ I2OSP 5 1 ++ dstJ') = digest5 := by
  rw [← sha256T_eq 2 _ (by decide +kernel)]; decide +kernel
theorem j_b6 : sha256 (strxor digest0 digest5 ++ I2OSP 6 1 ++ dstJ') = digest6 := by
  rw [← sha256T_eq 2 _ (by decide +kernel)]; decide +kernel
theorem j_b7 : sha256 (strxor digest0 digest6 ++ I2OSP 7 1 ++ dstJ') = digest7 := by
  rw [← sha256T_eq 2 _ (by decide +kernel)]; decide +kernel
theorem j_b8 : sha256 (strxor digest0 digest7 ++ I2OSP 8 1 ++ dstJ') = digest8 := by
  rw [← sha256T_eq 2 _ (by decide +kernel)]; decide +kernel

/-- the expanded message -/
def bytesJ : List Byte :=
  digest1 ++ (digest2 ++ (digest3 ++ (digest4 ++ (digest5 ++ (digest6 ++ (digest7 ++ digest8))))))

theorem j_expand : expandMessageXmd (ascii "") dstJ 256 = some bytesJ := by
  rw [expandMessageXmd]
  have hd : ¬ (255 < (256 + 31) / 32 ∨ 65535 < 256 ∨ 255 < dstJ.length) := by decide +kernel
  dsimp only
  rw [if_neg hd, show dstJ ++ I2OSP dstJ.length 1 = dstJ' from rfl, j_b0]
  have b1 : bVal digest0 dstJ' 0 = digest1 := j_b1
  have b2 : bVal digest0 dstJ' 1 = digest2 := by rw [bVal, b1]; exact j_b2
  have b3 : bVal digest0 dstJ' 2 = digest3 := by rw [bVal, b2]; exact j_b3
  have b4 : bVal digest0 dstJ' 3 = digest4 := by rw [bVal, b3]; exact j_b4
  have b5 : bVal digest0 dstJ' 4 = digest5 := by rw [bVal, b4]; exact j_b5
  have b6 : bVal digest0 dstJ' 5 = digest6 := by rw [bVal, b5]; exact j_b6
  have b7 : bVal digest0 dstJ' 6 = digest7 := by rw [bVal, b6]; exact j_b7
  have b8 : bVal digest0 dstJ' 7 = digest8 := by rw [bVal, b7]; exact j_b8
  have hr : List.range ((256 + 31) / 32) = [0, 1, 2, 3, 4, 5, 6, 7] := by decide
  rw [hr]
  simp only [List.flatMap_cons, List.flatMap_nil, b1, b2, b3, b4, b5, b6, b7, b8, List.append_nil]
  rw [List.take_of_length_le (by decide +kernel)]
  rfl

/-- `u[0]` of the vector -/
def u0 : N2 :=
  (0x03dbc2cce174e91ba93cbb08f26b917f98194a2ea08d1cce75b2b9cc9f21689d80bd79b594a613d0a68eb807dfdc1cf8,
   0x05a2acec64114845711a54199ea339abd125ba38253b70a92c876df10598bd1986b739cad67961eb94f7076511b3b39a)
/-- `u[1]` of the vector -/
def u1 : N2 :=
  (0x02f99798e8a5acdeed60d7e18e9120521ba1f47ec090984662846bc825de191b5b7641148c0dbc237726a334473eee94,
   0x145a81e418d4010cc027a68f14391b30074e89e60ee7a22f87217b2f6eb0c4b94c9115b436e6fa4607e95a98de30a435)
/-- `P` of the vector -/
def pJ : NPt :=
  ((0x0141ebfbdca40eb85b87142e130ab689c673cf60f1a3e98d69335266f30d9b8d4ac44c1038e9dcdd5393faf5c41fb78a,
    0x05cb8437535e20ecffaef7752baddf98034139c38452458baeefab379ba13dff5bf5dd71b72418717047f5b0f37da03d),
   (0x0503921d7f6a12805e72940b963c0cf3471c7b2a524950ca195d11062ee75ec076daf2d4bc358c4b190c0c98064fdd92,
    0x12424ac32561493f3fe3c260708a12b7c620e7be00099a974e259ddc7d1f6395c3c811cdd19f1e8dbf3e9ecfdcbab8d6))

/-- Appendix J.10.1, `msg = ""`: `hash_to_field`. -/
theorem field_vector : hashToFieldFp2 (ascii "") dstJ 2 = some [e2 u0, e2 u1] := by
  rw [hashToFieldFp2, show 2 * 2 * 64 = 256 from rfl, j_expand, Option.map_some]
  have h0 : ((OS2IP (chunk 64 (2 * 0) bytesJ) : ℕ) : Fp) = u0.1 := cast_of_mod (by decide +kernel)
  have h1 : ((OS2IP (chunk 64 (2 * 0 + 1) bytesJ) : ℕ) : Fp) = u0.2 := cast_of_mod (by decide +kernel)
  have h2 : ((OS2IP (chunk 64 (2 * 1) bytesJ) : ℕ) : Fp) = u1.1 := cast_of_mod (by decide +kernel)
  have h3 : ((OS2IP (chunk 64 (2 * 1 + 1) bytesJ) : ℕ) : Fp) = u1.2 := cast_of_mod (by decide +kernel)
  have hr : List.range 2 = [0, 1] := by decide
  rw [hr, List.map_cons, List.map_cons, List.map_nil, h0, h1, h2, h3]
  rfl

theorem j_hash : nHash u0 y0 u1 y1 = some pJ := by decide +kernel

/-- Appendix J.10.1, `msg = ""`: `hash_to_curve` returns exactly the published point. -/
theorem curve_vector (H : ETwist Fp) : HashesTo (ascii "") dstJ H ↔ IsPt H pJ := by
  obtain ⟨d0, d1, s0, s1, hQ, -⟩ := nHash_spec j_hash
  have t0 := noTie_of s0 (by decide +kernel)
  have t1 := noTie_of s1 (by decide +kernel)
  obtain ⟨x0, y0', x1, y1', Q0, Q1, c0, c1, q0, q1, -⟩ := hashTail_run d0 d1
  have k0 := codeMapsTo_of c0 q0
  have k1 := codeMapsTo_of c1 q1
  have hp : IsPt (hEff • (Q0 + Q1)) pJ := by
    rw [← c97_clear_cofactor isPsi_psiHom]
    exact (hQ Q0 Q1 k0 k1).2.2.2
  have hh : HashesTo (ascii "") dstJ (hEff • (Q0 + Q1)) :=
    ⟨_, _, Q0, Q1, field_vector, c57_map_rfc t0 k0, c57_map_rfc t1 k1, rfl⟩
  have hu := (c97_spec (ascii "") dstJ (by decide +kernel)).1
  constructor
  · intro h
    rw [hu.unique h hh]
    exact hp
  · intro h
    rw [Pt.ext h hp]
    exact hh

end Spark.RfcVector
