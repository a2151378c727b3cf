import Verif.Spec.Sha256
import Verif.Math.Fp
import Verif.Math.Tower

/-!
# RFC 9380 (hashing to elliptic curves), byte-level part, specification

`expand_message_xmd` with SHA-256 (§5.3.1) and `hash_to_field` for Fp2 (§5.2).
-/

namespace Spark.Rfc

open Fips

/-- §4, I2OSP of RFC 8017: `len` big-endian bytes of `n`. -/
def I2OSP (n len : ℕ) : List Byte := beBytes len n

/-- §4, OS2IP of RFC 8017: big-endian bytes to integer. -/
def OS2IP (bs : List Byte) : ℕ := bs.foldl (fun acc b => acc * 256 + b.toNat) 0

/-- §4: bytewise exclusive or. -/
def strxor (a b : List Byte) : List Byte := List.zipWith (· ^^^ ·) a b

/-- §5.3.1, steps 7-10: `b_(i+1)`. -/
def bVal (b0 dstPrime : List Byte) : ℕ → List Byte
  | 0 => sha256 (b0 ++ I2OSP 1 1 ++ dstPrime)
  | i+1 => sha256 (strxor b0 (bVal b0 dstPrime i) ++ I2OSP (i + 2) 1 ++ dstPrime)

/-- §5.3.1: `expand_message_xmd(msg, DST, len_in_bytes)` with `H = SHA-256`
(`b_in_bytes = 32`, `s_in_bytes = 64`); `none` is ABORT. -/
def expandMessageXmd (msg dst : List Byte) (lenInBytes : ℕ) : Option (List Byte) :=
  let ell := (lenInBytes + 31) / 32
  if 255 < ell ∨ 65535 < lenInBytes ∨ 255 < dst.length then none
  else
    let dstPrime := dst ++ I2OSP dst.length 1
    let zPad := I2OSP 0 64
    let msgPrime := zPad ++ msg ++ I2OSP lenInBytes 2 ++ I2OSP 0 1 ++ dstPrime
    let b0 := sha256 msgPrime
    some (((List.range ell).flatMap (bVal b0 dstPrime)).take lenInBytes)

/-- the `k`-th chunk of `L` bytes -/
def chunk (L k : ℕ) (bs : List Byte) : List Byte := (bs.drop (L * k)).take L

/-- §5.2: `hash_to_field(msg, count)` for `F = Fp2` (`m = 2`, `L = 64`). -/
def hashToFieldFp2 (msg dst : List Byte) (count : ℕ) : Option (List (E2 Fp)) :=
  (expandMessageXmd msg dst (count * 2 * 64)).map fun bs =>
    (List.range count).map fun i =>
      (⟨(OS2IP (chunk 64 (2 * i) bs) : Fp), (OS2IP (chunk 64 (2 * i + 1) bs) : Fp)⟩ : E2 Fp)

/-- domain separation tag of the Ethereum-style proof-of-possession ciphersuite used by the code,
`BLS_SIG_BLS12381G2_XMD:SHA-256_SSWU_RO_POP_` -/
def dstString : String := "BLS_SIG_BLS12381G2_XMD:SHA-256_SSWU_RO_POP_"

/-- ASCII bytes of a string -/
def ascii (s : String) : List Byte := s.toList.map fun c => BitVec.ofNat 8 c.toNat

end Spark.Rfc
