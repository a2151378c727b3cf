import Verif.Model.Sha256
import Verif.Math.Tower

/-!
# Model of `ExpandMsgXmd` and `HashToField` (`/repo/spark/pairing_bls12381/hashG2.go`)
-/

namespace Spark.H2C

open Circ Sha

/-- hashG2.go:19, 36 `DOMAIN_SEPERATOR`, `DST`: the bytes of the tag. -/
def dst : List ℕ := "BLS_SIG_BLS12381G2_XMD:SHA-256_SSWU_RO_POP_".toList.map Char.toNat

/-- hashG2.go:42 `SizeDomain`. -/
def sizeDomain : ℕ := 43

/-- hashG2.go:40 `L`. -/
def L : ℕ := 64

/-- `d := sha256.New(api); d.Write(p); d.Sum()` (hashG2.go:69-71, 84-86, 111-113). -/
def hash (p : List Fr) : Circ (List Fr) := do
  let d ← Digest.new.Write p
  let (out, _) ← d.Sum
  pure out

/-- hashG2.go:100-102: xor of two byte variables. -/
def xorByte (a b : Fr) : Circ Fr := do
  let bb0 ← asWord 8 a
  let bb1 ← asWord 8 b
  let x ← wXor [bb0, bb1]
  pure (fromWord x)

/-- a Go `uint8` conversion of an `int`, as a circuit constant (hashG2.go:53-67, 78-82, 93, 105-109) -/
def u8 (n : ℕ) : Fr := ((n % 256 : ℕ) : Fr)

/-- `DST[i]` for `i < 43` as circuit constants (hashG2.go:63-65, 79-81, 106-108). -/
def dstVars : List Fr := (dst.take 43).map fun c : ℕ => (c : Fr)

/-- Go `copy(dst[lo:hi], src)` (hashG2.go:115). -/
def copyInto (dst : List Fr) (lo hi : ℕ) (src : List Fr) : List Fr :=
  dst.take lo ++ src.take (min (hi - lo) src.length) ++ dst.drop (lo + min (hi - lo) src.length)

/-- hashG2.go:98-116: the loop over `i = 2 … ell`; state `(b1, pseudoRandomBytes)`.
`b0[j], b1[j]` for `j < 32` is modelled by zipping the two digests (`Sum` returns 32 values). -/
def expandLoop (b0 : List Fr) (lenInBytes : ℕ) (s : List Fr × List Fr) (i : ℕ) :
    Circ (List Fr × List Fr) := do
  let x ← (b0.zip s.1).mapM fun ab => xorByte ab.1 ab.2
  let b1 ← hash (x ++ [u8 i] ++ dstVars ++ [u8 sizeDomain])
  pure (b1, copyInto s.2 (32 * (i - 1)) (min (32 * i) lenInBytes) b1)

/-- hashG2.go:46-119 `ExpandMsgXmd(api, msg, count)`.  For `count = 0` the write
`pseudoRandomBytes[0] = b1[0]` (line 90) panics. -/
def expandMsgXmd (msg : Vector Fr 32) (count : ℕ) : Circ (List Fr) := do
  let lenInBytes := count * L
  let ell := (lenInBytes + 32 - 1) / 32
  let b0 ← hash (List.replicate 64 (u8 0) ++ msg.toList ++ [u8 (lenInBytes >>> 8), u8 lenInBytes, u8 0]
    ++ dstVars ++ [u8 sizeDomain])
  let b1 ← hash (b0 ++ [u8 1] ++ dstVars ++ [u8 sizeDomain])
  if lenInBytes < 32 then fail
  else do
    let prb := b1 ++ List.replicate (lenInBytes - 32) (u8 0)
    let s ← (List.range' 2 (ell - 1)).foldlM (expandLoop b0 lenInBytes) (b1, prb)
    pure s.2

/-- hashG2.go:130-140 `GetUint64From8Bytes`: byte `j` supplies bits `64-8(j+1) … 64-8j-1`. -/
def getUint64From8Bytes (v : List Fr) : Circ Fr := do
  let bs ← v.mapM (toBinary 8)
  pure (fromBinary (bs.reverse.flatMap Vector.toList))

/-- value of limbs, 64 bits each, least significant first: the argument of `RemHint` (hashG2.go:156-171) -/
def limbsVal (l : List Fr) : ℕ := l.foldr (fun x acc => x.val + 2 ^ 64 * acc) 0

/-- hashG2.go:156-171 `GetRawLimbsBy8Uint64`: the remainder modulo `p` comes from the gnark hint
`emulated.RemHint` and *no constraint relates it to the input*.  The returned element is modelled by
its value in `Fp` (limb widths are enforced on use and exclude no value). -/
def getRawLimbsBy8Uint64 (v : List Fr) : Circ Fp := hint (some (limbsVal v : Fp))

/-- hashG2.go:682-686: one iteration of the loop in `HashToField`. -/
def hashToFieldElem (emx : List Fr) (i : ℕ) : Circ Fp := do
  let limbs ← (List.range 8).mapM fun j =>
    getUint64From8Bytes ((emx.drop (64 * (i + 1) - 8 * (j + 1))).take 8)
  getRawLimbsBy8Uint64 limbs

/-- hashG2.go:676-700 `HashToField(api, msg, count)`. -/
def hashToField (msg : Vector Fr 32) (count : ℕ) : Circ (List (E2 Fp)) := do
  let emx ← expandMsgXmd msg count
  let u ← (List.range count).mapM (hashToFieldElem emx)
  pure ((List.range (count / 2)).map fun n => ⟨u.getD (n * 2) 0, u.getD (n * 2 + 1) 0⟩)

end Spark.H2C
