import Verif.Native

/-!
# Model of `/repo/spark/sha256`

Function-by-function model of the SHA-256 gadget.  `xuint8`, `xuint32`, `xuint64` are arrays of
8/32/64 variables; they are modelled by `Word 8`, `Word 32`, `Word 64`.  The three Go files
`uint8api.go`, `uint32api.go` and `uint64api.go` are textually the same up to the width, so the word
gadgets are modelled once, with the width `n` as a parameter.
-/

namespace Spark.Sha

open Circ

/-- uint8api.go:33, uint32api.go:29, uint64api.go:33: `type xuintN [N]frontend.Variable`. -/
abbrev Word (n : ℕ) := Vector Fr n

/-- uint8api.go:35-41, uint32api.go:31-37, uint64api.go:35-41 `constUintN`. -/
def constWord (n : ℕ) (a : ℕ) : Word n := Vector.ofFn fun i => (((a >>> i.val) &&& 1 : ℕ) : Fr)

/-- uint8api.go:47-52, uint32api.go:39-44, uint64api.go:43-48 `asUintN` (`ToBinary` with N digits). -/
def asWord (n : ℕ) (v : Fr) : Circ (Word n) := toBinary n v

/-- uint8api.go:58-60, uint32api.go:46-48, uint64api.go:54-56 `fromUintN`. -/
def fromWord {n : ℕ} (w : Word n) : Fr := fromBinary w.toList

/-- uint8api.go:62-73, uint32api.go:50-61, uint64api.go:58-69 `and(in ...)`. -/
def wAnd {n : ℕ} (ins : List (Word n)) : Circ (Word n) :=
  Vector.ofFnM fun i => ins.foldlM (fun r v => apiAnd r v[i]) 1

/-- uint32api.go:63-74 `or(in ...)`. -/
def wOr {n : ℕ} (ins : List (Word n)) : Circ (Word n) :=
  Vector.ofFnM fun i => ins.foldlM (fun r v => apiOr r v[i]) 0

/-- uint8api.go:79-90, uint32api.go:76-87, uint64api.go:71-82 `xor(in ...)`. -/
def wXor {n : ℕ} (ins : List (Word n)) : Circ (Word n) :=
  Vector.ofFnM fun i => ins.foldlM (fun r v => apiXor r v[i]) 0

/-- Go slice/array indexing with an `int` (uint32api.go:89-118 and the same functions of the other widths): out of range
panics. -/
def goIndex {n : ℕ} (w : Word n) (k : ℤ) : Circ Fr :=
  if h : 0 ≤ k ∧ k.toNat < n then pure w[k.toNat] else fail

/-- uint8api.go:92-98, uint32api.go:89-95, uint64api.go:84-90 `lrot(in, shift)`: bit `i` is
`in[(i-shift+N)%N]` (Go `%` truncates towards zero). -/
def lrot {n : ℕ} (w : Word n) (shift : ℤ) : Circ (Word n) :=
  Vector.ofFnM fun i => goIndex w (((i.val : ℤ) - shift + n).tmod n)

/-- uint8api.go:100-111, uint32api.go:97-108, uint64api.go:92-103 `not(in)`: `Xor(in[i], 1)`. -/
def wNot {n : ℕ} (w : Word n) : Circ (Word n) := Vector.ofFnM fun i => apiXor w[i] 1

/-- uint32api.go:110-119, uint64api.go:111-120 `rshift(in, shift)`; a shift above the width indexes
out of range. -/
def rshift {n : ℕ} (w : Word n) (shift : ℕ) : Circ (Word n) :=
  if shift ≤ n then
    pure (Vector.ofFn fun i => if h : i.val < n - shift then w[i.val + shift]'(by omega) else 0)
  else fail

/-- uint32api.go:121-130, uint64api.go:122-131 `lshift(in, shift)`. -/
def lshift {n : ℕ} (w : Word n) (shift : ℕ) : Circ (Word n) :=
  if shift ≤ n then
    pure (Vector.ofFn fun i => if h : i.val < shift then 0 else w[i.val - shift]'(by omega))
  else fail

/-- uint32api.go:132-144 `add(i1, i2, in...)`: sum over the field, `33+len(in)` bits, keep 32. -/
def wAdd (i1 i2 : Word 32) (ins : List (Word 32)) : Circ (Word 32) := do
  let sum := (ins.map fromWord).foldl (· + ·) (fromWord i1 + fromWord i2)
  let b ← toBinary (33 + ins.length) sum
  pure (Vector.ofFn fun i : Fin 32 => b[i.val]'(by omega))

/-- uint8api.go:113-117, uint32api.go:146-150, uint64api.go:105-109 `assertEq`. -/
def assertEqWord {n : ℕ} (a b : Word n) : Circ Unit := assert (∀ i : Fin n, a[i] = b[i])

/-- uint8api.go:119-128 `toUint32`: zero-extension. -/
def toUint32 (a : Word 8) : Word 32 := Vector.ofFn fun i => if h : i.val < 8 then a[i.val] else 0

/-- uint32api.go:152-158 `toUnit8`, uint64api.go:133-139 `toxUnit8`: the low 8 bits. -/
def toUint8 {n : ℕ} (h : 8 ≤ n) (w : Word n) : Word 8 := Vector.ofFn fun i => w[i.val]'(by omega)

/-- bigEndian.go:26-37 `PutUint32(api, b, v)`; returns the updated slice, panics if it is shorter
than 4. -/
def putUint32 (b : List (Word 8)) (v : Word 32) : Circ (List (Word 8)) :=
  if b.length < 4 then fail
  else do
    let b0 ← rshift v 24
    let b1 ← rshift v 16
    let b2 ← rshift v 8
    pure ([toUint8 (by decide) b0, toUint8 (by decide) b1, toUint8 (by decide) b2,
      toUint8 (by decide) v] ++ b.drop 4)

/-- bigEndian.go:5-24 `PutUint64(api, b, v)`. -/
def putUint64 (b : List (Word 8)) (v : Word 64) : Circ (List (Word 8)) :=
  if b.length < 8 then fail
  else do
    let b0 ← rshift v 56
    let b1 ← rshift v 48
    let b2 ← rshift v 40
    let b3 ← rshift v 32
    let b4 ← rshift v 24
    let b5 ← rshift v 16
    let b6 ← rshift v 8
    pure ([toUint8 (by decide) b0, toUint8 (by decide) b1, toUint8 (by decide) b2,
      toUint8 (by decide) b3, toUint8 (by decide) b4, toUint8 (by decide) b5,
      toUint8 (by decide) b6, toUint8 (by decide) v] ++ b.drop 8)

/-- sha256block.go:7-72 `_K`. -/
def kTable : Vector ℕ 64 := #v[
  0x428a2f98, 0x71374491, 0xb5c0fbcf, 0xe9b5dba5, 0x3956c25b, 0x59f111f1, 0x923f82a4, 0xab1c5ed5,
  0xd807aa98, 0x12835b01, 0x243185be, 0x550c7dc3, 0x72be5d74, 0x80deb1fe, 0x9bdc06a7, 0xc19bf174,
  0xe49b69c1, 0xefbe4786, 0x0fc19dc6, 0x240ca1cc, 0x2de92c6f, 0x4a7484aa, 0x5cb0a9dc, 0x76f988da,
  0x983e5152, 0xa831c66d, 0xb00327c8, 0xbf597fc7, 0xc6e00bf3, 0xd5a79147, 0x06ca6351, 0x14292967,
  0x27b70a85, 0x2e1b2138, 0x4d2c6dfc, 0x53380d13, 0x650a7354, 0x766a0abb, 0x81c2c92e, 0x92722c85,
  0xa2bfe8a1, 0xa81a664b, 0xc24b8b70, 0xc76c51a3, 0xd192e819, 0xd6990624, 0xf40e3585, 0x106aa070,
  0x19a4c116, 0x1e376c08, 0x2748774c, 0x34b0bcb5, 0x391c0cb3, 0x4ed8aa4a, 0x5b9cca4f, 0x682e6ff3,
  0x748f82ee, 0x78a5636f, 0x84c87814, 0x8cc70208, 0x90befffa, 0xa4506ceb, 0xbef9a3f7, 0xc67178f2]

/-- the eight words `h0 … h7` / `a … h` of sha256block.go:82,107. -/
structure HState where
  (a b c d e f g h : Word 32)

/-- sha256block.go:86-96: load sixteen big-endian words of the current chunk into `w[0..15]`. -/
def loadStep (p : Vector (Word 8) 64) (w : Vector (Word 32) 64) (i : Fin 16) :
    Circ (Vector (Word 32) 64) := do
  let o1 ← lshift (toUint32 (p[4 * i.val]'(by omega))) 24
  let o2 ← lshift (toUint32 (p[4 * i.val + 1]'(by omega))) 16
  let o3 ← lshift (toUint32 (p[4 * i.val + 2]'(by omega))) 8
  let o4 := toUint32 (p[4 * i.val + 3]'(by omega))
  let r ← wOr [o1, o2, o3, o4]
  pure (w.set i.val r (by omega))

/-- sha256block.go:98-105: message expansion, `i = k+16`. -/
def expandStep (w : Vector (Word 32) 64) (k : Fin 48) : Circ (Vector (Word 32) 64) := do
  let v1 := w[k.val + 14]'(by omega)
  let t1 ← wXor [← lrot v1 (-17), ← lrot v1 (-19), ← rshift v1 10]
  let v2 := w[k.val + 1]'(by omega)
  let t2 ← wXor [← lrot v2 (-7), ← lrot v2 (-18), ← rshift v2 3]
  let r ← wAdd t1 (w[k.val + 9]'(by omega)) [t2, w[k.val]'(by omega)]
  pure (w.set (k.val + 16) r (by omega))

/-- sha256block.go:109-130: one round. -/
def roundStep (w : Vector (Word 32) 64) (s : HState) (i : Fin 64) : Circ HState := do
  let x1 ← wXor [← lrot s.e (-6), ← lrot s.e (-11), ← lrot s.e (-25)]
  let x2 ← wXor [← wAnd [s.e, s.f], ← wAnd [← wNot s.e, s.g]]
  let t1 ← wAdd s.h x1 [x2, constWord 32 kTable[i], w[i]]
  let x3 ← wXor [← lrot s.a (-2), ← lrot s.a (-13), ← lrot s.a (-22)]
  let x4 ← wXor [← wAnd [s.a, s.b], ← wAnd [s.a, s.c], ← wAnd [s.b, s.c]]
  let t2 ← wAdd x3 x4 []
  let e' ← wAdd s.d t1 []
  let a' ← wAdd t1 t2 []
  pure { a := a', b := s.a, c := s.b, d := s.c, e := e', f := s.e, g := s.f, h := s.g }

/-- sha256block.go:86-139: one iteration of the chunk loop. -/
def chunkStep (w : Vector (Word 32) 64) (s : HState) (p : Vector (Word 8) 64) :
    Circ (Vector (Word 32) 64 × HState) := do
  let w ← (List.finRange 16).foldlM (loadStep p) w
  let w ← (List.finRange 48).foldlM expandStep w
  let v ← (List.finRange 64).foldlM (roundStep w) s
  let a ← wAdd s.a v.a []
  let b ← wAdd s.b v.b []
  let c ← wAdd s.c v.c []
  let d ← wAdd s.d v.d []
  let e ← wAdd s.e v.e []
  let f ← wAdd s.f v.f []
  let g ← wAdd s.g v.g []
  let h ← wAdd s.h v.h []
  pure (w, { a, b, c, d, e, f, g, h })

/-- sha256block.go:83-142: `for len(p) >= chunk { … p = p[chunk:] }`. -/
def chunkLoop (w : Vector (Word 32) 64) (s : HState) (p : List (Word 8)) : Circ HState :=
  if h : 64 ≤ p.length then do
    let (w, s) ← chunkStep w s ⟨(p.take 64).toArray, by simp [h]⟩
    chunkLoop w s (p.drop 64)
  else pure s
termination_by p.length
decreasing_by simp; omega

/-- sha256block.go:74-145 `blockGeneric(dig, p)`.  The 64 identical `asUint32(0)` calls that
initialise `w` (lines 78-80) are modelled by one call. -/
def blockGeneric (s : HState) (p : List (Word 8)) : Circ HState := do
  let z ← asWord 32 0
  chunkLoop (Vector.replicate 64 z) s p

/-- sha256.go:25-32 `type digest struct`. -/
structure Digest where
  h : HState
  x : Vector (Word 8) 64
  nx : ℕ
  len : ℕ

/-- sha256.go:14-23, 34-46 initial words / `Reset`. -/
def initH : HState where
  a := constWord 32 0x6A09E667
  b := constWord 32 0xBB67AE85
  c := constWord 32 0x3C6EF372
  d := constWord 32 0xA54FF53A
  e := constWord 32 0x510E527F
  f := constWord 32 0x9B05688C
  g := constWord 32 0x1F83D9AB
  h := constWord 32 0x5BE0CD19

/-- sha256.go:34-46 `Reset`. -/
def Digest.reset (d : Digest) : Digest := { d with h := initH, nx := 0, len := 0 }

/-- sha256.go:48-56 `New`.  The Go buffer starts as nil variables; entries at or above `nx` are never
read, the model fills them with zeros. -/
def Digest.new : Digest :=
  Digest.reset { h := initH, x := Vector.replicate 64 (Vector.replicate 8 0), nx := 0, len := 0 }

/-- Go `copy(x[off:], p)` (sha256.go:74, 90): the new array and the number of copied elements. -/
def goCopy (x : Vector (Word 8) 64) (off : ℕ) (p : List (Word 8)) : Vector (Word 8) 64 × ℕ :=
  let n := min (64 - off) p.length
  (Vector.ofFn fun i => if off ≤ i.val ∧ i.val < off + n then p.getD (i.val - off) x[i] else x[i], n)

/-- sha256.go:73-79: first part of `write`, filling the buffer. -/
def fillBuf (d : Digest) (p : List (Word 8)) : Circ (Digest × List (Word 8)) :=
  if 0 < d.nx then do
    let (x, n) := goCopy d.x d.nx p
    let nx := d.nx + n
    if nx = 64 then do
      let h ← blockGeneric d.h x.toList
      pure ({ d with h := h, x := x, nx := 0 }, p.drop n)
    else pure ({ d with x := x, nx := nx }, p.drop n)
  else pure (d, p)

/-- sha256.go:69-94 `write(p)`. `len` is a `uint64`. -/
def Digest.write (d : Digest) (p : List (Word 8)) : Circ Digest := do
  let d := { d with len := (d.len + p.length) % 2 ^ 64 }
  let (d, p) ← fillBuf d p
  let (d, p) ← (if 64 ≤ p.length then do
      let n := p.length - p.length % 64
      let h ← blockGeneric d.h (p.take n)
      pure ({ d with h := h }, p.drop n)
    else pure (d, p) : Circ (Digest × List (Word 8)))
  if 0 < p.length then
    let (x, n) := goCopy d.x 0 p
    pure { d with x := x, nx := n }
  else pure d

/-- sha256.go:59-67 `Write(p)`: every variable is decomposed into 8 bits. -/
def Digest.Write (d : Digest) (p : List Fr) : Circ Digest := do
  let ins ← p.mapM (asWord 8)
  d.write ins

/-- sha256.go:104-148 `checkSum`. -/
def Digest.checkSum (d : Digest) : Circ (List Fr) := do
  let len := d.len
  let tmp := constWord 8 0x80 :: List.replicate 63 (constWord 8 0)
  let d ← (if len % 64 < 56 then d.write (tmp.take (56 - len % 64))
          else d.write (tmp.take (64 + 56 - len % 64)) : Circ Digest)
  let len : ℕ := (len <<< 3) % 2 ^ 64
  let tmp ← putUint64 tmp (← asWord 64 (len : Fr))
  let d ← d.write (tmp.take 8)
  if d.nx ≠ 0 then fail
  else do
    let dig := List.replicate 32 (Vector.replicate 8 0)
    let dig ← putUint32 dig d.h.a
    let dig ← (dig.take 4 ++ ·) <$> putUint32 (dig.drop 4) d.h.b
    let dig ← (dig.take 8 ++ ·) <$> putUint32 (dig.drop 8) d.h.c
    let dig ← (dig.take 12 ++ ·) <$> putUint32 (dig.drop 12) d.h.d
    let dig ← (dig.take 16 ++ ·) <$> putUint32 (dig.drop 16) d.h.e
    let dig ← (dig.take 20 ++ ·) <$> putUint32 (dig.drop 20) d.h.f
    let dig ← (dig.take 24 ++ ·) <$> putUint32 (dig.drop 24) d.h.g
    let dig ← (dig.take 28 ++ ·) <$> putUint32 (dig.drop 28) d.h.h
    pure (dig.map fromWord)

/-- sha256.go:96-102 `Sum`: works on a copy of the digest, so the caller's state is returned
unchanged together with the digest bytes. -/
def Digest.Sum (d : Digest) : Circ (List Fr × Digest) := do
  let hash ← d.checkSum
  pure (hash, d)

end Spark.Sha
