import Mathlib.Tactic.Common
import Mathlib.Tactic.NormNum

/-!
# SHA-256 (FIPS 180-4), specification

Written from the standard, independently of the circuit code.  Words are `BitVec 32`, messages are
lists of bytes.
-/

namespace Spark.Fips

/-- a byte -/
abbrev Byte := BitVec 8
/-- a 32-bit word -/
abbrev W32 := BitVec 32

/-- FIPS 180-4 §3.2: rotate right. -/
def ROTR (n : ℕ) (x : W32) : W32 := (x >>> n) ||| (x <<< (32 - n))
/-- FIPS 180-4 §3.2: shift right. -/
def SHR (n : ℕ) (x : W32) : W32 := x >>> n

/-- §4.1.2 (4.2) -/
def Ch (x y z : W32) : W32 := (x &&& y) ^^^ (~~~x &&& z)
/-- §4.1.2 (4.3) -/
def Maj (x y z : W32) : W32 := (x &&& y) ^^^ (x &&& z) ^^^ (y &&& z)
/-- §4.1.2 (4.4) -/
def bigSigma0 (x : W32) : W32 := ROTR 2 x ^^^ ROTR 13 x ^^^ ROTR 22 x
/-- §4.1.2 (4.5) -/
def bigSigma1 (x : W32) : W32 := ROTR 6 x ^^^ ROTR 11 x ^^^ ROTR 25 x
/-- §4.1.2 (4.6) -/
def smallSigma0 (x : W32) : W32 := ROTR 7 x ^^^ ROTR 18 x ^^^ SHR 3 x
/-- §4.1.2 (4.7) -/
def smallSigma1 (x : W32) : W32 := ROTR 17 x ^^^ ROTR 19 x ^^^ SHR 10 x

/-- §4.2.2: the constants `K_0 … K_63`. -/
def K : List ℕ :=
  [0x428a2f98, 0x71374491, 0xb5c0fbcf, 0xe9b5dba5, 0x3956c25b, 0x59f111f1, 0x923f82a4, 0xab1c5ed5,
   0xd807aa98, 0x12835b01, 0x243185be, 0x550c7dc3, 0x72be5d74, 0x80deb1fe, 0x9bdc06a7, 0xc19bf174,
   0xe49b69c1, 0xefbe4786, 0x0fc19dc6, 0x240ca1cc, 0x2de92c6f, 0x4a7484aa, 0x5cb0a9dc, 0x76f988da,
   0x983e5152, 0xa831c66d, 0xb00327c8, 0xbf597fc7, 0xc6e00bf3, 0xd5a79147, 0x06ca6351, 0x14292967,
   0x27b70a85, 0x2e1b2138, 0x4d2c6dfc, 0x53380d13, 0x650a7354, 0x766a0abb, 0x81c2c92e, 0x92722c85,
   0xa2bfe8a1, 0xa81a664b, 0xc24b8b70, 0xc76c51a3, 0xd192e819, 0xd6990624, 0xf40e3585, 0x106aa070,
   0x19a4c116, 0x1e376c08, 0x2748774c, 0x34b0bcb5, 0x391c0cb3, 0x4ed8aa4a, 0x5b9cca4f, 0x682e6ff3,
   0x748f82ee, 0x78a5636f, 0x84c87814, 0x8cc70208, 0x90befffa, 0xa4506ceb, 0xbef9a3f7, 0xc67178f2]

/-- §5.3.3: the initial hash value. -/
def H0 : List ℕ :=
  [0x6a09e667, 0xbb67ae85, 0x3c6ef372, 0xa54ff53a, 0x510e527f, 0x9b05688c, 0x1f83d9ab, 0x5be0cd19]

/-- the first 64 primes -/
def primes64 : List ℕ := (List.range 312).filter fun n => 2 ≤ n ∧ ∀ d ∈ List.range n, 2 ≤ d → n % d ≠ 0

/-- Sanity check of the transcription, as in the standard: `K_i` is the first 32 bits of the
fractional part of the cube root of the `i`-th prime. -/
theorem K_are_cube_roots : primes64.length = 64 ∧ K.length = 64 ∧
    ∀ i ∈ List.range 64, ∃ q ∈ List.range 7,
      (q * 2 ^ 32 + K[i]!) ^ 3 ≤ primes64[i]! * 2 ^ 96 ∧
      primes64[i]! * 2 ^ 96 < (q * 2 ^ 32 + K[i]! + 1) ^ 3 := by decide +kernel

/-- `H0_i` is the first 32 bits of the fractional part of the square root of the `i`-th prime. -/
theorem H0_are_square_roots : ∀ i ∈ List.range 8, ∃ q ∈ List.range 5,
      (q * 2 ^ 32 + H0[i]!) ^ 2 ≤ primes64[i]! * 2 ^ 64 ∧
      primes64[i]! * 2 ^ 64 < (q * 2 ^ 32 + H0[i]! + 1) ^ 2 := by decide +kernel

/-- big-endian word from four bytes (§3.1) -/
def beWord (b0 b1 b2 b3 : Byte) : W32 := b0 ++ b1 ++ b2 ++ b3

/-- §5.2.1: the `t`-th word (`t < 16`) of a 64-byte block. -/
def blockWord (B : List Byte) (t : ℕ) : W32 :=
  beWord (B.getD (4*t) 0) (B.getD (4*t+1) 0) (B.getD (4*t+2) 0) (B.getD (4*t+3) 0)

/-- §6.2.2 step 1: the message schedule. -/
def W (B : List Byte) (t : ℕ) : W32 :=
  if t < 16 then blockWord B t
  else smallSigma1 (W B (t-2)) + W B (t-7) + smallSigma0 (W B (t-15)) + W B (t-16)
termination_by t

/-- the working variables `a … h` -/
structure Vars where
  (a b c d e f g h : W32)
deriving DecidableEq

/-- §6.2.2 step 3, one round. -/
def round (k w : W32) (s : Vars) : Vars :=
  let T1 := s.h + bigSigma1 s.e + Ch s.e s.f s.g + k + w
  let T2 := bigSigma0 s.a + Maj s.a s.b s.c
  { a := T1 + T2, b := s.a, c := s.b, d := s.c, e := s.d + T1, f := s.e, g := s.f, h := s.g }

/-- §6.2.2 steps 2-3: the working variables after `t` rounds. -/
def rounds (B : List Byte) (s : Vars) : ℕ → Vars
  | 0 => s
  | t+1 => round (BitVec.ofNat 32 (K.getD t 0)) (W B t) (rounds B s t)

/-- §6.2.2 step 4: the intermediate hash value. -/
def compress (H : Vars) (B : List Byte) : Vars :=
  let s := rounds B H 64
  { a := s.a + H.a, b := s.b + H.b, c := s.c + H.c, d := s.d + H.d,
    e := s.e + H.e, f := s.f + H.f, g := s.g + H.g, h := s.h + H.h }

/-- the initial hash value as working variables -/
def initVars : Vars where
  a := 0x6a09e667
  b := 0xbb67ae85
  c := 0x3c6ef372
  d := 0xa54ff53a
  e := 0x510e527f
  f := 0x9b05688c
  g := 0x1f83d9ab
  h := 0x5be0cd19

/-- `k` bytes of the big-endian encoding of `n` -/
def beBytes : ℕ → ℕ → List Byte
  | 0, _ => []
  | k+1, n => BitVec.ofNat 8 (n / 256 ^ k) :: beBytes k n

/-- §5.1.1: the number of zero bytes after the byte `0x80`. -/
def padZeros (len : ℕ) : ℕ := (119 - len % 64) % 64

/-- §5.1.1: padded message (in bytes). -/
def pad (m : List Byte) : List Byte :=
  m ++ [0x80] ++ List.replicate (padZeros m.length) 0 ++ beBytes 8 (8 * m.length)

/-- §5.1.1 sanity: the padded length is a multiple of 64 bytes and the padding is minimal. -/
theorem pad_zeros_min (len : ℕ) : (len + 1 + padZeros len + 8) % 64 = 0 ∧ padZeros len < 64 := by
  unfold padZeros; omega

/-- split into 64-byte blocks (§5.2.1) -/
def blocks (m : List Byte) : List (List Byte) :=
  if 64 ≤ m.length then m.take 64 :: blocks (m.drop 64) else []
termination_by m.length
decreasing_by simp; omega

/-- §6.2.2: SHA-256. -/
def sha256 (m : List Byte) : List Byte :=
  let H := (blocks (pad m)).foldl compress initVars
  [H.a, H.b, H.c, H.d, H.e, H.f, H.g, H.h].flatMap fun w => beBytes 4 w.toNat

end Spark.Fips
