import Verif.Math.Fp
import Mathlib.Data.Matrix.Mul

/-!
# Poseidon, specification

The textbook permutation of the Poseidon paper (eprint 2019/458, §2) over the BN254 scalar field, with
the round constants and the Cauchy MDS matrix produced by the Grain LFSR of the paper's appendix
(`generate_parameters_grain` of the authors' reference code), `R_F = 8` full rounds and S-box `x⁵`.
-/

namespace Spark.PosSpec

/-! ## The Grain LFSR -/

/-- `n` bits of `v`, most significant first -/
def beBits (n v : ℕ) : List Bool := (List.range n).map fun i => v.testBit (n - 1 - i)

/-- initial content of the 80-bit register: prime field (1), S-box `x^α` (0), field size 254, width,
numbers of full and partial rounds, thirty ones -/
def initState (t rp : ℕ) : List Bool :=
  beBits 2 1 ++ beBits 4 0 ++ beBits 12 254 ++ beBits 12 t ++ beBits 10 8 ++ beBits 10 rp ++
    List.replicate 30 true

/-- the LFSR sequence: the first 80 terms are the initial register, every further term is
`b₀ ⊕ b₁₃ ⊕ b₂₃ ⊕ b₃₈ ⊕ b₅₁ ⊕ b₆₂` of the 80 terms before it -/
def lfsr (t rp : ℕ) (i : ℕ) : Bool :=
  if h : i < 80 then (initState t rp).getD i false
  else
    lfsr t rp (i - 80) ^^ lfsr t rp (i - 80 + 13) ^^ lfsr t rp (i - 80 + 23) ^^
      lfsr t rp (i - 80 + 38) ^^ lfsr t rp (i - 80 + 51) ^^ lfsr t rp (i - 80 + 62)
termination_by i

/-- the self-shrinking output, from the first `N` pairs: the first 160 new terms are discarded, then
of every pair the second bit is output when the first one is 1 -/
def output (t rp N : ℕ) : List Bool :=
  (List.range N).filterMap fun k =>
    if lfsr t rp (240 + 2 * k) then some (lfsr t rp (240 + 2 * k + 1)) else none

/-- big-endian number -/
def beNat (l : List Bool) : ℕ := l.foldl (fun a b => 2 * a + b.toNat) 0

/-- the successive complete 254-bit blocks of a bit string -/
def blocks (l : List Bool) : List ℕ :=
  (List.range (l.length / 254)).map fun j => beNat ((l.drop (254 * j)).take 254)

/-- the first `k` blocks below `q`, and the blocks after the last of them -/
def accept (q : ℕ) : ℕ → List ℕ → Option (List ℕ × List ℕ)
  | 0, bs => some ([], bs)
  | _+1, [] => none
  | k+1, b :: bs => if b < q then (accept q k bs).map fun p => (b :: p.1, p.2) else accept q (k+1) bs

/-- round constants (rejection sampling) and Cauchy points (not rejected) for width `t` and `rp` partial
rounds, if the first `N` clock pairs of the generator suffice -/
def reference (t rp N : ℕ) : Option (List ℕ × List ℕ) :=
  (accept frOrder ((8 + rp) * t) (blocks (output t rp N))).bind fun p =>
    if 2 * t ≤ p.2.length then some (p.1, p.2.take (2 * t)) else none

/-! ## The permutation -/

variable {t : ℕ}

/-- round constant of round `k`, position `i` -/
def rc (consts : List ℕ) (k : ℕ) (i : Fin t) : Fr := ((consts.getD (t * k + i) 0 : ℕ) : Fr)

/-- Cauchy matrix `1 / (xᵢ + yⱼ)` -/
def cauchy (points : List ℕ) : Matrix (Fin t) (Fin t) Fr := fun i j =>
  (((points.getD i 0 : ℕ) : Fr) + ((points.getD (t + j) 0 : ℕ) : Fr))⁻¹

/-- full round: add constants, S-box everywhere, MDS matrix -/
def fullRound (M : Matrix (Fin t) (Fin t) Fr) (k x : Fin t → Fr) : Fin t → Fr :=
  M.mulVec fun i => (x i + k i) ^ 5

/-- partial round: add constants, S-box on the first element only, MDS matrix -/
def partialRound (M : Matrix (Fin t) (Fin t) Fr) (k x : Fin t → Fr) : Fin t → Fr :=
  M.mulVec fun i => if (i : ℕ) = 0 then (x i + k i) ^ 5 else x i + k i

/-- round number `k` of `8 + rp`: four full, `rp` partial, four full -/
def round (M : Matrix (Fin t) (Fin t) Fr) (consts : List ℕ) (rp : ℕ) (x : Fin t → Fr) (k : ℕ) :
    Fin t → Fr :=
  if 4 ≤ k ∧ k < 4 + rp then partialRound M (rc consts k) x else fullRound M (rc consts k) x

/-- the Poseidon permutation -/
def permutation (consts points : List ℕ) (rp : ℕ) (x : Fin t → Fr) : Fin t → Fr :=
  (List.range (8 + rp)).foldl (round (cauchy points) consts rp) x

/-- numbers of partial rounds for `n = 1, …, 16` inputs (circomlib / paper, table 2) -/
def partialRounds : List ℕ := [56, 57, 56, 60, 60, 63, 64, 63, 60, 66, 60, 65, 70, 60, 64, 68]

end Spark.PosSpec
