import Verif.Spec.Pairing
import Verif.Spec.Poseidon
import Mathlib.Algebra.BigOperators.Fin

/-!
# Specification: validator sets

What the transaction and rotation circuits are supposed to establish, in terms of the ten keys, weights and
signing bits only.
-/

namespace Spark.Spec

open Spark

/-- `h` is the textbook Poseidon hash of `xs`: constants and matrix from the Grain LFSR for width
`length + 1`, state `(0, xs)`, first element of the permuted state. -/
def IsPoseidon (xs : List Fr) (h : Fr) : Prop :=
  1 ≤ xs.length ∧ ∃ (rp N : ℕ) (consts points : List ℕ),
    PosSpec.partialRounds[xs.length - 1]? = some rp ∧
    PosSpec.reference (xs.length + 1) rp N = some (consts, points) ∧
    h = PosSpec.permutation consts points rp
      (Fin.cons 0 fun i : Fin xs.length => xs[i] : Fin (xs.length + 1) → Fr) 0

/-- `c` is the commitment to ten validators with key limbs `x i`, `y i` and weights `w i`:
`H(H(H(x₀), H(y₀), w₀), …, H(H(x₉), H(y₉), w₉))`. -/
def IsCommitment (x y : Fin 10 → Fin 6 → Fr) (w : Fin 10 → Fr) (c : Fr) : Prop :=
  ∃ hx hy m : Fin 10 → Fr, (∀ i, IsPoseidon (List.ofFn (x i)) (hx i)) ∧
    (∀ i, IsPoseidon (List.ofFn (y i)) (hy i)) ∧ (∀ i, IsPoseidon [hx i, hy i, w i] (m i)) ∧
    IsPoseidon (List.ofFn m) c

/-- the inputs hashed while computing that commitment -/
inductive HashedFor (x y : Fin 10 → Fin 6 → Fr) (w : Fin 10 → Fr) : List Fr → Prop
  | keyX (i : Fin 10) : HashedFor x y w (List.ofFn (x i))
  | keyY (i : Fin 10) : HashedFor x y w (List.ofFn (y i))
  | validator (i : Fin 10) (a b : Fr) : IsPoseidon (List.ofFn (x i)) a → IsPoseidon (List.ofFn (y i)) b →
      HashedFor x y w [a, b, w i]
  | all (m : Fin 10 → Fr) :
      (∀ i, ∃ a b, IsPoseidon (List.ofFn (x i)) a ∧ IsPoseidon (List.ofFn (y i)) b ∧
        IsPoseidon [a, b, w i] (m i)) → HashedFor x y w (List.ofFn m)

/-- Two computations of a commitment exhibit a Poseidon collision: one of the inputs hashed for the first and
one of the inputs hashed for the second are different, of equal length, and have the same hash. -/
def Collision (x y : Fin 10 → Fin 6 → Fr) (w : Fin 10 → Fr) (x' y' : Fin 10 → Fin 6 → Fr) (w' : Fin 10 → Fr) :
    Prop :=
  ∃ a b h, HashedFor x y w a ∧ HashedFor x' y' w' b ∧ a ≠ b ∧ a.length = b.length ∧
    IsPoseidon a h ∧ IsPoseidon b h

/-- The contract of iden3's `poseidon.Hash` (go-iden3-crypto), used off-circuit: between 1 and 16 integers below
the field order are hashed, everything else is an error. -/
structure IsIden3Hash (H : List ℕ → Option ℕ) : Prop where
  hash : ∀ xs : List ℕ, 1 ≤ xs.length → xs.length ≤ 16 → (∀ x ∈ xs, x < frOrder) →
    ∃ h, H xs = some h ∧ h < frOrder ∧ IsPoseidon (xs.map fun x : ℕ => (x : Fr)) (h : Fr)
  error : ∀ xs : List ℕ, (xs.length = 0 ∨ 16 < xs.length ∨ ∃ x ∈ xs, frOrder ≤ x) → H xs = none

open Classical in
/-- the sum of the keys of the signers -/
noncomputable def signersSum (K : Fin 10 → E1 Fp) (signs : Fin 10 → Prop) : E1 Fp :=
  ∑ i, if signs i then K i else 0

/-- No chord addition is degenerate when the signers' keys are added from left to right: the sum of the earlier
signers is neither the next signer's key nor its negative. -/
def GeneralPosition (K : Fin 10 → E1 Fp) (signs : Fin 10 → Prop) : Prop :=
  ∀ i, signs i → (∃ j, j < i ∧ signs j) →
    signersSum K (fun j => j < i ∧ signs j) ≠ K i ∧ signersSum K (fun j => j < i ∧ signs j) ≠ -K i

end Spark.Spec
