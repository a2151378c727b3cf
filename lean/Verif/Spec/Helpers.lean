import Verif.Props.Groups

/-!
# Specification for C68-C72: key sets given by ten secret keys
-/

namespace Spark.HelperProps
open Spark Circ Spec Circuit Pairing PairingProps CircuitProps GroupProps
open scoped BigOperators
set_option maxRecDepth 100000

/-- the Poseidon commitment to the keys `sk i • G1gen` and weights `w i`, as the circuit computes it -/
def CommitmentOf (sk w : Fin 10 → ℕ) (c : ℕ) : Prop :=
  IsCommitment (fun i => (newG1Affine (enc1 (sk i • G1gen))).X) (fun i => (newG1Affine (enc1 (sk i • G1gen))).Y)
    (fun i => (w i : Fr)) (c : Fr)

/-- `sk', w', b'` arise from `sk, w, b` by replacing the entries in `R` with fresh ones of the right sizes -/
structure Replaced (R : Finset (Fin 10)) (sk w b sk' w' b' : Fin 10 → ℕ) : Prop where
  same : ∀ i, i ∉ R → sk' i = sk i ∧ w' i = w i ∧ b' i = b i
  fresh : ∀ i ∈ R, sk' i < 2 ^ 230 ∧ w' i < 2 ^ 10 ∧ b' i < 2

/-- the sum of the secret keys whose bit, read as a 64-bit integer, is 1 -/
def signedSecret : List ℕ → List ℕ → ℕ
  | s :: sk, b :: bits => (if b % 2 ^ 64 = 1 then s else 0) + signedSecret sk bits
  | _, _ => 0

end Spark.HelperProps
