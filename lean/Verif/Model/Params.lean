import Verif.Math.GroupOrder
import Verif.Math.Primes

/-!
# Model of `params.go`
-/

namespace Spark.Params
open Spark

/-- the methods of gnark's interface `emulated.FieldParams` (implemented in params.go:15-18, 22-25) -/
structure FieldParams where
  /-- `NbLimbs()` -/
  nbLimbs : ℕ
  /-- `BitsPerLimb()` -/
  bitsPerLimb : ℕ
  /-- `IsPrime()` -/
  isPrime : Bool
  /-- `Modulus()` -/
  modulus : ℕ

/-- params.go:15-18 `BLS12381Fp`; the modulus is gnark-crypto's `BaseField()`, quoted in params.go:11 -/
def bls12381Fp : FieldParams :=
  ⟨6, 64, true, 0x1a0111ea397fe69a4b1ba7b6434bacd764774b84f38512bf6730d2a0f6b0f6241eabfffeb153ffffb9feffffffffaaab⟩

/-- params.go:22-25 `BLS12381Fr`; the modulus is gnark-crypto's `ScalarField()` -/
def bls12381Fr : FieldParams :=
  ⟨4, 64, true, 52435875175126190479447740508185965837690552500527637822603658699938581184513⟩

end Spark.Params
