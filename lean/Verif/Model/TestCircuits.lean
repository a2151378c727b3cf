import Verif.Model.Pairing

/-!
# Model of the circuits in the repository's own tests

`pairing_bls12381/tower_test.go` and `pairing_bls12381/pairing_test.go` wrap each exported operation in a small circuit
(apply the operation, assert the result equal to a field of the circuit).  The test functions draw random witnesses with
gnark-crypto; here the fields of the circuit structs are arguments.
-/

namespace Spark.TestCircuits
open Spark Circ
set_option maxRecDepth 100000

/-- tower_test.go:14-23 -/
def e2Add (A B C : E2 Fp) : Circ Unit :=
  let expected := Ext2.add A B
  Ext2.assertIsEqual expected C

/-- tower_test.go:45-54 -/
def e2Sub (A B C : E2 Fp) : Circ Unit :=
  let expected := Ext2.sub A B
  Ext2.assertIsEqual expected C

/-- tower_test.go:76-85 -/
def e2Double (A C : E2 Fp) : Circ Unit :=
  let expected := Ext2.double A
  Ext2.assertIsEqual expected C

/-- tower_test.go:106-115 -/
def e2Mul (A B C : E2 Fp) : Circ Unit :=
  let expected := Ext2.mul A B
  Ext2.assertIsEqual expected C

/-- tower_test.go:137-146 -/
def e2Square (A C : E2 Fp) : Circ Unit :=
  let expected := Ext2.square A
  Ext2.assertIsEqual expected C

/-- tower_test.go:166-175 -/
def e2Div (A B C : E2 Fp) : Circ Unit := do
  let expected ← Ext2.divUnchecked A B
  Ext2.assertIsEqual expected C

/-- tower_test.go:197-209 -/
def e2MulByElement (A : E2 Fp) (B : Fp) (C : E2 Fp) : Circ Unit :=
  let expected := Ext2.mulByElement A B
  Ext2.assertIsEqual expected C

/-- tower_test.go:232-243 -/
def e2MulByNonResidue (A C : E2 Fp) : Circ Unit :=
  let expected := Ext2.mulByNonResidue A
  Ext2.assertIsEqual expected C

/-- tower_test.go:263-274 -/
def e2Neg (A C : E2 Fp) : Circ Unit :=
  let expected := Ext2.neg A
  Ext2.assertIsEqual expected C

/-- tower_test.go:293-304 -/
def e2Conjugate (A C : E2 Fp) : Circ Unit :=
  let expected := Ext2.conjugate A
  Ext2.assertIsEqual expected C

/-- tower_test.go:323-334 -/
def e2Inverse (A C : E2 Fp) : Circ Unit := do
  let expected ← Ext2.inverse A
  Ext2.assertIsEqual expected C

/-- tower_test.go:353-362 -/
def e6Add (A B C : E6 Fp) : Circ Unit :=
  let expected := Ext6.add A B
  Ext6.assertIsEqual expected C

/-- tower_test.go:384-393 -/
def e6Sub (A B C : E6 Fp) : Circ Unit :=
  let expected := Ext6.sub A B
  Ext6.assertIsEqual expected C

/-- tower_test.go:415-424 -/
def e6Mul (A B C : E6 Fp) : Circ Unit :=
  let expected := Ext6.mul A B
  Ext6.assertIsEqual expected C

/-- tower_test.go:446-455 -/
def e6Square (A C : E6 Fp) : Circ Unit :=
  let expected := Ext6.square A
  Ext6.assertIsEqual expected C

/-- tower_test.go:475-484 -/
def e6Div (A B C : E6 Fp) : Circ Unit := do
  let expected ← Ext6.divUnchecked A B
  Ext6.assertIsEqual expected C

/-- tower_test.go:506-517 -/
def e6MulByNonResidue (A C : E6 Fp) : Circ Unit :=
  let expected := Ext6.mulByNonResidue A
  Ext6.assertIsEqual expected C

/-- tower_test.go:537-549 -/
def e6MulByE2 (A : E6 Fp) (B : E2 Fp) (C : E6 Fp) : Circ Unit :=
  let expected := Ext6.mulByE2 A B
  Ext6.assertIsEqual expected C

/-- tower_test.go:572-584 -/
def e6MulBy01 (A : E6 Fp) (C0 C1 : E2 Fp) (C : E6 Fp) : Circ Unit :=
  let expected := Ext6.mulBy01 A C0 C1
  Ext6.assertIsEqual expected C

/-- tower_test.go:610-621 -/
def e6Neg (A C : E6 Fp) : Circ Unit :=
  let expected := Ext6.neg A
  Ext6.assertIsEqual expected C

/-- tower_test.go:640-651 -/
def e6Inverse (A C : E6 Fp) : Circ Unit := do
  let expected ← Ext6.inverse A
  Ext6.assertIsEqual expected C

/-- tower_test.go:670-679 -/
def e12Add (A B C : E12 Fp) : Circ Unit :=
  let expected := Ext12.add A B
  Ext12.assertIsEqual expected C

/-- tower_test.go:701-710 -/
def e12Sub (A B C : E12 Fp) : Circ Unit :=
  let expected := Ext12.sub A B
  Ext12.assertIsEqual expected C

/-- tower_test.go:732-741 -/
def e12Mul (A B C : E12 Fp) : Circ Unit :=
  let expected := Ext12.mul A B
  Ext12.assertIsEqual expected C

/-- tower_test.go:763-772 -/
def e12Div (A B C : E12 Fp) : Circ Unit := do
  let expected ← Ext12.divUnchecked A B
  Ext12.assertIsEqual expected C

/-- tower_test.go:794-803 -/
def e12Square (A C : E12 Fp) : Circ Unit :=
  let expected := Ext12.square A
  Ext12.assertIsEqual expected C

/-- tower_test.go:823-834 -/
def e12Conjugate (A C : E12 Fp) : Circ Unit :=
  let expected := Ext12.conjugate A
  Ext12.assertIsEqual expected C

/-- tower_test.go:853-864 -/
def e12Inverse (A C : E12 Fp) : Circ Unit := do
  let expected ← Ext12.inverse A
  Ext12.assertIsEqual expected C

/-- tower_test.go:883-895 -/
def e12ExptTorus (A : E6 Fp) (C : E12 Fp) : Circ Unit := do
  let z ← Ext12.exptTorus A
  let expected ← Ext12.decompressTorus z
  Ext12.assertIsEqual expected C

/-- tower_test.go:922-933 -/
def e12MulBy014 (A W : E12 Fp) (B C : E2 Fp) : Circ Unit :=
  let res := Ext12.mulBy014 A B C
  Ext12.assertIsEqual res W

/-- tower_test.go:961-971 -/
def torusCompress (A : E12 Fp) (C : E6 Fp) : Circ Unit := do
  let expected ← Ext12.compressTorus A
  Ext6.assertIsEqual expected C

/-- tower_test.go:998-1009 -/
def torusDecompress (A C : E12 Fp) : Circ Unit := do
  let compressed ← Ext12.compressTorus A
  let expected ← Ext12.decompressTorus compressed
  Ext12.assertIsEqual expected C

/-- tower_test.go:1037-1051 -/
def torusMul (A B C : E12 Fp) : Circ Unit := do
  let compressedA ← Ext12.compressTorus A
  let compressedB ← Ext12.compressTorus B
  let compressedAB ← Ext12.mulTorus compressedA compressedB
  let expected ← Ext12.decompressTorus compressedAB
  Ext12.assertIsEqual expected C

/-- tower_test.go:1085-1097 -/
def torusInverse (A C : E12 Fp) : Circ Unit := do
  let compressed ← Ext12.compressTorus A
  let compressed := Ext12.inverseTorus compressed
  let expected ← Ext12.decompressTorus compressed
  Ext12.assertIsEqual expected C

/-- tower_test.go:1124-1136 -/
def torusFrobenius (A C : E12 Fp) : Circ Unit := do
  let compressed ← Ext12.compressTorus A
  let compressed := Ext12.frobeniusTorus compressed
  let expected ← Ext12.decompressTorus compressed
  Ext12.assertIsEqual expected C

/-- tower_test.go:1163-1175 -/
def torusFrobeniusSquare (A C : E12 Fp) : Circ Unit := do
  let compressed ← Ext12.compressTorus A
  let compressed := Ext12.frobeniusSquareTorus compressed
  let expected ← Ext12.decompressTorus compressed
  Ext12.assertIsEqual expected C

/-- tower_test.go:1202-1214 -/
def torusSquare (A C : E12 Fp) : Circ Unit := do
  let compressed ← Ext12.compressTorus A
  let compressed ← Ext12.squareTorus compressed
  let expected ← Ext12.decompressTorus compressed
  Ext12.assertIsEqual expected C

/-- pairing_test.go:30-45; both calls get the same pointer, and the first may write through it (the second component
of the results) -/
def finalExponentiationCircuit (InGt Res : E12 Fp) : Circ Unit := do
  let res1 ← Pairing.finalExp InGt
  Ext12.assertIsEqual res1.1 Res
  let res2 ← Pairing.finalExpUnsafeExported res1.2
  Ext12.assertIsEqual res2.1 Res

/-- pairing_test.go:60-77 -/
def pairCircuit (InG1 : G1Affine Fp) (InG2 : G2Affine Fp) (Res : E12 Fp) : Except String (Circ Unit) := do
  let res ← Pairing.pair [InG1] [InG2]
  pure (res >>= fun res => Ext12.assertIsEqual res Res)

/-- pairing_test.go:93-112 -/
def multiPairCircuit (In1G1 In2G1 : G1Affine Fp) (In1G2 In2G2 : G2Affine Fp) (Res : E12 Fp) :
    Except String (Circ Unit) := do
  let res ← Pairing.pair [In1G1, In1G1, In2G1, In2G1] [In1G2, In2G2, In1G2, In2G2]
  pure (res >>= fun res => Ext12.assertIsEqual res Res)

/-- pairing_test.go:131-148 -/
def pairingCheckCircuit (In1G1 In2G1 : G1Affine Fp) (In1G2 In2G2 : G2Affine Fp) : Except String (Circ Unit) :=
  Pairing.pairingCheck [In1G1, In1G1, In2G1, In2G1] [In1G2, In2G2, In1G2, In2G2]

/-- pairing_test.go:166-184 -/
def finalExponentiationSafeCircuit (P1 P2 : G1Affine Fp) (Q1 Q2 : G2Affine Fp) : Except String (Circ Unit) := do
  let res ← Pairing.millerLoop [P1, P2] [Q1, Q2]
  pure (res >>= fun res => Pairing.finalExp res >>= fun res2 => Ext12.assertIsEqual Ext12.one res2.1)

/-- pairing_test.go:205-221 -/
def pairFixedCircuit (InG1 : G1Affine Fp) (Res : E12 Fp) : Circ Unit := do
  let res ← Pairing.pairFixedQ InG1
  Ext12.assertIsEqual res Res

/-- pairing_test.go:237-255 -/
def doublePairFixedCircuit (In1G1 In2G1 : G1Affine Fp) (In1G2 : G2Affine Fp) (Res : E12 Fp) : Circ Unit := do
  let res ← Pairing.doublePairFixedQ In1G1 In2G1 In1G2
  Ext12.assertIsEqual res Res

end Spark.TestCircuits
