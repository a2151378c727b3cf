import Verif.Circ
import Verif.Data.EncodeWitness
import Verif.Data.ForgeWitness
import Verif.Data.HashWitness
import Verif.Data.Lines
import Verif.Data.PoseidonRef
import Verif.Data.PoseidonTables
import Verif.Data.RfcVector
import Verif.Data.RotWitness
import Verif.Data.TwistPoints
import Verif.Emulated
import Verif.Instances.Circuits
import Verif.Instances.Command
import Verif.Instances.Curves
import Verif.Instances.Encode
import Verif.Instances.EndToEnd
import Verif.Instances.Fields
import Verif.Instances.Groups
import Verif.Instances.Helpers
import Verif.Instances.NonSigners
import Verif.Instances.Replacement
import Verif.Instances.Words
import Verif.Lemmas.Bilinear
import Verif.Lemmas.CircuitAgg
import Verif.Lemmas.CircuitBasic
import Verif.Lemmas.CircuitMain
import Verif.Lemmas.Cofactor
import Verif.Lemmas.CompiledAgg
import Verif.Lemmas.CompiledExact
import Verif.Lemmas.Counting
import Verif.Lemmas.Exception
import Verif.Lemmas.Expand
import Verif.Lemmas.FinalExp
import Verif.Lemmas.Forgery
import Verif.Lemmas.Generators
import Verif.Lemmas.HashConst
import Verif.Lemmas.HashEval
import Verif.Lemmas.HashExample
import Verif.Lemmas.HashExp
import Verif.Lemmas.HashG2
import Verif.Lemmas.Helpers
import Verif.Lemmas.Hints
import Verif.Lemmas.Isogeny
import Verif.Lemmas.Jac
import Verif.Lemmas.JacMul
import Verif.Lemmas.Line
import Verif.Lemmas.MillerAte
import Verif.Lemmas.MillerEval
import Verif.Lemmas.MillerFixed
import Verif.Lemmas.MillerProd
import Verif.Lemmas.MillerSteps
import Verif.Lemmas.NineWitness
import Verif.Lemmas.NonResidue
import Verif.Lemmas.PairFacts
import Verif.Lemmas.PairZero
import Verif.Lemmas.PairingGroup
import Verif.Lemmas.Parse
import Verif.Lemmas.PoseidonAll
import Verif.Lemmas.PoseidonCheck
import Verif.Lemmas.PoseidonEval
import Verif.Lemmas.PoseidonGrain
import Verif.Lemmas.PoseidonInst
import Verif.Lemmas.PoseidonMds
import Verif.Lemmas.PoseidonOpt
import Verif.Lemmas.PoseidonRun
import Verif.Lemmas.Psi
import Verif.Lemmas.Reduce
import Verif.Lemmas.RotWitness
import Verif.Lemmas.Sha256Block
import Verif.Lemmas.Sha256Digest
import Verif.Lemmas.Sha256Test
import Verif.Lemmas.Sha256Words
import Verif.Lemmas.SqrtRatio
import Verif.Lemmas.Sswu
import Verif.Lemmas.Torus
import Verif.Lemmas.TorusChain
import Verif.Lemmas.TorusExp
import Verif.Lemmas.Tower
import Verif.Lemmas.TwistOrder
import Verif.Lemmas.TwistPoints
import Verif.Lemmas.TxWitness
import Verif.Math.Attr
import Verif.Math.Card
import Verif.Math.Cocycle
import Verif.Math.Curve
import Verif.Math.FastPow
import Verif.Math.Fp
import Verif.Math.Frobenius
import Verif.Math.GroupOrder
import Verif.Math.NatCurve
import Verif.Math.NatJac
import Verif.Math.PointCount
import Verif.Math.Primality
import Verif.Math.Primes
import Verif.Math.Reciprocity
import Verif.Math.Tower
import Verif.Math.Tower6
import Verif.Math.TowerField
import Verif.Math.TwistPrime
import Verif.Model.Bytes
import Verif.Model.Circuit
import Verif.Model.Expand
import Verif.Model.FinalExp
import Verif.Model.G2
import Verif.Model.HashG2
import Verif.Model.Helpers
import Verif.Model.Hints
import Verif.Model.Pairing
import Verif.Model.Params
import Verif.Model.Parse
import Verif.Model.Poseidon
import Verif.Model.Sha256
import Verif.Model.Table
import Verif.Model.TestCircuits
import Verif.Model.Tower
import Verif.Model.WordApi
import Verif.Native
import Verif.Props.Accountability
import Verif.Props.Api
import Verif.Props.Bytes
import Verif.Props.Circuit
import Verif.Props.CircuitExamples
import Verif.Props.ClearCofactor
import Verif.Props.Combine
import Verif.Props.Compiled
import Verif.Props.Counting
import Verif.Props.Curve
import Verif.Props.EndToEnd
import Verif.Props.Exception
import Verif.Props.Expand
import Verif.Props.Extra
import Verif.Props.FinalExp
import Verif.Props.Forgery
import Verif.Props.Groups
import Verif.Props.HashFreedom
import Verif.Props.HashG2
import Verif.Props.HashG2Examples
import Verif.Props.Helpers
import Verif.Props.Hints
import Verif.Props.History
import Verif.Props.Honest
import Verif.Props.Modes
import Verif.Props.NineOfTen
import Verif.Props.NoSigner
import Verif.Props.NonSigners
import Verif.Props.Order
import Verif.Props.Pairing
import Verif.Props.Parse
import Verif.Props.Poseidon
import Verif.Props.PoseidonMds
import Verif.Props.Progress
import Verif.Props.Replacement
import Verif.Props.Replay
import Verif.Props.RfcHash
import Verif.Props.RfcVectors
import Verif.Props.RotationExample
import Verif.Props.Scope
import Verif.Props.Sha256
import Verif.Props.Table
import Verif.Props.Tamper
import Verif.Props.TestCircuits
import Verif.Props.Torus
import Verif.Props.Tower
import Verif.Props.Utilities
import Verif.Spec.Curve
import Verif.Spec.Encoding
import Verif.Spec.HashToCurve
import Verif.Spec.Helpers
import Verif.Spec.Hints
import Verif.Spec.History
import Verif.Spec.MapToCurve
import Verif.Spec.Pairing
import Verif.Spec.Poseidon
import Verif.Spec.Rfc9380
import Verif.Spec.Sha256
import Verif.Spec.Table
import Verif.Spec.Validator
