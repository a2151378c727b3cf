import Verif.Model.HashG2
import Verif.Model.Pairing
import Verif.Model.Poseidon

/-!
# Model of the transaction and rotation circuits

`bls-tx.go`, `bls-rotate.go`, `bls-bls12381_sig.go`, `test_helpers.go` (commitments), `g1.go`,
`pairing.go:725-866`.

Public keys enter the circuits as limbs (native field elements) and are used in two ways: as limbs (Poseidon,
`CalculateTrustedWeight`) and as emulated field elements.  gnark enforces the limb widths the first time an input
element is used by an emulated operation; an input that is never used by one keeps unconstrained limbs.
Arrays `[10]T` are functions `Fin 10 → T`.
-/

namespace Spark.Circuit

open Circ Pairing

/-- The limbs of an `emulated.Element[BLS12381Fp]` circuit input (params.go:15-16: 6 limbs of 64 bits). -/
abbrev Limbs := Fin 6 → Fr

/-- the integer denoted by the six limbs of an element (params.go:15-16; gnark's `emulated.Element`) -/
def Limbs.toNat (l : Limbs) : ℕ := ∑ j : Fin 6, (l j).val * 2 ^ (64 * j.val)

/-- the value modulo `p` of an element (params.go:15-18) -/
def Limbs.val (l : Limbs) : Fp := (l.toNat : Fp)

/-- gnark's width check of an input element: 64 bits per limb, 381 bits in total, that is 61 bits for the most
significant limb (params.go:15-18; done by gnark at the first use in pairing.go, tower.go or g2.go) -/
def Limbs.Fits (l : Limbs) : Prop := ∀ j : Fin 6, (l j).val < 2 ^ (if j.val = 5 then 61 else 64)

/-- the width check is decidable (params.go:15-18) -/
instance (l : Limbs) : Decidable l.Fits := by unfold Limbs.Fits; infer_instance

/-- first use of an input element by an emulated operation (for instance pairing.go:739-755): width check,
then its value -/
def useElement (l : Limbs) : Circ Fp := do
  assert l.Fits
  pure l.val

/-- g1.go:9 `G1Affine` as circuit input -/
@[ext] structure G1In where
  X : Limbs
  Y : Limbs

/-- g2.go:13-15 `G2Affine` as circuit input: `X = A0 + A1·u`, `Y = B0 + B1·u` -/
@[ext] structure G2In where
  XA0 : Limbs
  XA1 : Limbs
  YA0 : Limbs
  YA1 : Limbs

/-- first use of a `G2Affine` input (the signature: bls-tx.go:30, bls-rotate.go:40) -/
def useG2 (q : G2In) : Circ (G2Affine Fp) := do
  let a ← useElement q.XA0
  let b ← useElement q.XA1
  let c ← useElement q.YA0
  let d ← useElement q.YA1
  pure ⟨⟨a, b⟩, ⟨c, d⟩⟩

/-- What Go's `==` answers for limb handles (`frontend.Variable`s).  `compiled`: while the constraint system is
built every limb computed from an input is a linear expression or a wire, which is never `==` to the `*big.Int`
limbs of the constant `Zero()`.  `engine`: in gnark's test engine `Select` returns the very pointer it selected,
so a limb is `==` to the limb of the (cached) constant `Zero()` exactly when that constant was selected.  The comparison is pairing.go:730-737. -/
inductive Mode
  | compiled
  | engine
deriving DecidableEq

/-- A `G1Affine` computed by the circuit; `isZeroConst`: are its limbs the handles of the constant (0,0)?
(all limbs of both coordinates agree on this, they are selected by the same bit; pairing.go:730-737) -/
@[ext] structure G1Var where
  X : Fp
  Y : Fp
  isZeroConst : Bool
deriving DecidableEq

/-- `curveF.Reduce` (pairing.go:754-755): another representative of the same value (model of `Reduce`: Model/G2.lean) -/
def reduceFp (x : Fp) : Circ Fp := do
  let v ← G2.fpReduce x
  pure (v : Fp)

/-- pairing.go:725-757.  The loop over limbs 0..4 returns in its first iteration if it returns at all (see
`G1Var.isZeroConst`). -/
def addG1Points (p1 p2 : G1Var) : Circ G1Var :=
  if p1.isZeroConst then pure p2
  else if p2.isZeroConst then pure p1
  else do
    let n := p2.Y - p1.Y
    let d := p2.X - p1.X
    let l ← fpDiv n d
    let x3 := l * l
    let x3 := x3 - p1.X
    let x3 := x3 - p2.X
    let y3 := p1.X - x3
    let y3 := l * y3
    let y3 := y3 - p1.Y
    let x3 ← reduceFp x3
    let y3 ← reduceFp y3
    pure ⟨x3, y3, false⟩

/-- `curveF.Select(bit, &key.X, &infinity.X)` and the same for `Y`: pairing.go:813-815, 844-846 -/
def selectKey (mode : Mode) (b : Fr) (key : G1In) : Circ G1Var := do
  let x ← useElement key.X
  let x ← fpSelect b x 0
  let y ← useElement key.Y
  let y ← fpSelect b y 0
  pure ⟨x, y, match mode with
    | .compiled => false
    | .engine => decide (b ≠ 1)⟩

/-- pairing.go:809-819 (`threshold`, `reslist`) -/
def aggregateLoop (mode : Mode) : List (G1In × Fr × Fr) → Fr → Circ (Fr × List G1Var)
  | [], threshold => pure (threshold, [])
  | (key, b, w) :: rest, threshold => do
    let sum ← selectKey mode b key
    let threshold ← apiSelect b (threshold + w) threshold
    let (t, reslist) ← aggregateLoop mode rest threshold
    pure (t, sum :: reslist)

/-- pairing.go:823-828, 851-855: `reslist[i+1] = AddG1Points(reslist[i], reslist[i+1])` for `i < 9`, result
`reslist[9]` (the earlier entries are not read again) -/
def addAll : List G1Var → Circ G1Var
  | [] => fail -- unreachable: ten entries
  | p :: ps => ps.foldlM addG1Points p

/-- pairing.go:863-866 -/
def thresholdCheck (t1 t2 : Fr) : Circ Unit := apiAssertEq t1 t2

/-- pairing.go:858-861 -/
def commitmentCheck (c1 c2 : Fr) : Circ Unit := apiAssertEq c1 c2

/-- pairing.go:798-829 -/
def aggregatePublicKeys (mode : Mode) (keys : Fin 10 → G1In) (bits weights : Fin 10 → Fr)
    (newTotalWeight : Fr) : Circ G1Var := do
  let (threshold, reslist) ← aggregateLoop mode (List.ofFn fun i => (keys i, bits i, weights i)) 0
  thresholdCheck threshold newTotalWeight
  addAll reslist

/-- pairing.go:832-856 -/
def aggregatePublicKeysRotate (mode : Mode) (keys : Fin 10 → G1In) (bits : Fin 10 → Fr) : Circ G1Var := do
  let reslist ← (List.ofFn fun i => (keys i, bits i)).mapM fun kb => selectKey mode kb.2 kb.1
  addAll reslist

/-- pairing.go:769-777, one validator: the limbs of the new key if its bit is set, else zero -/
def findSigner (b : Fr) (key : Limbs) : Circ (List Fr) :=
  (List.ofFn key).mapM fun l => apiSelect b l 0

/-- pairing.go:783-790: `xysix`, given the limbs of the selected new key and of the old key -/
def compareLimbs : List (Fr × Fr) → List (Fr × Fr) → Fr → Circ Fr
  | (sx, ox) :: xs, (sy, oy) :: ys, xysix => do
    let comparePKsX := apiCmp sx ox
    let comparePKsY := apiCmp sy oy
    let x := apiCmp comparePKsX 0
    let y := apiCmp comparePKsY 0
    let xy ← apiOr x y
    let xysix ← apiOr xysix xy
    compareLimbs xs ys xysix
  | _, _, xysix => pure xysix

/-- pairing.go:759-796.  The two loops over `i` are merged; the statements are the same. -/
def calculateTrustedWeight (oldKeys newKeys : Fin 10 → G1In) (bits oldWeights : Fin 10 → Fr) : Circ Fr :=
  (List.finRange 10).foldlM (fun oldSignedWeight i => do
    let sx ← findSigner (bits i) (newKeys i).X
    let sy ← findSigner (bits i) (newKeys i).Y
    let xysix ← compareLimbs (sx.zip (List.ofFn (oldKeys i).X)) (sy.zip (List.ofFn (oldKeys i).Y)) 0
    let weight ← apiSelect xysix 0 (oldWeights i)
    pure (oldSignedWeight + weight)) 0

/-- test_helpers.go:24-37 -/
def computeAPKCommitment (keys : Fin 10 → G1In) (weights : Fin 10 → Fr) : Circ Fr := do
  let m ← (List.finRange 10).mapM fun i => do
    let commX ← Poseidon.poseidonC (List.ofFn (keys i).X)
    let commY ← Poseidon.poseidonC (List.ofFn (keys i).Y)
    Poseidon.poseidonC [commX, commY, weights i]
  Poseidon.poseidonC m

/-- bls-bls12381_sig.go:41-43, 65-67: minus the generator of G1 (gnark-crypto `bls12381.Generators`) -/
def g1neg : G1Affine Fp :=
  ⟨(0x17f1d3a73197d7942695638c4fa9ac0fc3688c4f9774b905a14e3a3f171bac586c55e83ff97a1aeffb3af00adb22c6bb : ℕ),
    -((0x08b3f481e3aaa0f1a09e30ed741d8ae4fcf5e095d5d00af600db18cb2c04b3edd03cc744a2888ae40caa232946c5e7e1 : ℕ) : Fp)⟩

/-- a call of `PairingCheck` whose returned error is dropped: bls-bls12381_sig.go:46, 71 -/
def pairingCheckStmt (P : List (G1Affine Fp)) (Q : List (G2Affine Fp)) : Circ Unit :=
  match pairingCheck P Q with
  | .ok c => c
  | .error _ => pure ()

/-- bls-bls12381_sig.go:30-47; `hash` is not used -/
def verifyTx (mode : Mode) (keys : Fin 10 → G1In) (bits weights : Fin 10 → Fr) (signature _hash : G2In)
    (commitment totalSignedWeight : Fr) (msg : Vector Fr 32) : Circ Unit := do
  let apk ← aggregatePublicKeys mode keys bits weights totalSignedWeight
  let apkCommitment ← computeAPKCommitment keys weights
  commitmentCheck commitment apkCommitment
  let h ← G2.hashToG2 msg
  let signature ← useG2 signature
  pairingCheckStmt [g1neg, ⟨apk.X, apk.Y⟩] [signature, h]

/-- bls-bls12381_sig.go:50-72 -/
def verifyRotate (mode : Mode) (oldKeys newKeys : Fin 10 → G1In) (bits oldWeights newWeights : Fin 10 → Fr)
    (signature : G2In) (trustedWeight newCommitment oldApkCommitment : Fr)
    (newApkCommitmentBytes : Vector Fr 32) : Circ Unit := do
  let trustedWeight' ← calculateTrustedWeight oldKeys newKeys bits oldWeights
  commitmentCheck trustedWeight trustedWeight'
  let apkCommitment ← computeAPKCommitment oldKeys oldWeights
  commitmentCheck oldApkCommitment apkCommitment
  let newApkCommitment ← computeAPKCommitment newKeys newWeights
  commitmentCheck newCommitment newApkCommitment
  let newApk ← aggregatePublicKeysRotate mode newKeys bits
  let apkToG2 ← G2.hashToG2 newApkCommitmentBytes
  let signature ← useG2 signature
  pairingCheckStmt [g1neg, ⟨newApk.X, newApk.Y⟩] [signature, apkToG2]

/-- bls-tx.go:8-18: the public inputs of `BLS_BLS12_TX` -/
@[ext] structure TxPublic where
  messageHash : G2In
  apkCommitment : Fr
  signedWeight : Fr

/-- bls-tx.go:8-18: its private inputs -/
@[ext] structure TxPrivate where
  publicKeys : Fin 10 → G1In
  signature : G2In
  bitList : Fin 10 → Fr
  weights : Fin 10 → Fr
  msgBytes : Vector Fr 32

/-- bls-tx.go:20-37 -/
def txDefine (mode : Mode) (pub : TxPublic) (priv : TxPrivate) : Circ Unit :=
  verifyTx mode priv.publicKeys priv.bitList priv.weights priv.signature pub.messageHash
    pub.apkCommitment pub.signedWeight priv.msgBytes

/-- bls-rotate.go:8-26: the public inputs of `BLS_BLS12_ROTATE` -/
@[ext] structure RotatePublic where
  messageHash : G2In
  oldApkCommitment : Fr
  newCommitment : Fr
  newApkCommitmentBytes : Vector Fr 32
  trustedWeight : Fr

/-- bls-rotate.go:8-26: its private inputs -/
@[ext] structure RotatePrivate where
  oldWeights : Fin 10 → Fr
  newWeights : Fin 10 → Fr
  oldPublicKeys : Fin 10 → G1In
  newPublicKeys : Fin 10 → G1In
  bitList : Fin 10 → Fr
  signature : G2In

/-- bls-rotate.go:28-48 -/
def rotateDefine (mode : Mode) (pub : RotatePublic) (priv : RotatePrivate) : Circ Unit :=
  verifyRotate mode priv.oldPublicKeys priv.newPublicKeys priv.bitList priv.oldWeights priv.newWeights
    priv.signature pub.trustedWeight pub.newCommitment pub.oldApkCommitment pub.newApkCommitmentBytes

/-! ### Off-circuit values -/

/-- `emulated.ValueOf` of a gnark-crypto `fp.Element`: its canonical value in base 2^64 (g1.go:11-16) -/
def valueOf (x : Fp) : Fin 6 → ℕ := fun j => x.val / 2 ^ (64 * j.val) % 2 ^ 64

/-- the limbs of `ValueOf` as circuit inputs (g1.go:11-16) -/
def valueOfIn (x : Fp) : Limbs := fun j => (valueOf x j : Fr)

/-- g1.go:11-16 -/
def newG1Affine (v : G1Affine Fp) : G1In := ⟨valueOfIn v.X, valueOfIn v.Y⟩

/-- g1.go:18-24: entries beyond the slice stay unassigned (`none`); more than ten keys panic -/
def newG1AffineArray (v : List (G1Affine Fp)) : Option (Fin 10 → Option G1In) :=
  if v.length ≤ 10 then some fun i => v[i.val]?.map newG1Affine else none

/-- g2.go:21-32 `NewG2Affine` -/
def newG2Affine (v : G2Affine Fp) : G2In :=
  ⟨valueOfIn v.X.A0, valueOfIn v.X.A1, valueOfIn v.Y.A0, valueOfIn v.Y.A1⟩

/-- test_helpers.go:218-240; `H` is `PoseidonHash` (test_helpers.go:267-273: iden3 `poseidon.Hash`, an error
panics).  `publicKeys[i]`, `weights[i]` for `i < 10` panic on shorter slices. -/
def genCommitment (H : List ℕ → Option ℕ) (keys : List (G1Affine Fp)) (weights : List ℕ) : Option ℕ := do
  let c ← (List.range 10).mapM fun i => do
    let pk ← keys[i]?
    let w ← weights[i]?
    let cmX ← H (List.ofFn (valueOf pk.X))
    let cmY ← H (List.ofFn (valueOf pk.Y))
    H [cmX, cmY, w]
  H c

end Spark.Circuit
