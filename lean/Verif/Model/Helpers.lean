import Verif.Model.Circuit
import Verif.Spec.Validator
import Verif.Spec.Rfc9380
import Verif.Lemmas.Generators

/-!
# Model of the off-circuit helpers of `test_helpers.go`

Points of gnark-crypto are modelled by the points of the curve they denote (`ScalarMultiplication`, `Add` are the
group operations); `coords` gives back the affine coordinates, `(0, 0)` for infinity.  `none` is a panic, or a source of
randomness that ran dry: the numbers drawn from `crypto/rand` are an input of the model.
-/

namespace Spark.Helpers
open Spark Spec Circuit

/-- the `X`, `Y` fields of a gnark-crypto `bls12381.G1Affine` (read in g1.go:11-16) -/
def coords : E1 Fp → G1Affine Fp
  | .zero => ⟨0, 0⟩
  | .some x y _ => ⟨x, y⟩

/-- test_helpers.go:194-200 `genRandom(exp)`: the next random number below `2^exp` -/
def genRandom (exp : ℕ) : StateT (List ℕ) Option ℕ := fun draws =>
  match draws with
  | [] => none
  | d :: ds => some (d % 2 ^ exp, ds)

/-- test_helpers.go:202-208 -/
def genBitlist : StateT (List ℕ) Option (List ℕ) := (List.range 10).mapM fun _ => genRandom 1

/-- test_helpers.go:210-216 -/
def genWeights : StateT (List ℕ) Option (List ℕ) := (List.range 10).mapM fun _ => genRandom 10

/-- test_helpers.go:242-246 -/
noncomputable def genPublickey (secret : ℕ) : E1 Fp := secret • G1gen

/-- what `generate` returns (test_helpers.go:40-46) -/
structure KeySet where
  publicKeys : List (E1 Fp)
  bitlist : List ℕ
  weights : List ℕ
  commitment : ℕ
  privateKeys : List ℕ

/-- test_helpers.go:40-65; `H` is iden3's Poseidon as in `genCommitment` -/
noncomputable def generate (H : List ℕ → Option ℕ) : StateT (List ℕ) Option KeySet := do
  let bitlist ← genBitlist
  let weights ← genWeights
  let privateKeys ← (List.range 10).mapM fun _ => genRandom 230
  let publicKeys := privateKeys.map genPublickey
  let commitment ← (genCommitment H (publicKeys.map coords) weights : Option ℕ)
  pure ⟨publicKeys, bitlist, weights, commitment, privateKeys⟩

/-- `big.Int.Int64()` (test_helpers.go:74, 134, 140, 178, 182-186): the low 64 bits -/
def int64 (n : ℕ) : BitVec 64 := BitVec.ofNat 64 n

/-- `big.Int.Bytes()` (test_helpers.go:161, bls-rotate_test.go:21-26): big endian, without leading zeros -/
def bigBytes (n : ℕ) : List Fips.Byte := Rfc.I2OSP n ((Nat.size n + 7) / 8)

open Classical in
/-- test_helpers.go:67-99 `verifyPairingCheck`; gnark-crypto's `PairingCheck` says whether the product of the pairings
is 1 (its arguments are meant to be in the groups of order `r`).  Adding the zero point does nothing. -/
noncomputable def verifyPairingCheck (publicKeys : List (E1 Fp)) (bitlist : List ℕ) (signature msg : ETwist Fp) :
    Option Unit :=
  if publicKeys.length ≠ bitlist.length then none
  else
    let onlySignedApk := (publicKeys.zip bitlist).foldl
      (fun apk kb => if int64 kb.2 = 1 then apk + kb.1 else apk) 0
    if ate (-G1gen) signature * ate onlySignedApk msg = 1 then some () else none

/-- the four slices `generateNew` works on (test_helpers.go:115-118) -/
structure Slices where
  weights : List ℕ
  publicKeys : List (E1 Fp)
  bitlist : List ℕ
  privateKeys : List ℕ

/-- `l[i] = x` (test_helpers.go:147-152): panics if out of range -/
def setIdx {α : Type} (l : List α) (i : ℕ) (x : α) : Option (List α) := if i < l.length then some (l.set i x) else none

/-- test_helpers.go:146-152, the body of the loop after the index is accepted -/
noncomputable def replaceAt (s : Slices) (index sk w b : ℕ) : Option Slices := do
  let privateKeys ← setIdx s.privateKeys index sk
  let publicKeys ← setIdx s.publicKeys index (genPublickey sk)
  let weights ← setIdx s.weights index w
  let bitlist ← setIdx s.bitlist index b
  pure ⟨weights, publicKeys, bitlist, privateKeys⟩

/-- test_helpers.go:138-153: `count` positions not in `m` are still to be replaced; an index drawn twice is drawn
again -/
noncomputable def replaceLoop : ℕ → List ℕ → Slices → List ℕ → Option (Slices × List ℕ)
  | 0, _, s, draws => some (s, draws)
  | _ + 1, _, _, [] => none
  | count + 1, m, s, d :: ds =>
    let index := d % 2 ^ 4 % 10
    if index ∈ m then replaceLoop (count + 1) m s ds
    else match ds with
      | dsk :: dw :: db :: ds => do
        let s ← replaceAt s index (dsk % 2 ^ 230) (dw % 2 ^ 10) (db % 2 ^ 1)
        replaceLoop count (index :: m) s ds
      | _ => none
  termination_by _ _ _ draws => draws.length

/-- what `generateNew` returns (test_helpers.go:106-114) -/
structure NewSet where
  publicKeys : List (E1 Fp)
  weights : List ℕ
  bitlist : List ℕ
  commitment : ℕ
  msg : ETwist Fp
  signature : ETwist Fp
  trustedWeight : BitVec 64

open Classical in
/-- test_helpers.go:172-189: one round of the loop over the new keys (`totalWeight` is not used).  `contains` compares
the decimal strings of the abscissas, that is, the abscissas. -/
noncomputable def signRound (s : Slices) (oldX : List Fp) (msg : ETwist Fp) (acc : ETwist Fp × BitVec 64) (i : ℕ) :
    Option (ETwist Fp × BitVec 64) := do
  let pk ← s.publicKeys[i]?
  let isOld := (coords pk).X ∈ oldX
  let b ← s.bitlist[i]?
  let w ← s.weights[i]?
  let sig ← if int64 b = 1 then do
      let sk ← s.privateKeys[i]?
      pure (acc.1 + sk • msg)
    else pure acc.1
  pure (sig, if isOld ∧ int64 b = 1 then acc.2 + int64 w else acc.2)

/-- test_helpers.go:101-192 `generateNew`; `hashG2` is gnark-crypto's `HashToG2` with the domain separator.  The sum of
all new keys (155-158) is not used by the code. `weights[i]` is read in the code only if the bit is 1; on slices of
equal length (which `genCommitment` before it forces for the first ten) that makes no difference. -/
noncomputable def generateNew (H : List ℕ → Option ℕ) (hashG2 : List Fips.Byte → ETwist Fp)
    (oldPrivateKeys : List ℕ) (oldPublicKeys : List (E1 Fp)) (weightsOld bitlistOld : List ℕ) (draws : List ℕ) :
    Option (NewSet × List ℕ) :=
  if oldPublicKeys.length ≠ 10 then none
  else do
    let (dc, draws) ← genRandom 2 draws
    let count := if dc = 0 then 2 else dc
    let (s, draws) ← replaceLoop count [] ⟨weightsOld, oldPublicKeys, bitlistOld, oldPrivateKeys⟩ draws
    let commitment ← genCommitment H (s.publicKeys.map coords) s.weights
    let msg := hashG2 (bigBytes commitment)
    let (sig, tw) ← (List.range 10).foldlM (signRound s (oldPublicKeys.map fun pk => (coords pk).X) msg) (0, 0)
    pure (⟨s.publicKeys, s.weights, s.bitlist, commitment, msg, sig, tw⟩, draws)

/-- test_helpers.go:248-256 -/
def bigIntToVariableArray (p : List ℕ) : Option (Fin 10 → Fr) :=
  if 10 ≤ p.length then some fun i => (p.getD i.val 0 : Fr) else none

/-- bls-tx_test.go:38-48: the signed weight and the aggregate signature of a transaction -/
noncomputable def signTx (privateKeys bitlist weights : List ℕ) (messageHash : ETwist Fp) :
    Option (ETwist Fp × ℕ) :=
  (List.range bitlist.length).foldlM (fun acc i => do
    let b ← bitlist[i]?
    if 0 < b then do
      let w ← weights[i]?
      let sk ← privateKeys[i]?
      pure (acc.1 + sk • messageHash, acc.2 + w)
    else pure acc) (0, 0)

/-- bls-tx_test.go:21-31, bls-rotate_test.go:21-26: bytes as circuit inputs.  Entries that are not assigned are
nil, on which the solver fails; a longer slice is out of range. -/
def byteVariables (bytes : List Fips.Byte) : Option (Vector Fr 32) :=
  if h : bytes.length = 32 then some ⟨(bytes.map fun b => ((b.toNat : ℕ) : Fr)).toArray, by simpa using h⟩ else none

/-- `NewG1AffineArray` of ten keys (g1.go:18-24, see `newG1AffineArray`): the witness is complete only if all are assigned -/
def keyVariables (keys : List (E1 Fp)) : Option (Fin 10 → G1In) := do
  let a ← newG1AffineArray (keys.map coords)
  if ∀ i, (a i).isSome then some fun i => (a i).getD ⟨fun _ => 0, fun _ => 0⟩ else none

/-- the `X`, `Y` fields of a gnark-crypto `bls12381.G2Affine` (read in g2.go:21-32) -/
def coords2 : ETwist Fp → G2Affine Fp
  | .zero => ⟨0, 0⟩
  | .some x y _ => ⟨x, y⟩

/-- bls-tx_test.go:52-61: the assignment of a transaction circuit -/
def txWitness (publicKeys : List (E1 Fp)) (bitlist weights : List ℕ) (signature messageHash : ETwist Fp)
    (commitment signedWeight : ℕ) (msg : List Fips.Byte) : Option (TxPublic × TxPrivate) := do
  let keys ← keyVariables publicKeys
  let bits ← bigIntToVariableArray bitlist
  let w ← bigIntToVariableArray weights
  let bytes ← byteVariables msg
  pure (⟨newG2Affine (coords2 messageHash), (commitment : Fr), (signedWeight : Fr)⟩,
    ⟨keys, newG2Affine (coords2 signature), bits, w, bytes⟩)

/-- bls-rotate_test.go:35-50: the assignment of a rotation circuit.  The test leaves `MessageHash` (an unused input)
unassigned; here it is an argument. -/
def rotateWitness (oldPublicKeys newPublicKeys : List (E1 Fp)) (bitlist oldWeights newWeights : List ℕ)
    (signature : ETwist Fp) (oldCommitment newCommitment : ℕ) (trustedWeight : BitVec 64) (messageHash : G2In) :
    Option (RotatePublic × RotatePrivate) := do
  let old ← keyVariables oldPublicKeys
  let new ← keyVariables newPublicKeys
  let bits ← bigIntToVariableArray bitlist
  let oldW ← bigIntToVariableArray oldWeights
  let newW ← bigIntToVariableArray newWeights
  let bytes ← byteVariables (bigBytes newCommitment)
  pure (⟨messageHash, (oldCommitment : Fr), (newCommitment : Fr), bytes, (trustedWeight.toInt : Fr)⟩,
    ⟨oldW, newW, old, new, bits, newG2Affine (coords2 signature)⟩)

/-- test_helpers.go:258-265 -/
def contains (arr : List String) (val : String) : Bool := arr.any (· == val)

end Spark.Helpers
