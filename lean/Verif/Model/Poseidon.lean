import Verif.Native
import Verif.Data.PoseidonTables

/-!
# Model of `poseidonHash.go`

Native field elements are values of `Fr`.  Poseidon emits only additions and multiplications, so a call
is a function of its inputs; `none` is a Go panic (index out of range, or a table that does not parse).
-/

namespace Spark.Poseidon

/-! ## Tables, constants.go -/

/-- one 256-bit entry of a packed row (representation in Data/PoseidonTables of the literals of constants.go:47-25059) -/
def entry (row i : ℕ) : ℕ := (row >>> (256 * i)) % 2 ^ 256

/-- the entries of a packed row (same literals, constants.go:47-25059) -/
def unpack (w row : ℕ) : List ℕ := (List.range w).map (entry row)

/-- `POSEIDON_C` (constants.go:42-45; the strings are constants.go:47-2325).  The Go code parses the hex
string on each call; the model uses the parsed numbers. An unsupported width parses the empty string:
panic. -/
def tableC (t : ℕ) : Option (List ℕ) := (PosData.C t).map fun x => x.1.flatMap (unpack x.2)
/-- `POSEIDON_S` (constants.go:25056-25059) -/
def tableS (t : ℕ) : Option (List ℕ) := (PosData.S t).map fun x => x.1.flatMap (unpack x.2)
/-- `POSEIDON_M` (constants.go:4519-4522) -/
def tableM (t : ℕ) : Option (List (List ℕ)) := (PosData.M t).map fun x => x.1.map (unpack x.2)
/-- `POSEIDON_P` (constants.go:6696-6699) -/
def tableP (t : ℕ) : Option (List (List ℕ)) := (PosData.P t).map fun x => x.1.map (unpack x.2)

/-! ## The round functions -/

/-- `Sigma` (poseidonHash.go:10-14) -/
def sigma (x : Fr) : Fr :=
  let x2 := x * x
  let x4 := x2 * x2
  x4 * x

/-- `Ark` (poseidonHash.go:16-22) -/
def ark (inp : List Fr) (c : List ℕ) (r : ℕ) : Option (List Fr) :=
  (List.range inp.length).mapM fun i => do
    let v ← inp[i]?
    let k : ℕ ← c[i + r]?
    pure (v + (k : Fr))

/-- `MixLast` (poseidonHash.go:37-44) -/
def mixLast (inp : List Fr) (m : List (List ℕ)) (s : ℕ) : Option Fr :=
  (List.range inp.length).foldlM (fun out j => do
    let row ← m[j]?
    let k : ℕ ← row[s]?
    let v ← inp[j]?
    pure (out + (k : Fr) * v)) 0

/-- `Mix` (poseidonHash.go:24-35); the inner loop is the one of `MixLast`. -/
def mix (inp : List Fr) (m : List (List ℕ)) : Option (List Fr) :=
  (List.range inp.length).mapM fun i => mixLast inp m i

/-- `MixS` (poseidonHash.go:46-58; exported, not called by `PoseidonEx`, which inlines it) -/
def mixS (inp : List Fr) (s : List ℕ) (r : ℕ) : Option (List Fr) := do
  let t := inp.length
  let lc ← (List.range t).foldlM (fun lc i => do
    let k : ℕ ← s[(t * 2 - 1) * r + i]?
    let v ← inp[i]?
    pure (lc + (k : Fr) * v)) 0
  let rest ← (List.range (t - 1)).mapM fun i => do
    let v ← inp[i + 1]?
    let v0 ← inp[0]?
    let k : ℕ ← s[(t * 2 - 1) * r + t + (i + 1) - 1]?
    pure (v + v0 * (k : Fr))
  pure (lc :: rest)

/-- the S-box layer `for j := 0; j < t; j++ { state[j] = Sigma(state[j]) }` (poseidonHash.go:87-89,
94-96, 118-120, 125-127) -/
def sigmaAll (st : List Fr) : List Fr := st.map sigma

/-- one partial round (poseidonHash.go:100-115) -/
def partialRound (c s : List ℕ) (t : ℕ) (st : List Fr) (r : ℕ) : Option (List Fr) := do
  let s0 ← st[0]?
  let k : ℕ ← c[(8 / 2 + 1) * t + r]?
  let st := st.set 0 (sigma s0 + (k : Fr))
  let newState0 ← (List.range st.length).foldlM (fun acc j => do
    let e : ℕ ← s[(t * 2 - 1) * r + j]?
    let v ← st[j]?
    pure (acc + (e : Fr) * v)) 0
  let st ← (List.range (t - 1)).foldlM (fun (st : List Fr) k => do
    let v ← st[k + 1]?
    let v0 ← st[0]?
    let e : ℕ ← s[(t * 2 - 1) * r + t + (k + 1) - 1]?
    pure (st.set (k + 1) (v + v0 * (e : Fr)))) st
  pure (st.set 0 newState0)

/-- one full round of the first or last half: S-box, constants from `off` on, matrix
(poseidonHash.go:86-92, 94-98 and 117-123) -/
def fullRound (c : List ℕ) (m : List (List ℕ)) (off : ℕ) (st : List Fr) : Option (List Fr) := do
  mix (← ark (sigmaAll st) c off) m

/-- `nRoundsPC` (poseidonHash.go:67) -/
def nRoundsPC : List ℕ := [56, 57, 56, 60, 60, 63, 64, 63, 60, 66, 60, 65, 70, 60, 64, 68]

/-- `nRoundsPC[t-2]` (poseidonHash.go:67-70) for `t = n + 1`; for `n = 0` the index is `-1`, a panic -/
def partialRounds (n : ℕ) : Option ℕ := if n = 0 then none else nRoundsPC[n + 1 - 2]?

/-- `PoseidonEx` (poseidonHash.go:60-133) -/
def poseidonEx (inputs : List Fr) (initialState : Fr) (nOuts : ℕ) : Option (List Fr) := do
  let t := inputs.length + 1
  let nRoundsP ← partialRounds inputs.length
  let c ← tableC t
  let s ← tableS t
  let m ← tableM t
  let p ← tableP t
  let state ← ark (initialState :: inputs) c 0
  let state ← (List.range (8 / 2 - 1)).foldlM (fun st r => fullRound c m ((r + 1) * t) st) state
  let state ← fullRound c p (8 / 2 * t) state
  let state ← (List.range nRoundsP).foldlM (partialRound c s t) state
  let state ← (List.range (8 / 2 - 1)).foldlM
    (fun st r => fullRound c m ((8 / 2 + 1) * t + nRoundsP + r * t) st) state
  (List.range nOuts).mapM fun i => mixLast (sigmaAll state) m i

/-- `Poseidon` (poseidonHash.go:135-138) -/
def poseidon (inputs : List Fr) : Option Fr := do
  let out ← poseidonEx inputs 0 1
  out[0]?

/-- `Poseidon` inside a circuit (poseidonHash.go:135-138): no hint, no constraint beyond the arithmetic; a panic is `fail` -/
def poseidonC (inputs : List Fr) : Circ Fr :=
  match poseidon inputs with
  | some h => pure h
  | none => Circ.fail

/-! ## The hasher object -/

/-- the fields `data` and `status` of `Pairing` used by the hasher (pairing.go:13-19) -/
structure Hasher where
  /-- written so far -/
  data : List Fr
  /-- last digest -/
  status : Fr

/-- `NewPoseidonHash` (poseidonHash.go:140-146) -/
def newHasher : Hasher := ⟨[], 0⟩

/-- `Sum` (poseidonHash.go:148-151) -/
def Hasher.sum (h : Hasher) : Option (Fr × Hasher) := do
  let d ← poseidon h.data
  pure (d, { h with status := d })

/-- `Write` (poseidonHash.go:153-155) -/
def Hasher.write (h : Hasher) (xs : List Fr) : Hasher := { h with data := h.data ++ xs }

/-- `Reset` (poseidonHash.go:157-160) -/
def Hasher.reset (_ : Hasher) : Hasher := ⟨[], 0⟩

end Spark.Poseidon
