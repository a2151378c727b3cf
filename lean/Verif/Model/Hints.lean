import Verif.Model.Tower

/-!
# Model of `pairing_bls12381/hints.go` and of the hint calls in `tower.go`

In `Verif/Model/Tower.lean` a hint is a value of the extension field.  Here hint functions are what they are in Go:
functions on slices of integers, registered in a table (`init`), called with the coordinates in the order written at
the call site.  `none` is an index out of range or a hint that the solver does not know.
`emulated.UnwrapHint` (gnark) hands over integers representing the limbs of the arguments; they need not be
reduced modulo `p`.
-/

namespace Spark.Hints
open Spark Circ

/-- the hint functions of the package (hints.go:15-31) -/
inductive Name
  | divG1 | divE2 | inverseE2 | divE6 | inverseE6 | squareTorus | divE12 | inverseE12
  deriving DecidableEq

/-- hints.go:15-31 `GetHints` -/
def getHints : List Name :=
  [.divG1, .divE2, .inverseE2, .divE6, .inverseE6, .squareTorus, .divE12, .inverseE12]

/-- `SetBigInt(inputs[i])` (hints.go:38-39 and in every hint function): reduction modulo `p` -/
def fe (inputs : List ℕ) (i : ℕ) : Option Fp := (inputs[i]?).map fun n => (n : Fp)

/-- `BigInt(outputs[i])` (hints.go:43-44 and in every hint function): the canonical representative -/
def big (x : Fp) : ℕ := x.val

/-- hints.go:33-48 -/
def inverseE2Hint (inputs : List ℕ) : Option (List ℕ) := do
  let a : E2 Fp := ⟨← fe inputs 0, ← fe inputs 1⟩
  let c := a⁻¹
  pure [big c.A0, big c.A1]

/-- hints.go:50-67 -/
def divE2Hint (inputs : List ℕ) : Option (List ℕ) := do
  let a : E2 Fp := ⟨← fe inputs 0, ← fe inputs 1⟩
  let b : E2 Fp := ⟨← fe inputs 2, ← fe inputs 3⟩
  let c := b⁻¹ * a
  pure [big c.A0, big c.A1]

/-- hints.go:69-87 -/
def divG1Hint (inputs : List ℕ) : Option (List ℕ) := do
  let a : Fp × Fp := (← fe inputs 0, ← fe inputs 1)
  let b : Fp × Fp := (← fe inputs 2, ← fe inputs 3)
  let c := (b.1⁻¹ * a.1, b.2⁻¹ * a.2)
  pure [big c.1, big c.2]

/-- hints.go:90-113 -/
def inverseE6Hint (inputs : List ℕ) : Option (List ℕ) := do
  let a : E6 Fp := ⟨⟨← fe inputs 0, ← fe inputs 1⟩, ⟨← fe inputs 2, ← fe inputs 3⟩,
      ⟨← fe inputs 4, ← fe inputs 5⟩⟩
  let c := a⁻¹
  pure [big c.B0.A0, big c.B0.A1, big c.B1.A0, big c.B1.A1, big c.B2.A0, big c.B2.A1]

/-- hints.go:115-145 -/
def divE6Hint (inputs : List ℕ) : Option (List ℕ) := do
  let a : E6 Fp := ⟨⟨← fe inputs 0, ← fe inputs 1⟩, ⟨← fe inputs 2, ← fe inputs 3⟩,
      ⟨← fe inputs 4, ← fe inputs 5⟩⟩
  let b : E6 Fp := ⟨⟨← fe inputs 6, ← fe inputs 7⟩, ⟨← fe inputs 8, ← fe inputs 9⟩,
      ⟨← fe inputs 10, ← fe inputs 11⟩⟩
  let c := b⁻¹ * a
  pure [big c.B0.A0, big c.B0.A1, big c.B1.A0, big c.B1.A1, big c.B2.A0, big c.B2.A1]

/-- hints.go:147-172 -/
def squareTorusHint (inputs : List ℕ) : Option (List ℕ) := do
  let a : E6 Fp := ⟨⟨← fe inputs 0, ← fe inputs 1⟩, ⟨← fe inputs 2, ← fe inputs 3⟩,
      ⟨← fe inputs 4, ← fe inputs 5⟩⟩
  let c := Ext12.squareTorusHint a
  pure [big c.B0.A0, big c.B0.A1, big c.B1.A0, big c.B1.A1, big c.B2.A0, big c.B2.A1]

/-- hints.go:175-210 -/
def inverseE12Hint (inputs : List ℕ) : Option (List ℕ) := do
  let a : E12 Fp := ⟨⟨⟨← fe inputs 0, ← fe inputs 1⟩, ⟨← fe inputs 2, ← fe inputs 3⟩,
      ⟨← fe inputs 4, ← fe inputs 5⟩⟩,
    ⟨⟨← fe inputs 6, ← fe inputs 7⟩, ⟨← fe inputs 8, ← fe inputs 9⟩,
      ⟨← fe inputs 10, ← fe inputs 11⟩⟩⟩
  let c := a⁻¹
  pure [big c.C0.B0.A0, big c.C0.B0.A1, big c.C0.B1.A0, big c.C0.B1.A1, big c.C0.B2.A0, big c.C0.B2.A1,
    big c.C1.B0.A0, big c.C1.B0.A1, big c.C1.B1.A0, big c.C1.B1.A1, big c.C1.B2.A0, big c.C1.B2.A1]

/-- hints.go:212-260 -/
def divE12Hint (inputs : List ℕ) : Option (List ℕ) := do
  let a : E12 Fp := ⟨⟨⟨← fe inputs 0, ← fe inputs 1⟩, ⟨← fe inputs 2, ← fe inputs 3⟩,
      ⟨← fe inputs 4, ← fe inputs 5⟩⟩,
    ⟨⟨← fe inputs 6, ← fe inputs 7⟩, ⟨← fe inputs 8, ← fe inputs 9⟩,
      ⟨← fe inputs 10, ← fe inputs 11⟩⟩⟩
  let b : E12 Fp := ⟨⟨⟨← fe inputs 12, ← fe inputs 13⟩, ⟨← fe inputs 14, ← fe inputs 15⟩,
      ⟨← fe inputs 16, ← fe inputs 17⟩⟩,
    ⟨⟨← fe inputs 18, ← fe inputs 19⟩, ⟨← fe inputs 20, ← fe inputs 21⟩,
      ⟨← fe inputs 22, ← fe inputs 23⟩⟩⟩
  let c := b⁻¹ * a
  pure [big c.C0.B0.A0, big c.C0.B0.A1, big c.C0.B1.A0, big c.C0.B1.A1, big c.C0.B2.A0, big c.C0.B2.A1,
    big c.C1.B0.A0, big c.C1.B0.A1, big c.C1.B1.A0, big c.C1.B1.A1, big c.C1.B2.A0, big c.C1.B2.A1]

/-- the functions behind the names (hints.go:33-260) -/
def fn : Name → List ℕ → Option (List ℕ)
  | .divG1 => divG1Hint
  | .divE2 => divE2Hint
  | .inverseE2 => inverseE2Hint
  | .divE6 => divE6Hint
  | .inverseE6 => inverseE6Hint
  | .squareTorus => squareTorusHint
  | .divE12 => divE12Hint
  | .inverseE12 => inverseE12Hint

/-- the solver evaluates a hint with `n` outputs: it must be registered (hints.go:11-13 `init`); outputs that the
function does not write stay 0, writing beyond the last is out of range -/
def solve (h : Name) (n : ℕ) (inputs : List ℕ) : Option (Vector Fp n) :=
  if h ∈ getHints then
    (fn h inputs).bind fun out =>
      if out.length ≤ n then some (Vector.ofFn fun i : Fin n => ((out.getD i.val 0 : ℕ) : Fp)) else none
  else none

/-- `e.fp.NewHint(h, n, inputs...)` (call sites tower.go:379-417, 683-724, 863-919, 1152-1179): `n` new elements; the prover may choose any values -/
def newHint (h : Name) (n : ℕ) (inputs : List ℕ) : Circ (Vector Fp n) := hint (solve h n inputs)

/-! ### the call sites

`x`, `y` are the values of the arguments, `rx`, `ry` the integers the solver sees for their coordinates. -/

/-- the arguments `&x.A0, &x.A1` at the call sites tower.go:379-417; `rx` are the integers
representing the coordinates of `x` -/
def args2 (rx : E2 ℕ) : List ℕ := [rx.A0, rx.A1]

/-- tower.go:379-398 with the hint spelled out -/
def inverseE2 (rx : E2 ℕ) (x : E2 Fp) : Circ (E2 Fp) := do
  let res ← newHint .inverseE2 2 (args2 rx)
  let inv : E2 Fp := ⟨res[0], res[1]⟩
  Ext2.assertIsEqual Ext2.one (Ext2.mul inv x)
  pure inv

/-- tower.go:400-417 with the hint spelled out -/
def divE2 (rx ry : E2 ℕ) (x y : E2 Fp) : Circ (E2 Fp) := do
  let res ← newHint .divE2 2 (args2 rx ++ args2 ry)
  let div : E2 Fp := ⟨res[0], res[1]⟩
  Ext2.assertIsEqual x (Ext2.mul div y)
  pure div

/-- the arguments `&x.B0.A0, &x.B0.A1, &x.B1.A0, ...` at the call sites tower.go:683-724, 1152-1179; `rx` are the integers
representing the coordinates of `x` -/
def args6 (rx : E6 ℕ) : List ℕ := [rx.B0.A0, rx.B0.A1, rx.B1.A0, rx.B1.A1, rx.B2.A0, rx.B2.A1]

/-- tower.go:683-704 with the hint spelled out -/
def inverseE6 (rx : E6 ℕ) (x : E6 Fp) : Circ (E6 Fp) := do
  let res ← newHint .inverseE6 6 (args6 rx)
  let inv : E6 Fp := ⟨⟨res[0], res[1]⟩, ⟨res[2], res[3]⟩, ⟨res[4], res[5]⟩⟩
  Ext6.assertIsEqual Ext6.one (Ext6.mul inv x)
  pure inv

/-- tower.go:706-724 with the hint spelled out -/
def divE6 (rx ry : E6 ℕ) (x y : E6 Fp) : Circ (E6 Fp) := do
  let res ← newHint .divE6 6 (args6 rx ++ args6 ry)
  let div : E6 Fp := ⟨⟨res[0], res[1]⟩, ⟨res[2], res[3]⟩, ⟨res[4], res[5]⟩⟩
  Ext6.assertIsEqual x (Ext6.mul div y)
  pure div

/-- the arguments `&x.C0.B0.A0, &x.C0.B0.A1, &x.C0.B1.A0, ...` at the call sites tower.go:863-919; `rx` are the integers
representing the coordinates of `x` -/
def args12 (rx : E12 ℕ) : List ℕ := [rx.C0.B0.A0, rx.C0.B0.A1, rx.C0.B1.A0, rx.C0.B1.A1, rx.C0.B2.A0, rx.C0.B2.A1, rx.C1.B0.A0, rx.C1.B0.A1, rx.C1.B1.A0, rx.C1.B1.A1, rx.C1.B2.A0, rx.C1.B2.A1]

/-- tower.go:863-891 with the hint spelled out -/
def inverseE12 (rx : E12 ℕ) (x : E12 Fp) : Circ (E12 Fp) := do
  let res ← newHint .inverseE12 12 (args12 rx)
  let inv : E12 Fp := ⟨⟨⟨res[0], res[1]⟩, ⟨res[2], res[3]⟩, ⟨res[4], res[5]⟩⟩,
    ⟨⟨res[6], res[7]⟩, ⟨res[8], res[9]⟩, ⟨res[10], res[11]⟩⟩⟩
  Ext12.assertIsEqual Ext12.one (Ext12.mul inv x)
  pure inv

/-- tower.go:893-919 with the hint spelled out -/
def divE12 (rx ry : E12 ℕ) (x y : E12 Fp) : Circ (E12 Fp) := do
  let res ← newHint .divE12 12 (args12 rx ++ args12 ry)
  let div : E12 Fp := ⟨⟨⟨res[0], res[1]⟩, ⟨res[2], res[3]⟩, ⟨res[4], res[5]⟩⟩,
    ⟨⟨res[6], res[7]⟩, ⟨res[8], res[9]⟩, ⟨res[10], res[11]⟩⟩⟩
  Ext12.assertIsEqual x (Ext12.mul div y)
  pure div

/-- tower.go:1152-1179 with the hint spelled out -/
def squareTorus (ry : E6 ℕ) (y : E6 Fp) : Circ (E6 Fp) := do
  let res ← newHint .squareTorus 6 (args6 ry)
  let sq : E6 Fp := ⟨⟨res[0], res[1]⟩, ⟨res[2], res[3]⟩, ⟨res[4], res[5]⟩⟩
  let v := Ext6.double sq
  let v := Ext6.sub v y
  let v := Ext6.mul v y
  let v' : E6 Fp := ⟨Ext2.zero, Ext2.one, Ext2.zero⟩
  Ext6.assertIsEqual v v'
  pure sq

/-! ### off-circuit values as circuit inputs -/

/-- tower.go:372-377 `FromE2` (`ValueOf` keeps the value) -/
def fromE2 (y : E2 Fp) : E2 Fp := ⟨y.A0, y.A1⟩

/-- tower.go:674-681 `FromE6` -/
def fromE6 (y : E6 Fp) : E6 Fp := ⟨fromE2 y.B0, fromE2 y.B1, fromE2 y.B2⟩

/-- tower.go:855-861 `FromE12` -/
def fromE12 (y : E12 Fp) : E12 Fp := ⟨fromE6 y.C0, fromE6 y.C1⟩

/-- pairing.go:23-54 `NewGTEl` -/
def newGTEl (v : E12 Fp) : E12 Fp :=
  ⟨⟨⟨v.C0.B0.A0, v.C0.B0.A1⟩, ⟨v.C0.B1.A0, v.C0.B1.A1⟩, ⟨v.C0.B2.A0, v.C0.B2.A1⟩⟩,
   ⟨⟨v.C1.B0.A0, v.C1.B0.A1⟩, ⟨v.C1.B1.A0, v.C1.B1.A1⟩, ⟨v.C1.B2.A0, v.C1.B2.A1⟩⟩⟩

end Spark.Hints
