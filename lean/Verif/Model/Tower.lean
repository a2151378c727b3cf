import Verif.Emulated

/-!
# Model of `pairing_bls12381/tower.go`

Every function of the three extension rings, line by line.  `e.fp.Add/Sub/Neg/MulMod/MulConst` are
`+ - - * ·` of the base field `K` (see `Verif/Emulated.lean`).  Functions that create no hint and no
assertion are plain functions; the others live in `Circ`.  Pointers are modelled by values (tower.go
never writes through its arguments).  `FromE2/6/12` (copying of off-circuit values) are modelled in
Model/Hints.lean.  The hints `inverseE2Hint`, `divE2Hint`, `inverseE6Hint`, `divE6Hint`,
`inverseE12Hint`, `divE12Hint` (hints.go:33-67, 89-145, 174-260) call gnark-crypto's field inversion
(which maps 0 to 0) and multiplication; the honest hint values are `x⁻¹` and `y⁻¹ * x`.
-/

namespace Spark

open Circ

variable {K : Type}

/-! ## Ext2 -/
namespace Ext2

section ring
variable [CommRing K]

/-- tower.go:271-284 `Ext2.Mul` (and the identical lower-case `ext2.Mul`, tower.go:48-62) -/
def mul (x y : E2 K) : E2 K :=
  let a := x.A0 + x.A1
  let b := y.A0 + y.A1
  let a := a * b
  let b := x.A0 * y.A0
  let c := x.A1 * y.A1
  let z1 := a - b
  let z1 := z1 - c
  let z0 := b - c
  ⟨z0, z1⟩

/-- tower.go:286-293 -/
def add (x y : E2 K) : E2 K := ⟨x.A0 + y.A0, x.A1 + y.A1⟩
/-- tower.go:295-302 -/
def sub (x y : E2 K) : E2 K := ⟨x.A0 - y.A0, x.A1 - y.A1⟩
/-- tower.go:304-311 -/
def neg (x : E2 K) : E2 K := ⟨-x.A0, -x.A1⟩
/-- tower.go:313-320 -/
def one : E2 K := ⟨1, 0⟩
/-- tower.go:322-329 -/
def zero : E2 K := ⟨0, 0⟩
/-- tower.go:336-343 -/
def nonResidue : E2 K := ⟨1, 1⟩

/-- tower.go:345-355 -/
def square (x : E2 K) : E2 K :=
  let a := x.A0 + x.A1
  let b := x.A0 - x.A1
  let a := a * b
  let b := x.A0 * x.A1
  let b := 2 * b
  ⟨a, b⟩

/-- tower.go:357-365 -/
def double (x : E2 K) : E2 K := ⟨2 * x.A0, 2 * x.A1⟩
/-- tower.go:146-153 -/
def mulByElement (x : E2 K) (y : K) : E2 K := ⟨x.A0 * y, x.A1 * y⟩
/-- tower.go:155-162; the constant is a big integer -/
def mulByConstElement (x : E2 K) (y : ℤ) : E2 K := ⟨(y : K) * x.A0, (y : K) * x.A1⟩
/-- tower.go:164-171 -/
def conjugate (x : E2 K) : E2 K := ⟨x.A0, -x.A1⟩
/-- tower.go:179-188 -/
def mulByNonResidue (x : E2 K) : E2 K :=
  let a := x.A0 - x.A1
  let b := x.A0 + x.A1
  ⟨a, b⟩

end ring

section circ
variable [Field K] [TowerField K] [DecidableEq K]

/-- tower.go:330-334 -/
def isZero (z : E2 K) : Circ Fr := apiAnd (fpIsZero z.A0) (fpIsZero z.A1)

/-- tower.go:367-370 -/
def assertIsEqual (x y : E2 K) : Circ Unit := do
  fpAssertEq x.A0 y.A0
  fpAssertEq x.A1 y.A1

/-- tower.go:379-398 -/
def inverse (x : E2 K) : Circ (E2 K) := do
  let inv ← hint (some x⁻¹)
  assertIsEqual one (mul inv x)
  pure inv

/-- tower.go:400-417 (hints.go:50-67) -/
def divUnchecked (x y : E2 K) : Circ (E2 K) := do
  let div ← hint (some (y⁻¹ * x))
  assertIsEqual x (mul div y)
  pure div

/-- tower.go:64-70 -/
def div (x y : E2 K) : Circ (E2 K) := do
  let r ← inverse y
  pure (mul x r)

/-- tower.go:33-46, the lower-case `ext2.Inverse` used by the isogeny -/
def inverseLc (x : E2 K) : Circ (E2 K) := do
  let t0 := x.A0 * x.A0
  let t1 := x.A1 * x.A1
  let t0 := t0 + t1
  let t1 ← fpInverse t0
  let z0 := x.A0 * t1
  let z1 := x.A1 * t1
  let z1 := -z1
  pure ⟨z0, z1⟩

/-- tower.go:419-423 -/
def select (s : Fr) (z1 z0 : E2 K) : Circ (E2 K) := do
  let a0 ← fpSelect s z1.A0 z0.A0
  let a1 ← fpSelect s z1.A1 z0.A1
  pure ⟨a0, a1⟩

/-- tower.go:425-429 -/
def lookup2 (s1 s2 : Fr) (a b c d : E2 K) : Circ (E2 K) := do
  let a0 ← fpLookup2 s1 s2 a.A0 b.A0 c.A0 d.A0
  let a1 ← fpLookup2 s1 s2 a.A1 b.A1 c.A1 d.A1
  pure ⟨a0, a1⟩

end circ

/-! ### the tables (constants: `K = Fp`) -/

/-- tower.go:117-131 the `pwrs` map of `NewExt2` (missing keys: the Go map access returns a nil
pointer and the multiplication panics) -/
def nonResidues : ℕ → ℕ → Option (E2 Fp)
  | 1, 1 => some ⟨3850754370037169011952147076051364057158807420970682438676050522613628423219637725072182697113062777891589506424760, 151655185184498381465642749684540099398075398968325446656007613510403227271200139370504932015952886146304766135027⟩
  | 1, 2 => some ⟨0, 4002409555221667392624310435006688643935503118305586438271171395842971157480381377015405980053539358417135540939436⟩
  | 1, 3 => some ⟨1028732146235106349975324479215795277384839936929757896155643118032610843298655225875571310552543014690878354869257, 1028732146235106349975324479215795277384839936929757896155643118032610843298655225875571310552543014690878354869257⟩
  | 1, 4 => some ⟨4002409555221667392624310435006688643935503118305586438271171395842971157480381377015405980053539358417135540939437, 0⟩
  | 1, 5 => some ⟨877076961050607968509681729531255177986764537961432449499635504522207616027455086505066378536590128544573588734230, 3125332594171059424908108096204648978570118281977575435832422631601824034463382777937621250592425535493320683825557⟩
  | 2, 1 => some ⟨793479390729215512621379701633421447060886740281060493010456487427281649075476305620758731620351, 0⟩
  | 2, 2 => some ⟨793479390729215512621379701633421447060886740281060493010456487427281649075476305620758731620350, 0⟩
  | 2, 3 => some ⟨4002409555221667393417789825735904156556882819939007885332058136124031650490837864442687629129015664037894272559786, 0⟩
  | 2, 4 => some ⟨4002409555221667392624310435006688643935503118305586438271171395842971157480381377015405980053539358417135540939436, 0⟩
  | 2, 5 => some ⟨4002409555221667392624310435006688643935503118305586438271171395842971157480381377015405980053539358417135540939437, 0⟩
  | _, _ => none

/-- tower.go:173-177 -/
def mulByNonResidueGeneric (x : E2 Fp) (power coef : ℕ) : Option (E2 Fp) :=
  (nonResidues power coef).map fun y => mul x y

/-- tower.go:190-193 -/
def mulByNonResidue1Power1 (x : E2 Fp) : Option (E2 Fp) := mulByNonResidueGeneric x 1 1
/-- tower.go:195-205 -/
def mulByNonResidue1Power2 (x : E2 Fp) : E2 Fp :=
  let element : Fp := 4002409555221667392624310435006688643935503118305586438271171395842971157480381377015405980053539358417135540939436
  let a := x.A1 * element
  let a := -a
  let b := x.A0 * element
  ⟨a, b⟩
/-- tower.go:207-210 -/
def mulByNonResidue1Power3 (x : E2 Fp) : Option (E2 Fp) := mulByNonResidueGeneric x 1 3
/-- tower.go:212-219 -/
def mulByNonResidue1Power4 (x : E2 Fp) : E2 Fp :=
  let element : Fp := 4002409555221667392624310435006688643935503118305586438271171395842971157480381377015405980053539358417135540939437
  ⟨x.A0 * element, x.A1 * element⟩
/-- tower.go:221-224 -/
def mulByNonResidue1Power5 (x : E2 Fp) : Option (E2 Fp) := mulByNonResidueGeneric x 1 5
/-- tower.go:226-233 -/
def mulByNonResidue2Power1 (x : E2 Fp) : E2 Fp :=
  let element : Fp := 793479390729215512621379701633421447060886740281060493010456487427281649075476305620758731620351
  ⟨x.A0 * element, x.A1 * element⟩
/-- tower.go:235-242 -/
def mulByNonResidue2Power2 (x : E2 Fp) : E2 Fp :=
  let element : Fp := 793479390729215512621379701633421447060886740281060493010456487427281649075476305620758731620350
  ⟨x.A0 * element, x.A1 * element⟩
/-- tower.go:244-251 -/
def mulByNonResidue2Power3 (x : E2 Fp) : E2 Fp :=
  let element : Fp := 4002409555221667393417789825735904156556882819939007885332058136124031650490837864442687629129015664037894272559786
  ⟨x.A0 * element, x.A1 * element⟩
/-- tower.go:253-260 -/
def mulByNonResidue2Power4 (x : E2 Fp) : E2 Fp :=
  let element : Fp := 4002409555221667392624310435006688643935503118305586438271171395842971157480381377015405980053539358417135540939436
  ⟨x.A0 * element, x.A1 * element⟩
/-- tower.go:262-269 -/
def mulByNonResidue2Power5 (x : E2 Fp) : E2 Fp :=
  let element : Fp := 4002409555221667392624310435006688643935503118305586438271171395842971157480381377015405980053539358417135540939437
  ⟨x.A0 * element, x.A1 * element⟩

end Ext2

/-! ## Ext6 -/
namespace Ext6

section ring
variable [CommRing K]

/-- tower.go:443-452 -/
def one : E6 K := ⟨Ext2.one, Ext2.zero, Ext2.zero⟩
/-- tower.go:454-463 -/
def zero : E6 K := ⟨Ext2.zero, Ext2.zero, Ext2.zero⟩
/-- tower.go:472-481 -/
def add (x y : E6 K) : E6 K := ⟨Ext2.add x.B0 y.B0, Ext2.add x.B1 y.B1, Ext2.add x.B2 y.B2⟩
/-- tower.go:483-492 -/
def neg (x : E6 K) : E6 K := ⟨Ext2.neg x.B0, Ext2.neg x.B1, Ext2.neg x.B2⟩
/-- tower.go:494-503 -/
def sub (x y : E6 K) : E6 K := ⟨Ext2.sub x.B0 y.B0, Ext2.sub x.B1 y.B1, Ext2.sub x.B2 y.B2⟩

/-- tower.go:505-534 -/
def mul (x y : E6 K) : E6 K :=
  let t0 := Ext2.mul x.B0 y.B0
  let t1 := Ext2.mul x.B1 y.B1
  let t2 := Ext2.mul x.B2 y.B2
  let c0 := Ext2.add x.B1 x.B2
  let tmp := Ext2.add y.B1 y.B2
  let c0 := Ext2.mul c0 tmp
  let c0 := Ext2.sub c0 t1
  let c0 := Ext2.sub c0 t2
  let c0 := Ext2.mulByNonResidue c0
  let c0 := Ext2.add c0 t0
  let c1 := Ext2.add x.B0 x.B1
  let tmp := Ext2.add y.B0 y.B1
  let c1 := Ext2.mul c1 tmp
  let c1 := Ext2.sub c1 t0
  let c1 := Ext2.sub c1 t1
  let tmp := Ext2.mulByNonResidue t2
  let c1 := Ext2.add c1 tmp
  let tmp := Ext2.add x.B0 x.B2
  let c2 := Ext2.add y.B0 y.B2
  let c2 := Ext2.mul c2 tmp
  let c2 := Ext2.sub c2 t0
  let c2 := Ext2.sub c2 t2
  let c2 := Ext2.add c2 t1
  ⟨c0, c1, c2⟩

/-- tower.go:536-545 -/
def double (x : E6 K) : E6 K := ⟨Ext2.double x.B0, Ext2.double x.B1, Ext2.double x.B2⟩

/-- tower.go:547-572 -/
def square (x : E6 K) : E6 K :=
  let c4 := Ext2.mul x.B0 x.B1
  let c4 := Ext2.double c4
  let c5 := Ext2.square x.B2
  let c1 := Ext2.mulByNonResidue c5
  let c1 := Ext2.add c1 c4
  let c2 := Ext2.sub c4 c5
  let c3 := Ext2.square x.B0
  let c4 := Ext2.sub x.B0 x.B1
  let c4 := Ext2.add c4 x.B2
  let c5 := Ext2.mul x.B1 x.B2
  let c5 := Ext2.double c5
  let c4 := Ext2.square c4
  let c0 := Ext2.mulByNonResidue c5
  let c0 := Ext2.add c0 c3
  let z2 := Ext2.add c2 c4
  let z2 := Ext2.add z2 c5
  let z2 := Ext2.sub z2 c3
  ⟨c0, c1, z2⟩

/-- tower.go:574-583 -/
def mulByE2 (x : E6 K) (y : E2 K) : E6 K := ⟨Ext2.mul x.B0 y, Ext2.mul x.B1 y, Ext2.mul x.B2 y⟩

/-- tower.go:585-609 -/
def mulBy12 (x : E6 K) (b1 b2 : E2 K) : E6 K :=
  let t1 := Ext2.mul x.B1 b1
  let t2 := Ext2.mul x.B2 b2
  let c0 := Ext2.add x.B1 x.B2
  let tmp := Ext2.add b1 b2
  let c0 := Ext2.mul c0 tmp
  let c0 := Ext2.sub c0 t1
  let c0 := Ext2.sub c0 t2
  let c0 := Ext2.mulByNonResidue c0
  let c1 := Ext2.add x.B0 x.B1
  let c1 := Ext2.mul c1 b1
  let c1 := Ext2.sub c1 t1
  let tmp := Ext2.mulByNonResidue t2
  let c1 := Ext2.add c1 tmp
  let tmp := Ext2.add x.B0 x.B2
  let c2 := Ext2.mul b2 tmp
  let c2 := Ext2.sub c2 t2
  let c2 := Ext2.add c2 t1
  ⟨c0, c1, c2⟩

/-- tower.go:611-631 -/
def mulBy0 (z : E6 K) (c0 : E2 K) : E6 K :=
  let a := Ext2.mul z.B0 c0
  let tmp := Ext2.add z.B0 z.B2
  let t2 := Ext2.mul c0 tmp
  let t2 := Ext2.sub t2 a
  let tmp := Ext2.add z.B0 z.B1
  let t1 := Ext2.mul c0 tmp
  let t1 := Ext2.sub t1 a
  ⟨a, t1, t2⟩

/-- tower.go:633-656 -/
def mulBy01 (z : E6 K) (c0 c1 : E2 K) : E6 K :=
  let a := Ext2.mul z.B0 c0
  let b := Ext2.mul z.B1 c1
  let tmp := Ext2.add z.B1 z.B2
  let t0 := Ext2.mul c1 tmp
  let t0 := Ext2.sub t0 b
  let t0 := Ext2.mulByNonResidue t0
  let t0 := Ext2.add t0 a
  let tmp := Ext2.add z.B0 z.B2
  let t2 := Ext2.mul c0 tmp
  let t2 := Ext2.sub t2 a
  let t2 := Ext2.add t2 b
  let t1 := Ext2.add c0 c1
  let tmp := Ext2.add z.B0 z.B1
  let t1 := Ext2.mul t1 tmp
  let t1 := Ext2.sub t1 a
  let t1 := Ext2.sub t1 b
  ⟨t0, t1, t2⟩

/-- tower.go:658-666 -/
def mulByNonResidue (x : E6 K) : E6 K :=
  let z2 := x.B1
  let z1 := x.B0
  let z0 := x.B2
  let z0 := Ext2.mulByNonResidue z0
  ⟨z0, z1, z2⟩

end ring

section circ
variable [Field K] [TowerField K] [DecidableEq K]

/-- tower.go:465-470 -/
def isZero (z : E6 K) : Circ Fr := do
  let b0 ← Ext2.isZero z.B0
  let b1 ← Ext2.isZero z.B1
  let b2 ← Ext2.isZero z.B2
  let b01 ← apiAnd b0 b1
  apiAnd b01 b2

/-- tower.go:668-672 -/
def assertIsEqual (x y : E6 K) : Circ Unit := do
  Ext2.assertIsEqual x.B0 y.B0
  Ext2.assertIsEqual x.B1 y.B1
  Ext2.assertIsEqual x.B2 y.B2

/-- tower.go:683-704 -/
def inverse (x : E6 K) : Circ (E6 K) := do
  let inv ← hint (some x⁻¹)
  assertIsEqual one (mul inv x)
  pure inv

/-- tower.go:706-724 (hints.go:115-145) -/
def divUnchecked (x y : E6 K) : Circ (E6 K) := do
  let div ← hint (some (y⁻¹ * x))
  assertIsEqual x (mul div y)
  pure div

/-- tower.go:726-731 -/
def select (s : Fr) (z1 z0 : E6 K) : Circ (E6 K) := do
  let b0 ← Ext2.select s z1.B0 z0.B0
  let b1 ← Ext2.select s z1.B1 z0.B1
  let b2 ← Ext2.select s z1.B2 z0.B2
  pure ⟨b0, b1, b2⟩

/-- tower.go:733-738 -/
def lookup2 (s1 s2 : Fr) (a b c d : E6 K) : Circ (E6 K) := do
  let b0 ← Ext2.lookup2 s1 s2 a.B0 b.B0 c.B0 d.B0
  let b1 ← Ext2.lookup2 s1 s2 a.B1 b.B1 c.B1 d.B1
  let b2 ← Ext2.lookup2 s1 s2 a.B2 b.B2 c.B2 d.B2
  pure ⟨b0, b1, b2⟩

end circ
end Ext6

/-! ## Ext12 -/
namespace Ext12

section ring
variable [CommRing K]

/-- tower.go:752-759 -/
def add (x y : E12 K) : E12 K := ⟨Ext6.add x.C0 y.C0, Ext6.add x.C1 y.C1⟩
/-- tower.go:761-768 -/
def sub (x y : E12 K) : E12 K := ⟨Ext6.sub x.C0 y.C0, Ext6.sub x.C1 y.C1⟩
/-- tower.go:770-776 -/
def conjugate (x : E12 K) : E12 K := ⟨x.C0, Ext6.neg x.C1⟩

/-- tower.go:778-792 -/
def mul (x y : E12 K) : E12 K :=
  let a := Ext6.add x.C0 x.C1
  let b := Ext6.add y.C0 y.C1
  let a := Ext6.mul a b
  let b := Ext6.mul x.C0 y.C0
  let c := Ext6.mul x.C1 y.C1
  let z1 := Ext6.sub a b
  let z1 := Ext6.sub z1 c
  let z0 := Ext6.mulByNonResidue c
  let z0 := Ext6.add z0 b
  ⟨z0, z1⟩

/-- tower.go:794-808 -/
def zero : E12 K := ⟨⟨⟨0, 0⟩, ⟨0, 0⟩, ⟨0, 0⟩⟩, ⟨⟨0, 0⟩, ⟨0, 0⟩, ⟨0, 0⟩⟩⟩
/-- tower.go:810-825 -/
def one : E12 K := ⟨⟨⟨1, 0⟩, ⟨0, 0⟩, ⟨0, 0⟩⟩, ⟨⟨0, 0⟩, ⟨0, 0⟩, ⟨0, 0⟩⟩⟩

/-- tower.go:833-848 -/
def square (x : E12 K) : E12 K :=
  let c0 := Ext6.sub x.C0 x.C1
  let c3 := Ext6.mulByNonResidue x.C1
  let c3 := Ext6.neg c3
  let c3 := Ext6.add x.C0 c3
  let c2 := Ext6.mul x.C0 x.C1
  let c0 := Ext6.mul c0 c3
  let c0 := Ext6.add c0 c2
  let z1 := Ext6.double c2
  let c2 := Ext6.mulByNonResidue c2
  let z0 := Ext6.add c0 c2
  ⟨z0, z1⟩

/-- tower.go:1003-1034 `MulBy014` -/
def mulBy014 (z : E12 K) (c0 c1 : E2 K) : E12 K :=
  let a := z.C0
  let a := Ext6.mulBy01 a c0 c1
  let b : E6 K := ⟨Ext2.mulByNonResidue z.C1.B2, z.C1.B0, z.C1.B1⟩
  let one := Ext2.one
  let d := Ext2.add c1 one
  let zC1 := Ext6.add z.C1 z.C0
  let zC1 := Ext6.mulBy01 zC1 c0 d
  let zC1 := Ext6.sub zC1 a
  let zC1 := Ext6.sub zC1 b
  let zC0 := Ext6.mulByNonResidue b
  let zC0 := Ext6.add zC0 a
  ⟨zC0, zC1⟩

/-- tower.go:1036-1073 `Mul014By014`: the five non-trivial coordinates -/
def mul014By014 (d0 d1 c0 c1 : E2 K) : E2 K × E2 K × E2 K × E2 K × E2 K :=
  let one := Ext2.one
  let x0 := Ext2.mul c0 d0
  let x1 := Ext2.mul c1 d1
  let tmp := Ext2.add c0 one
  let x04 := Ext2.add d0 one
  let x04 := Ext2.mul x04 tmp
  let x04 := Ext2.sub x04 x0
  let x04 := Ext2.sub x04 one
  let tmp := Ext2.add c0 c1
  let x01 := Ext2.add d0 d1
  let x01 := Ext2.mul x01 tmp
  let x01 := Ext2.sub x01 x0
  let x01 := Ext2.sub x01 x1
  let tmp := Ext2.add c1 one
  let x14 := Ext2.add d1 one
  let x14 := Ext2.mul x14 tmp
  let x14 := Ext2.sub x14 x1
  let x14 := Ext2.sub x14 one
  let zC0B0 := Ext2.nonResidue
  let zC0B0 := Ext2.add zC0B0 x0
  (zC0B0, x01, x1, x04, x14)

/-- tower.go:1075-1097 `MulBy01245` -/
def mulBy01245 (z : E12 K) (x : E2 K × E2 K × E2 K × E2 K × E2 K) : E12 K :=
  let (x0, x1, x2, x3, x4) := x
  let c0 : E6 K := ⟨x0, x1, x2⟩
  let c1 : E6 K := ⟨Ext2.zero, x3, x4⟩
  let a := Ext6.add z.C0 z.C1
  let b := Ext6.add c0 c1
  let a := Ext6.mul a b
  let b := Ext6.mul z.C0 c0
  let c := Ext6.mulBy12 z.C1 x3 x4
  let z1 := Ext6.sub a b
  let z1 := Ext6.sub z1 c
  let z0 := Ext6.mulByNonResidue c
  let z0 := Ext6.add z0 b
  ⟨z0, z1⟩

end ring

section circ
variable [Field K] [TowerField K] [DecidableEq K]

/-- tower.go:827-831 -/
def isZero (z : E12 K) : Circ Fr := do
  let c0 ← Ext6.isZero z.C0
  let c1 ← Ext6.isZero z.C1
  apiAnd c0 c1

/-- tower.go:850-853 -/
def assertIsEqual (x y : E12 K) : Circ Unit := do
  Ext6.assertIsEqual x.C0 y.C0
  Ext6.assertIsEqual x.C1 y.C1

/-- tower.go:863-891 -/
def inverse (x : E12 K) : Circ (E12 K) := do
  let inv ← hint (some x⁻¹)
  assertIsEqual one (mul inv x)
  pure inv

/-- tower.go:893-919 (hints.go:212-260) -/
def divUnchecked (x y : E12 K) : Circ (E12 K) := do
  let div ← hint (some (y⁻¹ * x))
  assertIsEqual x (mul div y)
  pure div

/-- tower.go:921-925 -/
def select (s : Fr) (z1 z0 : E12 K) : Circ (E12 K) := do
  let c0 ← Ext6.select s z1.C0 z0.C0
  let c1 ← Ext6.select s z1.C1 z0.C1
  pure ⟨c0, c1⟩

/-- tower.go:927-931 -/
def lookup2 (s1 s2 : Fr) (a b c d : E12 K) : Circ (E12 K) := do
  let c0 ← Ext6.lookup2 s1 s2 a.C0 b.C0 c.C0 d.C0
  let c1 ← Ext6.lookup2 s1 s2 a.C1 b.C1 c.C1 d.C1
  pure ⟨c0, c1⟩

/-! ### torus arithmetic -/

/-- tower.go:1114-1120 -/
def compressTorus (x : E12 K) : Circ (E6 K) := do
  let y := Ext6.add x.C0 Ext6.one
  Ext6.divUnchecked y x.C1

/-- tower.go:1122-1133 -/
def decompressTorus (y : E6 K) : Circ (E12 K) := do
  let one : E6 K := Ext6.one
  let n : E12 K := ⟨y, one⟩
  let d : E12 K := ⟨y, Ext6.neg one⟩
  divUnchecked n d

/-- tower.go:1135-1144 -/
def mulTorus (y1 y2 : E6 K) : Circ (E6 K) := do
  let n := Ext6.mul y1 y2
  let n : E6 K := ⟨n.B0, Ext2.add n.B1 Ext2.one, n.B2⟩
  let d := Ext6.add y1 y2
  Ext6.divUnchecked n d

/-- tower.go:1146-1150 -/
def inverseTorus (y : E6 K) : E6 K := Ext6.neg y

/-- The Granger-Scott squaring `E12.CyclotomicSquare` of gnark-crypto (called by hints.go:160; not
in `/repo`).  It is the square only on the cyclotomic subgroup. -/
def cyclotomicSquare (x : E12 K) : E12 K :=
  let x0 := x.C0.B0
  let x1 := x.C0.B1
  let x2 := x.C0.B2
  let x3 := x.C1.B0
  let x4 := x.C1.B1
  let x5 := x.C1.B2
  ⟨⟨3 * (x4 * x4 * E2.xi) + 3 * (x0 * x0) - 2 * x0,
    3 * (x2 * x2 * E2.xi) + 3 * (x3 * x3) - 2 * x1,
    3 * (x5 * x5 * E2.xi) + 3 * (x1 * x1) - 2 * x2⟩,
   ⟨6 * (x1 * x5 * E2.xi) + 2 * x3,
    6 * (x0 * x4) + 2 * x4,
    6 * (x2 * x3) + 2 * x5⟩⟩

/-- hints.go:147-172 `squareTorusHint`: decompress `(y+w)/(y-w)`, cyclotomic square, compress
`(C0+1)/C1` (gnark-crypto's failing compression returns the zero value, like `0⁻¹ = 0`) -/
def squareTorusHint (y : E6 K) : E6 K :=
  let c : E12 K := (⟨y, -1⟩ : E12 K)⁻¹ * ⟨y, 1⟩
  let c := cyclotomicSquare c
  (c.C0 + 1) * c.C1⁻¹

/-- tower.go:1152-1179 -/
def squareTorus (y : E6 K) : Circ (E6 K) := do
  let sq ← hint (some (squareTorusHint y))
  let v := Ext6.double sq
  let v := Ext6.sub v y
  let v := Ext6.mul v y
  let v' : E6 K := ⟨Ext2.zero, Ext2.one, Ext2.zero⟩
  Ext6.assertIsEqual v v'
  pure sq

/-- tower.go:933-938 -/
def nSquareTorus (z : E6 K) : ℕ → Circ (E6 K)
  | 0 => pure z
  | n + 1 => do
    let z ← squareTorus z
    nSquareTorus z n

/-- tower.go:940-993 -/
def exptHalfTorus (x : E6 K) : Circ (E6 K) := do
  let z ← squareTorus x
  let z ← mulTorus x z
  let z ← squareTorus z
  let z ← squareTorus z
  let z ← mulTorus x z
  let z ← nSquareTorus z 3
  let z ← mulTorus x z
  let z ← nSquareTorus z 9
  let z ← mulTorus x z
  let z ← nSquareTorus z 32
  let z ← mulTorus x z
  let z ← nSquareTorus z 15
  pure (inverseTorus z)

/-- tower.go:995-1001 -/
def exptTorus (x : E6 K) : Circ (E6 K) := do
  let z ← exptHalfTorus x
  squareTorus z

end circ

/-- tower.go:1181-1195 -/
def frobeniusTorus (y : E6 Fp) : E6 Fp :=
  let t0 := Ext2.conjugate y.B0
  let t1 := Ext2.conjugate y.B1
  let t2 := Ext2.conjugate y.B2
  let t1 := Ext2.mulByNonResidue1Power2 t1
  let t2 := Ext2.mulByNonResidue1Power4 t2
  let v0 : E2 Fp := ⟨877076961050607968509681729531255177986764537961432449499635504522207616027455086505066378536590128544573588734230, 877076961050607968509681729531255177986764537961432449499635504522207616027455086505066378536590128544573588734230⟩
  let res : E6 Fp := ⟨t0, t1, t2⟩
  Ext6.mulBy0 res v0

/-- tower.go:1197-1208 -/
def frobeniusSquareTorus (y : E6 Fp) : E6 Fp :=
  let v0 : Fp := 4002409555221667392624310435006688643935503118305586438271171395842971157480381377015405980053539358417135540939437
  let t0 := Ext2.mulByElement y.B0 v0
  let t1 := Ext2.mulByNonResidue2Power2 y.B1
  let t1 := Ext2.mulByElement t1 v0
  let t2 := Ext2.mulByNonResidue2Power4 y.B2
  let t2 := Ext2.mulByElement t2 v0
  ⟨t0, t1, t2⟩

end Ext12
end Spark
