import Verif.Model.Pairing

/-!
# Model of `pairing_bls12381/g2.go` (and the copies of its helpers in `hashG2.go`)

Points are coordinate tuples; nothing in these functions checks that they are on the curve.
`ba.Reduce` of gnark replaces an element by *some* representative that fits its limbs: the value is a
hint, constrained to be below `2^381` (the limb widths) and congruent to the element, so the prover
may use the second representative `v + p` whenever `v + p < 2^381`.  (Elements without overflow are
returned unchanged by gnark; their representative was then chosen when the element was created.  The
model lets the prover choose at every `Reduce`, which includes all those behaviours.)
The methods `(*Pairing).E2NotZero`, `G1NotZero`, `G1NotEqual`, `E2NotEqual`, `GetG2JacFromG2Affine`,
`GetG2AffineFromG2Jac`, `G2AffineNotInfinity` (hashG2.go:526-630, 670-674) have the same text as the
functions of g2.go and are modelled once.
-/

namespace Spark

/-- g2.go:17-19 -/
@[ext] structure G2Jacobian (K : Type) where
  X : E2 K
  Y : E2 K
  Z : E2 K

namespace G2

open Circ

/-- gnark `Field.Reduce` (g2.go:99, 120-121, hashG2.go:225-226, 537, 560-561, 769-772, pairing.go:754-755; see the header) -/
def fpReduce (x : Fp) : Circ ℕ := do
  let v ← hint (some x.val)
  assert (v < 2 ^ 381 ∧ (v : Fp) = x)
  pure v

/-- gnark `Field.ToBits` of a reduced element (g2.go:100, 122-123, hashG2.go:538, 562-563): the 384 bits of its six 64-bit limbs -/
def toBits (v : ℕ) : List Fr := (bitsOf 384 v).toList

/-- g2.go:94-107 (hashG2.go:532-545) -/
def g1NotZero (x : Fp) : Circ Fr := do
  let x ← fpReduce x
  (toBits x).foldlM (fun isNotZero b => apiOr isNotZero b) 0

/-- g2.go:109-113 (hashG2.go:526-530) -/
def e2NotZero (x : E2 Fp) : Circ Fr := do
  let a0NotZero ← g1NotZero x.A0
  let a1NotZero ← g1NotZero x.A1
  apiOr a0NotZero a1NotZero

/-- the loop of g2.go:125-129 (hashG2.go:567-571): `notEqual |= xBits[i] ^ yBits[i]` -/
def notEqualLoop (xBits yBits : List Fr) : Circ Fr :=
  (xBits.zip yBits).foldlM (fun notEqual b => do apiOr notEqual (← apiXor b.1 b.2)) 0

/-- g2.go:115-132 (hashG2.go:555-574) -/
def g1NotEqual (x y : Fp) : Circ Fr := do
  let x ← fpReduce x
  let y ← fpReduce y
  notEqualLoop (toBits x) (toBits y)

/-- g2.go:134-139 (hashG2.go:576-581) -/
def e2NotEqual (x y : E2 Fp) : Circ Fr := do
  let a0NotEqual ← g1NotEqual x.A0 y.A0
  let a1NotEqual ← g1NotEqual x.A1 y.A1
  apiOr a0NotEqual a1NotEqual

/-- hashG2.go:547-553; `ba.One()` is a constant, `Reduce` leaves it alone -/
def g1NotEqualOne (x : Fp) : Circ Fr := do
  let x ← fpReduce x
  notEqualLoop (toBits x) (toBits 1)

/-- hashG2.go:581-586 -/
def e2NotOne (x : E2 Fp) : Circ Fr := do
  let a0NotOne ← g1NotEqualOne x.A0
  let a1NotZero ← g1NotZero x.A1
  apiOr a0NotOne a1NotZero

section ring
variable {K : Type} [CommRing K]

/-- g2.go:34-67 -/
def jacDouble (p : G2Jacobian K) : G2Jacobian K :=
  let XX := Ext2.square p.X
  let YY := Ext2.square p.Y
  let YYYY := Ext2.square YY
  let ZZ := Ext2.square p.Z
  let S := Ext2.add p.X YY
  let S := Ext2.square S
  let S := Ext2.sub S XX
  let S := Ext2.sub S YYYY
  let S := Ext2.double S
  let M := Ext2.double XX
  let M := Ext2.add M XX
  let pZ := Ext2.add p.Z p.Y
  let pZ := Ext2.square pZ
  let pZ := Ext2.sub pZ YY
  let pZ := Ext2.sub pZ ZZ
  let T := Ext2.square M
  let pX := T
  let T := Ext2.double S
  let pX := Ext2.sub pX T
  let pY := Ext2.sub S pX
  let pY := Ext2.mul pY M
  let YYYY := Ext2.double YYYY
  let YYYY := Ext2.double YYYY
  let YYYY := Ext2.double YYYY
  let pY := Ext2.sub pY YYYY
  ⟨pX, pY, pZ⟩

/-- g2.go:156-163: `U1`, `U2`, `S1`, `S2` of `G2JacobianAddAssign` -/
def jacAddUS (p a : G2Jacobian K) : E2 K × E2 K × E2 K × E2 K :=
  let Z1Z1 := Ext2.square a.Z
  let Z2Z2 := Ext2.square p.Z
  let U1 := Ext2.mul a.X Z2Z2
  let U2 := Ext2.mul p.X Z1Z1
  let S1 := Ext2.mul a.Y p.Z
  let S1 := Ext2.mul S1 Z2Z2
  let S2 := Ext2.mul p.Y a.Z
  let S2 := Ext2.mul S2 Z1Z1
  (U1, U2, S1, S2)

/-- g2.go:170-190: the generic addition formula of `G2JacobianAddAssign` -/
def jacAddGeneric (p a : G2Jacobian K) (U1 U2 S1 S2 : E2 K) : G2Jacobian K :=
  let Z1Z1 := Ext2.square a.Z
  let Z2Z2 := Ext2.square p.Z
  let H := Ext2.sub U2 U1
  let I := Ext2.double H
  let I := Ext2.square I
  let J := Ext2.mul H I
  let r := Ext2.sub S2 S1
  let r := Ext2.double r
  let V := Ext2.mul U1 I
  let pX := Ext2.square r
  let pX := Ext2.sub pX J
  let pX := Ext2.sub pX V
  let pX := Ext2.sub pX V
  let pY := Ext2.sub V pX
  let pY := Ext2.mul pY r
  let S1 := Ext2.mul S1 J
  let S1 := Ext2.double S1
  let pY := Ext2.sub pY S1
  let pZ := Ext2.add p.Z a.Z
  let pZ := Ext2.square pZ
  let pZ := Ext2.sub pZ Z1Z1
  let pZ := Ext2.sub pZ Z2Z2
  let pZ := Ext2.mul pZ H
  ⟨pX, pY, pZ⟩

/-- g2.go:207-215 -/
def jacNeg (p : G2Jacobian K) : G2Jacobian K := ⟨p.X, Ext2.neg p.Y, p.Z⟩

end ring

/-- three `et2.Select` calls on the coordinates (g2.go:192-202) -/
def jacSelect (s : Fr) (a b : G2Jacobian Fp) : Circ (G2Jacobian Fp) := do
  let x ← Ext2.select s a.X b.X
  let y ← Ext2.select s a.Y b.Y
  let z ← Ext2.select s a.Z b.Z
  pure ⟨x, y, z⟩

/-- g2.go:142-205 `G2JacobianAddAssign(api, p, a)` -/
def jacAdd (p a : G2Jacobian Fp) : Circ (G2Jacobian Fp) := do
  let pZNotZero ← e2NotZero p.Z
  let res1 := a
  let aZNotZero ← e2NotZero a.Z
  let res2 := p
  let (U1, U2, S1, S2) := jacAddUS p a
  let U1NotEqualU2 ← e2NotEqual U1 U2
  let S1NotEqualS2 ← e2NotEqual S1 S2
  let pNotEqualA ← apiOr U1NotEqualU2 S1NotEqualS2
  let res3 := jacDouble p
  let res := jacAddGeneric p a U1 U2 S1 S2
  let res ← jacSelect pNotEqualA res res3
  let res ← jacSelect aZNotZero res res2
  jacSelect pZNotZero res res1

/-- g2.go:218-227 -/
def jacSub (p p1 : G2Jacobian Fp) : Circ (G2Jacobian Fp) :=
  jacAdd p ⟨p1.X, Ext2.neg p1.Y, p1.Z⟩

/-- g2.go:77-90: one iteration of the loop of `G2JacobianConstScalarMul` -/
def scalarStep (t0 t1 : G2Jacobian Fp) (res : G2Jacobian Fp) (j : ℕ) : Circ (G2Jacobian Fp) := do
  let res := jacDouble res
  let res := jacDouble res
  if j = 1 then jacAdd res t0
  else if j = 3 then jacAdd res t1
  else if j = 7 then jacAdd res t0
  else if j = 23 then jacAdd res t0
  else pure res

/-- g2.go:69-92 -/
def constScalarMul (a : G2Jacobian Fp) : Circ (G2Jacobian Fp) := do
  let t0 := a
  let t1 := jacDouble t0
  let res ← jacAdd t1 t0
  (List.range' 1 31).foldlM (scalarStep t0 t1) res

/-- g2.go:238-239, 412-413 -/
def psiU : E2 Fp := ⟨0, 4002409555221667392624310435006688643935503118305586438271171395842971157480381377015405980053539358417135540939437⟩
/-- g2.go:240-241, 414-415 -/
def psiV : E2 Fp := ⟨2973677408986561043442465346520108879172042883009249989176415018091420807192182638567116318576472649347015917690530,
  1028732146235106349975324479215795277384839936929757896155643118032610843298655225875571310552543014690878354869257⟩
/-- g2.go:303-304, hashG2.go:658-659 -/
def thirdRootOneG1 : Fp :=
  4002409555221667392624310435006688643935503118305586438271171395842971157480381377015405980053539358417135540939436

/-- g2.go:229-261 -/
def jacPsi (a : G2Jacobian Fp) : G2Jacobian Fp :=
  let pX := Ext2.conjugate a.X
  let pX := Ext2.mul pX psiU
  let pY := Ext2.conjugate a.Y
  let pY := Ext2.mul pY psiV
  let pZ := Ext2.conjugate a.Z
  ⟨pX, pY, pZ⟩

/-- g2.go:332-336 (hashG2.go:670-674) -/
def affNotInfinity (a : G2Affine Fp) : Circ Fr := do
  let xNotZero ← e2NotZero a.X
  let yNotZero ← e2NotZero a.Y
  apiOr xNotZero yNotZero

/-- g2.go:313-330 (hashG2.go:590-607) -/
def jacFromAff (Q : G2Affine Fp) : Circ (G2Jacobian Fp) := do
  let g2NotInfinity ← affNotInfinity Q
  let z ← Ext2.select g2NotInfinity Ext2.one Ext2.zero
  let x ← Ext2.select g2NotInfinity Q.X Ext2.one
  let y ← Ext2.select g2NotInfinity Q.Y Ext2.one
  pure ⟨x, y, z⟩

/-- g2.go:338-361 (hashG2.go:607-630) -/
def affFromJac (Q : G2Jacobian Fp) : Circ (G2Affine Fp) := do
  let a ← Ext2.inverse Q.Z
  let b := Ext2.square a
  let res2X := Ext2.mul Q.X b
  let res2Y := Ext2.mul Q.Y b
  let res2Y := Ext2.mul res2Y a
  let jacZNotZero ← e2NotZero Q.Z
  let x ← Ext2.select jacZNotZero res2X Ext2.zero
  let y ← Ext2.select jacZNotZero res2Y Ext2.zero
  pure ⟨x, y⟩

/-- g2.go:377-401 `G2AddAssign(api, p, p1)` -/
def affAdd (p p1 : G2Affine Fp) : Circ (G2Affine Fp) := do
  let n := Ext2.sub p1.Y p.Y
  let d := Ext2.sub p1.X p.X
  let l ← Ext2.divUnchecked n d
  let xr := Ext2.square l
  let xr := Ext2.sub xr p1.X
  let xr := Ext2.sub xr p.X
  let yr := Ext2.sub p.X xr
  let yr := Ext2.mul l yr
  let yr := Ext2.sub yr p.Y
  pure ⟨xr, yr⟩

/-- g2.go:364-373 -/
def affSub (p p1 : G2Affine Fp) : Circ (G2Affine Fp) := affAdd p ⟨p1.X, Ext2.neg p1.Y⟩

/-- g2.go:403-433 -/
def affPsi (a : G2Affine Fp) : G2Affine Fp :=
  let pX := Ext2.conjugate a.X
  let pX := Ext2.mul pX psiU
  let pY := Ext2.conjugate a.Y
  let pY := Ext2.mul pY psiV
  ⟨pX, pY⟩

/-- g2.go:437-466 -/
def affDouble (p1 : G2Affine Fp) : Circ (G2Affine Fp) := do
  let n := Ext2.square p1.X
  let n := Ext2.mulByElement n 3
  let d := Ext2.mulByElement p1.Y 2
  let l ← Ext2.divUnchecked n d
  let xr := Ext2.square l
  let xr := Ext2.sub xr p1.X
  let xr := Ext2.sub xr p1.X
  let yr := Ext2.sub p1.X xr
  let yr := Ext2.mul l yr
  let yr := Ext2.sub yr p1.Y
  pure ⟨xr, yr⟩

/-- hashG2.go:632-668 `ClearCofactor` (Jacobian coordinates) -/
def clearCofactorJac (a : G2Jacobian Fp) : Circ (G2Jacobian Fp) := do
  let xg ← constScalarMul a
  let xg := jacNeg xg
  let xxg ← constScalarMul xg
  let xxg := jacNeg xxg
  let res ← jacSub xxg xg
  let res ← jacSub res a
  let t ← jacSub xg a
  let t := jacPsi t
  let res ← jacAdd res t
  let t := jacDouble a
  let t : G2Jacobian Fp := ⟨Ext2.mulByElement t.X thirdRootOneG1, t.Y, t.Z⟩
  jacSub res t

/-- g2.go:264-311 `G2ClearCofactor` -/
def clearCofactorAff (a : G2Affine Fp) : Circ (G2Affine Fp) := do
  let ja ← jacFromAff a
  let jxg ← constScalarMul ja
  let jxg := jacNeg jxg
  let jxxg ← constScalarMul jxg
  let jxxg := jacNeg jxxg
  let xg ← affFromJac jxg
  let xxg ← affFromJac jxxg
  let res ← affSub xxg xg
  let res ← affSub res a
  let t ← affSub xg a
  let t := affPsi t
  let res ← affAdd res t
  let t ← affDouble a
  let t : G2Affine Fp := ⟨Ext2.mulByElement t.X thirdRootOneG1, t.Y⟩
  affSub res t

end G2
end Spark
