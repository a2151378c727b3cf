import Verif.Model.G2
import Verif.Model.Expand

/-!
# Model of `pairing_bls12381/hashG2.go`: the map to the curve and `HashToG2`

`fp.Element{…}` literals of gnark-crypto are six 64-bit limbs (least significant first) in Montgomery
form; `emulated.ValueOf` converts them to the integer they stand for, `value · 2^-384 mod p`.
-/

namespace Spark.G2

open Circ

/-- the element of `Fp` denoted by a gnark-crypto `fp.Element` literal in Montgomery form (hashG2.go:22-33, 265-266,
295-296, 395-507) -/
def fpElement (limbs : List ℕ) : Fp :=
  ((limbs.foldr (fun l acc => l + 2 ^ 64 * acc) 0 : ℕ) : Fp) * ((2 : Fp) ^ 384)⁻¹

/-- hashG2.go:21-24 -/
def sswuIsoCurveCoeffA : E2 Fp :=
  ⟨fpElement [0],
    fpElement [16517514583386313282, 74322656156451461, 16683759486841714365, 815493829203396097, 204518332920448171, 1306242806803223655]⟩

/-- hashG2.go:26-29 -/
def sswuIsoCurveCoeffB : E2 Fp :=
  ⟨fpElement [2515823342057463218, 7982686274772798116, 7934098172177393262, 8484566552980779962, 4455086327883106868, 1323173589274087377],
    fpElement [2515823342057463218, 7982686274772798116, 7934098172177393262, 8484566552980779962, 4455086327883106868, 1323173589274087377]⟩

/-- hashG2.go:31-34 -/
def tv4Z : E2 Fp :=
  ⟨fpElement [9794203289623549276, 7309342082925068282, 1139538881605221074, 15659550692327388916, 16008355200866287827, 582484205531694093],
    fpElement [4897101644811774638, 3654671041462534141, 569769440802610537, 17053147383018470266, 17227549637287919721, 291242102765847046]⟩

/-- `big.Int.Bytes` (hashG2.go:347): the big-endian bytes of `|k|` -/
def bigBytes (k : ℤ) : List ℕ := (Nat.digits 256 k.natAbs).reverse

/-- hashG2.go:346-356: the loops over the bytes and over the bits of a byte -/
def expLoop (x : E2 Fp) (b : List ℕ) (res : E2 Fp) : E2 Fp :=
  b.foldl (fun res w => (List.range 8).foldl (fun res j =>
    let res := Ext2.square res
    if w &&& (0b10000000 >>> j) ≠ 0 then Ext2.mul res x else res) res) res

/-- hashG2.go:324-358 `E2Exp(api, x, k)`.  `k` is a pointer that `e.Neg(k)` overwrites: the second
component is the caller's exponent afterwards. -/
def e2Exp (x : E2 Fp) (k : ℤ) : Circ (E2 Fp × ℤ) := do
  let res := Ext2.one
  if k = 0 then pure (res, k)
  else if k < 0 then do
    let x ← Ext2.inverse x
    pure (expLoop x (bigBytes (-k)) res, -k)
  else pure (expLoop x (bigBytes k) res, k)

/-- hashG2.go:218-253.  The limbs of a reduced element have 64, 64, 64, 64, 64, 61 bits, so the six
`bits.ToBinary(…, 64)` give the 384 bits of its value. -/
def g2Sgn0 (u : E2 Fp) : Circ Fr := do
  let a0 ← fpReduce u.A0
  let a1 ← fpReduce u.A1
  let a0Bits := toBits a0
  let sign : Fr := 0
  let zero : Fr := 1
  let signI := a0Bits.headD 0
  let zeroI ← a0Bits.foldlM (fun _ b => apiOr signI b) 0
  let sign ← apiOr sign (← apiAnd zero signI)
  let zero ← apiAnd zero zeroI
  let signI := (toBits a1).headD 0
  apiOr sign (← apiAnd zero signI)

/-- hashG2.go:263-266 -/
def sqrtTv1 : E2 Fp :=
  ⟨fpElement [8921533702591418330, 15859389534032789116, 3389114680249073393, 15116930867080254631, 3288288975085550621, 1021049300055853010],
    fpElement [8921533702591418330, 15859389534032789116, 3389114680249073393, 15116930867080254631, 3288288975085550621, 1021049300055853010]⟩

/-- hashG2.go:294-297 -/
def sqrtC7 : E2 Fp :=
  ⟨fpElement [1921729236329761493, 9193968980645934504, 9862280504246317678, 6861748847800817560, 10375788487011937166, 4460107375738415],
    fpElement [16821121318233475459, 10183025025229892778, 1779012082459463630, 3442292649700377418, 1061500799026501234, 1352426537312017168]⟩

/-- hashG2.go:281: the bytes of `c3` -/
def sqrtC3Bytes : List ℕ := [42, 67, 122, 75, 140, 53, 252, 116, 189, 39, 142, 170, 34, 242, 94, 158, 45, 201, 14, 80, 231, 4, 107, 70, 110, 89, 228, 147, 73, 232, 189, 5, 10, 98, 207, 209, 109, 220, 166, 239, 83, 20, 147, 48, 151, 142, 240, 17, 214, 134, 25, 200, 97, 133, 199, 178, 146, 232, 90, 135, 9, 26, 4, 150, 107, 249, 30, 211, 231, 27, 116, 49, 98, 195, 56, 54, 33, 19, 207, 215, 206, 214, 177, 215, 99, 130, 234, 178, 106, 160, 0, 1, 199, 24, 227]

/-- `exp.SetBytes(b)` (hashG2.go:273, 281, 289) -/
def setBytes (b : List ℕ) : ℤ := (b.foldl (fun acc w => 256 * acc + w) 0 : ℕ)

/-- state of the loop in `g2SqrtRatio` (hashG2.go:306-317) -/
structure SqrtState where
  tv1 : E2 Fp
  tv3 : E2 Fp
  tv4 : E2 Fp
  exp : ℤ

/-- hashG2.go:306-317: one iteration -/
def sqrtStep (s : SqrtState) (i : ℕ) : Circ SqrtState := do
  let (tv5, _) ← e2Exp s.tv4 s.exp
  let nE1 ← e2NotOne tv5
  let tv2 := Ext2.mul s.tv3 s.tv1
  let tv1 := Ext2.mul s.tv1 s.tv1
  let tv5 := Ext2.mul s.tv4 tv1
  let tv3 ← Ext2.select nE1 tv2 s.tv3
  let tv4 ← Ext2.select nE1 tv5 s.tv4
  pure ⟨tv1, tv3, tv4, if i > 2 then s.exp / 2 else s.exp⟩

/-- hashG2.go:255-322 -/
def g2SqrtRatio (u v : E2 Fp) : Circ (E2 Fp × Fr) := do
  let tv1 := sqrtTv1
  let (tv2, _) ← e2Exp v (setBytes [7])
  let tv3 := Ext2.square tv2
  let tv3 := Ext2.mul tv3 v
  let tv5 := Ext2.mul u tv3
  let (tv5, _) ← e2Exp tv5 (setBytes sqrtC3Bytes)
  let tv5 := Ext2.mul tv5 tv2
  let tv2 := Ext2.mul tv5 v
  let tv3 := Ext2.mul tv5 u
  let tv4 := Ext2.mul tv3 tv2
  let (tv5, _) ← e2Exp tv4 (setBytes [4])
  let isQNr ← e2NotOne tv5
  let tv2 := Ext2.mul tv3 sqrtC7
  let tv5 := Ext2.mul tv4 tv1
  let tv3 ← Ext2.select isQNr tv2 tv3
  let tv4 ← Ext2.select isQNr tv5 tv4
  let s ← [3, 2].foldlM sqrtStep ⟨tv1, tv3, tv4, 2⟩
  pure (s.tv3, isQNr)

/-- hashG2.go:173-216 -/
def mapElementToCurve2 (e2 : E2 Fp) : Circ (G2Affine Fp) := do
  let tv1 := Ext2.square e2
  let tv1 := Ext2.mul tv1 tv4Z
  let tv2 := Ext2.square tv1
  let tv2 := Ext2.add tv2 tv1
  let tv3 := Ext2.add tv2 Ext2.one
  let tv3 := Ext2.mul tv3 sswuIsoCurveCoeffB
  let tv2 := Ext2.neg tv2
  let tv4 := Ext2.mul tv2 sswuIsoCurveCoeffA
  let tv2 := Ext2.square tv3
  let tv6 := Ext2.square tv4
  let tv5 := Ext2.mul tv6 sswuIsoCurveCoeffA
  let tv2 := Ext2.add tv2 tv5
  let tv2 := Ext2.mul tv2 tv3
  let tv6 := Ext2.mul tv6 tv4
  let tv5 := Ext2.mul tv6 sswuIsoCurveCoeffB
  let tv2 := Ext2.add tv2 tv5
  let x := Ext2.mul tv1 tv3
  let (y1, gx1NSquare) ← g2SqrtRatio tv2 tv6
  let y := Ext2.mul tv1 e2
  let y := Ext2.mul y y1
  let x ← Ext2.select gx1NSquare x tv3
  let y ← Ext2.select gx1NSquare y y1
  let y1 := Ext2.neg y
  let g2Sgn0U ← g2Sgn0 e2
  let g2Sgn0Y ← g2Sgn0 y
  let useY1 ← apiXor g2Sgn0U g2Sgn0Y
  let y ← Ext2.select useY1 y1 y
  let x ← Ext2.div x tv4
  pure ⟨x, y⟩

/-- hashG2.go:393-402 `g2IsogenyXDenominator`: `coefficients[0]` -/
def isoXDen0 : E2 Fp :=
  ⟨fpElement [0],
    fpElement [2250392438786206615, 17463829474098544446, 14571211649711714824, 4495761442775821336, 258811604141191305, 357646605018048850]⟩

/-- hashG2.go:393-402 `g2IsogenyXDenominator`: `coefficients[1]` -/
def isoXDen1 : E2 Fp :=
  ⟨fpElement [4933130441833534766, 15904462746612662304, 8034115857496836953, 12755092135412849606, 7007796720291435703, 252692002104915169],
    fpElement [8469300574244328829, 4752422838614097887, 17848302789776796362, 12930989898711414520, 16851051131888818207, 1621106615542624696]⟩

/-- hashG2.go:419-436 `g2IsogenyXNumerator`: `coefficients[0]` -/
def isoXNum0 : E2 Fp :=
  ⟨fpElement [5185457120960601698, 494647221959407934, 8971396042087821730, 324544954362548322, 14214792730224113654, 1405280679127738945],
    fpElement [5185457120960601698, 494647221959407934, 8971396042087821730, 324544954362548322, 14214792730224113654, 1405280679127738945]⟩

/-- hashG2.go:419-436 `g2IsogenyXNumerator`: `coefficients[1]` -/
def isoXNum1 : E2 Fp :=
  ⟨fpElement [0],
    fpElement [6910023028261548496, 9745789443900091043, 7668299866710145304, 2432656849393633605, 2897729527445498821, 776645607375592125]⟩

/-- hashG2.go:419-436 `g2IsogenyXNumerator`: `coefficients[2]` -/
def isoXNum2 : E2 Fp :=
  ⟨fpElement [724047465092313539, 15783990863276714670, 12824896677063784855, 15246381572572671516, 13186611051602728692, 1485475813959743803],
    fpElement [12678383550985550056, 4872894721950045521, 13057521970209848460, 10439700461551592610, 10672236800577525218, 388322803687796062]⟩

/-- hashG2.go:419-436 `g2IsogenyXNumerator`: `coefficients[3]` -/
def isoXNum3 : E2 Fp :=
  ⟨fpElement [4659755689450087917, 1804066951354704782, 15570919779568036803, 15592734958806855601, 7597208057374167129, 1841438384006890194],
    fpElement [0]⟩

/-- hashG2.go:459-472 `g2IsogenyYDenominator`: `coefficients[0]` -/
def isoYDen0 : E2 Fp :=
  ⟨fpElement [99923616639376095, 10339114964526300021, 6204619029868000785, 1288486622530663893, 14587509920085997152, 272081012460753233],
    fpElement [99923616639376095, 10339114964526300021, 6204619029868000785, 1288486622530663893, 14587509920085997152, 272081012460753233]⟩

/-- hashG2.go:459-472 `g2IsogenyYDenominator`: `coefficients[1]` -/
def isoYDen1 : E2 Fp :=
  ⟨fpElement [0],
    fpElement [6751177316358619845, 15498000274876530106, 6820146801716041242, 13487284328327464010, 776434812423573915, 1072939815054146550]⟩

/-- hashG2.go:459-472 `g2IsogenyYDenominator`: `coefficients[2]` -/
def isoYDen2 : E2 Fp :=
  ⟨fpElement [7399695662750302149, 14633322083064217648, 12051173786245255430, 9909266166264498601, 1288323043582377747, 379038003157372754],
    fpElement [6002735353327561446, 6023563502162542543, 13831244861028377885, 15776815867859765525, 4123780734888324547, 1494760614490167112]⟩

/-- hashG2.go:492-509 `g2IsogenyYNumerator`: `coefficients[0]` -/
def isoYNum0 : E2 Fp :=
  ⟨fpElement [10869708750642247614, 13056187057366814946, 1750362034917495549, 6326189602300757217, 1140223926335695785, 632761649765668291],
    fpElement [10869708750642247614, 13056187057366814946, 1750362034917495549, 6326189602300757217, 1140223926335695785, 632761649765668291]⟩

/-- hashG2.go:492-509 `g2IsogenyYNumerator`: `coefficients[1]` -/
def isoYNum1 : E2 Fp :=
  ⟨fpElement [0],
    fpElement [13765940311003083782, 5579209876153186557, 11349908400803699438, 11707848830955952341, 199199289641242246, 899896674917908607]⟩

/-- hashG2.go:492-509 `g2IsogenyYNumerator`: `coefficients[2]` -/
def isoYNum2 : E2 Fp :=
  ⟨fpElement [15562563812347550836, 2436447360975022760, 6528760985104924230, 5219850230775796305, 5336118400288762609, 194161401843898031],
    fpElement [16286611277439864375, 18220438224251737430, 906913588459157469, 2019487729638916206, 75985378181939686, 1679637215803641835]⟩

/-- hashG2.go:492-509 `g2IsogenyYNumerator`: `coefficients[3]` -/
def isoYNum3 : E2 Fp :=
  ⟨fpElement [11849179119594500956, 13906615243538674725, 14543197362847770509, 2041759640812427310, 2879701092679313252, 1259985822978576468],
    fpElement [0]⟩

/-- hashG2.go:386-411 -/
def isogenyXDenominator (x : E2 Fp) : E2 Fp :=
  let dst := isoXDen1
  let dst := Ext2.add dst x
  let dst := Ext2.mul dst x
  Ext2.add dst isoXDen0

/-- hashG2.go:413-450 -/
def isogenyXNumerator (x : E2 Fp) : E2 Fp :=
  let dst := isoXNum3
  let dst := Ext2.mul dst x
  let dst := Ext2.add dst isoXNum2
  let dst := Ext2.mul dst x
  let dst := Ext2.add dst isoXNum1
  let dst := Ext2.mul dst x
  Ext2.add dst isoXNum0

/-- hashG2.go:452-484 -/
def isogenyYDenominator (x : E2 Fp) : E2 Fp :=
  let dst := isoYDen2
  let dst := Ext2.add dst x
  let dst := Ext2.mul dst x
  let dst := Ext2.add dst isoYDen1
  let dst := Ext2.mul dst x
  Ext2.add dst isoYDen0

/-- hashG2.go:486-524 -/
def isogenyYNumerator (x y : E2 Fp) : E2 Fp :=
  let dst := isoYNum3
  let dst := Ext2.mul dst x
  let dst := Ext2.add dst isoYNum2
  let dst := Ext2.mul dst x
  let dst := Ext2.add dst isoYNum1
  let dst := Ext2.mul dst x
  let dst := Ext2.add dst isoYNum0
  Ext2.mul dst y

/-- hashG2.go:360-384 -/
def g2Isogeny (p : G2Affine Fp) : Circ (G2Affine Fp) := do
  let den1 := isogenyYDenominator p.X
  let den0 := isogenyXDenominator p.X
  let newPy := isogenyYNumerator p.X p.Y
  let newPx := isogenyXNumerator p.X
  let den1 ← Ext2.inverseLc den1
  let den0 ← Ext2.inverseLc den0
  pure ⟨Ext2.mul newPx den0, Ext2.mul newPy den1⟩

/-- hashG2.go:769-783: `Reduce` of a coordinate; the value is unchanged, the representative is the
prover's choice -/
def e2Reduce (x : E2 Fp) : Circ (E2 Fp) := do
  let a0 ← fpReduce x.A0
  let a1 ← fpReduce x.A1
  pure ⟨(a0 : Fp), (a1 : Fp)⟩

/-- `e2[i]` (hashG2.go:705, 718, 728-729, 755-756) for the results of `HashToField` (which has `count/2` entries; out of range is a Go
panic) -/
def nth (l : List (E2 Fp)) (i : ℕ) : Circ (E2 Fp) :=
  match l[i]? with
  | some x => pure x
  | none => fail

/-- hashG2.go:716-723 `EncodeToG2` -/
def encodeToG2 (msg : Vector Fr 32) : Circ (G2Affine Fp) := do
  let e2 ← H2C.hashToField msg 2
  let q ← mapElementToCurve2 (← nth e2 0)
  let g2Affine ← g2Isogeny q
  clearCofactorAff g2Affine

/-- hashG2.go:702-714 `EncodeToG2OnJac` -/
def encodeToG2OnJac (msg : Vector Fr 32) : Circ (G2Affine Fp) := do
  let e2 ← H2C.hashToField msg 2
  let q ← mapElementToCurve2 (← nth e2 0)
  let g2Affine ← g2Isogeny q
  let g2Jac ← jacFromAff g2Affine
  let g2Jac ← clearCofactorJac g2Jac
  affFromJac g2Jac

/-- hashG2.go:725-750 `HashToG2OnJac` -/
def hashToG2OnJac (msg : Vector Fr 32) : Circ (G2Affine Fp) := do
  let e2 ← H2C.hashToField msg 4
  let q0 ← mapElementToCurve2 (← nth e2 0)
  let q1 ← mapElementToCurve2 (← nth e2 1)
  let q0 ← g2Isogeny q0
  let q1 ← g2Isogeny q1
  let q0 ← jacFromAff q0
  let q1 ← jacFromAff q1
  let sum ← jacAdd q0 q1
  let sum ← clearCofactorJac sum
  affFromJac sum

/-- hashG2.go:752-784 `(*Pairing).HashToG2` -/
def hashToG2 (msg : Vector Fr 32) : Circ (G2Affine Fp) := do
  let e2 ← H2C.hashToField msg 4
  let q0 ← mapElementToCurve2 (← nth e2 0)
  let q1 ← mapElementToCurve2 (← nth e2 1)
  let q0 ← g2Isogeny q0
  let q1 ← g2Isogeny q1
  let sum ← affAdd q0 q1
  let sum ← clearCofactorAff sum
  let x ← e2Reduce sum.X
  let y ← e2Reduce sum.Y
  pure ⟨x, y⟩

end Spark.G2
