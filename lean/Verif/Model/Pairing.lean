import Verif.Model.FinalExp
import Verif.Data.Lines

/-!
# Model of the Miller loop and the pairings (`pairing_bls12381/pairing.go:190-723`)

Errors returned by the Go functions depend on list lengths only (they are raised while the circuit
is being compiled), so `MillerLoop`, `Pair` and `PairingCheck` are modelled in
`Except String (Circ ..)`.  Points are pairs of coordinates; nothing in this file checks that they
are on a curve (nor does the code).  Pointers are modelled by values: `MillerLoop` never writes
through `P[k]` or `Q[k]` (the `lineEvaluation`s it overwrites are freshly allocated by the step
functions).
-/

namespace Spark

/-- g1.go:9 `G1Affine` (gnark's `sw_emulated.AffinePoint`) -/
@[ext] structure G1Affine (K : Type) where
  X : K
  Y : K

/-- g2.go:13-15 -/
@[ext] structure G2Affine (K : Type) where
  X : E2 K
  Y : E2 K

/-- pairing.go:194-196 `lineEvaluation` -/
@[ext] structure LineEval (K : Type) where
  R0 : E2 K
  R1 : E2 K

namespace Pairing

open Circ

/-- pairing.go:234-241 `loopCounter` -/
def loopCounter : List ℕ := [
  0, 0, 0, 0, 0, 0, 0, 0, 0, 0, 0,
  0, 0, 0, 0, 0, 1, 0, 0, 0, 0, 0,
  0, 0, 0, 0, 0, 0, 0, 0, 0, 0, 0,
  0, 0, 0, 0, 0, 0, 0, 0, 0, 0, 0,
  0, 0, 0, 0, 1, 0, 0, 0, 0, 0, 0,
  0, 0, 1, 0, 0, 1, 0, 1, 1]

variable {K : Type}

section
variable [Field K] [TowerField K] [DecidableEq K]

/-- pairing.go:370-418 -/
def doubleAndAddStep (p1 p2 : G2Affine K) : Circ (G2Affine K × LineEval K × LineEval K) := do
  let n := Ext2.sub p1.Y p2.Y
  let d := Ext2.sub p1.X p2.X
  let l1 ← Ext2.divUnchecked n d
  let x3 := Ext2.square l1
  let x3 := Ext2.sub x3 p1.X
  let x3 := Ext2.sub x3 p2.X
  let line1R0 := Ext2.neg l1
  let line1R1 := Ext2.mul l1 p1.X
  let line1R1 := Ext2.sub line1R1 p1.Y
  let n := Ext2.double p1.Y
  let d := Ext2.sub x3 p1.X
  let l2 ← Ext2.divUnchecked n d
  let l2 := Ext2.add l2 l1
  let l2 := Ext2.neg l2
  let x4 := Ext2.square l2
  let x4 := Ext2.sub x4 p1.X
  let x4 := Ext2.sub x4 x3
  let y4 := Ext2.sub p1.X x4
  let y4 := Ext2.mul l2 y4
  let y4 := Ext2.sub y4 p1.Y
  let line2R0 := Ext2.neg l2
  let line2R1 := Ext2.mul l2 p1.X
  let line2R1 := Ext2.sub line2R1 p1.Y
  pure (⟨x4, y4⟩, ⟨line1R0, line1R1⟩, ⟨line2R0, line2R1⟩)

/-- pairing.go:422-453 -/
def doubleStep (p1 : G2Affine K) : Circ (G2Affine K × LineEval K) := do
  let n := Ext2.square p1.X
  let n := Ext2.mulByConstElement n 3
  let d := Ext2.double p1.Y
  let l ← Ext2.divUnchecked n d
  let xr := Ext2.square l
  let xr := Ext2.sub xr p1.X
  let xr := Ext2.sub xr p1.X
  let yr := Ext2.sub p1.X xr
  let yr := Ext2.mul l yr
  let yr := Ext2.sub yr p1.Y
  let lineR0 := Ext2.neg l
  let lineR1 := Ext2.mul l p1.X
  let lineR1 := Ext2.sub lineR1 p1.Y
  pure (⟨xr, yr⟩, ⟨lineR0, lineR1⟩)

/-- pairing.go:457-484 -/
def addStep (p1 p2 : G2Affine K) : Circ (G2Affine K × LineEval K) := do
  let p2ypy := Ext2.sub p2.Y p1.Y
  let p2xpx := Ext2.sub p2.X p1.X
  let l ← Ext2.divUnchecked p2ypy p2xpx
  let ll := Ext2.square l
  let p2xpx := Ext2.add p1.X p2.X
  let xr := Ext2.sub ll p2xpx
  let pxrx := Ext2.sub p1.X xr
  let lpxrx := Ext2.mul l pxrx
  let yr := Ext2.sub lpxrx p1.Y
  let lineR0 := Ext2.neg l
  let lineR1 := Ext2.mul l p1.X
  let lineR1 := Ext2.sub lineR1 p1.Y
  pure (⟨xr, yr⟩, ⟨lineR0, lineR1⟩)

/-- pairing.go:487-534 -/
def tripleStep (p1 : G2Affine K) : Circ (G2Affine K × LineEval K × LineEval K) := do
  let n := Ext2.square p1.X
  let n := Ext2.mulByConstElement n 3
  let d := Ext2.double p1.Y
  let l1 ← Ext2.divUnchecked n d
  let line1R0 := Ext2.neg l1
  let line1R1 := Ext2.mul l1 p1.X
  let line1R1 := Ext2.sub line1R1 p1.Y
  let x2 := Ext2.square l1
  let x2 := Ext2.sub x2 p1.X
  let x2 := Ext2.sub x2 p1.X
  let x1x2 := Ext2.sub p1.X x2
  let l2 ← Ext2.divUnchecked d x1x2
  let l2 := Ext2.sub l2 l1
  let line2R0 := Ext2.neg l2
  let line2R1 := Ext2.mul l2 p1.X
  let line2R1 := Ext2.sub line2R1 p1.Y
  let l2l2 := Ext2.mul l2 l2
  let qxrx := Ext2.add x2 p1.X
  let xr := Ext2.sub l2l2 qxrx
  let pxrx := Ext2.sub p1.X xr
  let l2pxrx := Ext2.mul l2 pxrx
  let yr := Ext2.sub l2pxrx p1.Y
  pure (⟨xr, yr⟩, ⟨line1R0, line1R1⟩, ⟨line2R0, line2R1⟩)

/-- pairing.go:537-551 -/
def tangentCompute (p1 : G2Affine K) : Circ (LineEval K) := do
  let n := Ext2.square p1.X
  let n := Ext2.mulByConstElement n 3
  let d := Ext2.double p1.Y
  let l ← Ext2.divUnchecked n d
  let lineR0 := Ext2.neg l
  let lineR1 := Ext2.mul l p1.X
  let lineR1 := Ext2.sub lineR1 p1.Y
  pure ⟨lineR0, lineR1⟩

/-- The Go variables `Q[k]`, `Qacc[k]`, `yInv[k]`, `xOverY[k]` of `MillerLoop` (pairing.go:253-268). -/
structure PairState (K : Type) where
  Q : G2Affine K
  Qacc : G2Affine K
  yInv : K
  xOverY : K

/-- pairing.go:259-268, one iteration -/
def initPair (P : G1Affine K) (Q : G2Affine K) : Circ (PairState K) := do
  let yInv ← fpInverse P.Y
  let xOverY := P.X * yInv
  pure ⟨Q, Q, yInv, xOverY⟩

/-- pairing.go:259-268 -/
def initPairs : List (G1Affine K) → List (G2Affine K) → Circ (List (PairState K))
  | P :: Ps, Q :: Qs => do
    let s ← initPair P Q
    let ss ← initPairs Ps Qs
    pure (s :: ss)
  | _, _ => pure []

/-- `l.R0 = l.R0·xOverY[k]; l.R1 = l.R1·yInv[k]`: pairing.go:287-288, 303-304, 308-309, 325-326,
337-338, 340-341, 356-357 -/
def evalLine (s : PairState K) (l : LineEval K) : LineEval K :=
  ⟨Ext2.mulByElement l.R0 s.xOverY, Ext2.mulByElement l.R1 s.yInv⟩

/-- `for k := ..; k < n; k++ { .. }` with loop body `f` (pairing.go:259, 297, 321, 331, 352) -/
def forPairs (f : PairState K → E12 K → Circ (PairState K × E12 K)) :
    List (PairState K) → E12 K → Circ (List (PairState K) × E12 K)
  | [], res => pure ([], res)
  | s :: ss, res => do
    let (s, res) ← f s res
    let (ss, res) ← forPairs f ss res
    pure (s :: ss, res)

/-- pairing.go:280-295 (`i = 62`, `k = 0`) -/
def body62first (s : PairState K) : Circ (PairState K × E12 K) := do
  let (Qacc, l1, l2) ← tripleStep s.Qacc
  let resC0B1 := Ext2.mulByElement l1.R0 s.xOverY
  let resC0B0 := Ext2.mulByElement l1.R1 s.yInv
  let l2 := evalLine s l2
  let (x0, x1, x2, x3, x4) := Ext12.mul014By014 l2.R1 l2.R0 resC0B0 resC0B1
  pure ({ s with Qacc := Qacc }, ⟨⟨x0, x1, x2⟩, ⟨Ext2.zero, x3, x4⟩⟩)

/-- pairing.go:297-312 (`i = 62`, `k ≥ 1`) -/
def body62 (s : PairState K) (res : E12 K) : Circ (PairState K × E12 K) := do
  let (Qacc, l1, l2) ← tripleStep s.Qacc
  let l1 := evalLine s l1
  let res := Ext12.mulBy014 res l1.R1 l1.R0
  let l2 := evalLine s l2
  let res := Ext12.mulBy014 res l2.R1 l2.R0
  pure ({ s with Qacc := Qacc }, res)

/-- pairing.go:321-329 -/
def body0 (s : PairState K) (res : E12 K) : Circ (PairState K × E12 K) := do
  let (Qacc, l1) ← doubleStep s.Qacc
  let l1 := evalLine s l1
  let res := Ext12.mulBy014 res l1.R1 l1.R0
  pure ({ s with Qacc := Qacc }, res)

/-- pairing.go:331-346 -/
def body1 (s : PairState K) (res : E12 K) : Circ (PairState K × E12 K) := do
  let (Qacc, l1, l2) ← doubleAndAddStep s.Qacc s.Q
  let l1 := evalLine s l1
  let l2 := evalLine s l2
  let res := Ext12.mulBy014 res l1.R1 l1.R0
  let res := Ext12.mulBy014 res l2.R1 l2.R0
  pure ({ s with Qacc := Qacc }, res)

/-- pairing.go:352-360 (`i = 0`) -/
def bodyLast (s : PairState K) (res : E12 K) : Circ (PairState K × E12 K) := do
  let l1 ← tangentCompute s.Qacc
  let l1 := evalLine s l1
  let res := Ext12.mulBy014 res l1.R1 l1.R0
  pure (s, res)

/-- pairing.go:315-348: `for i := 61; i >= 1; i--` (the argument of the recursion is the number of
iterations still to do, which is the current `i`) -/
def mainLoop : ℕ → List (PairState K) → E12 K → Circ (List (PairState K) × E12 K)
  | 0, ss, res => pure (ss, res)
  | i + 1, ss, res => do
    let res := Ext12.square res
    let (ss, res) ←
      (if loopCounter.getD (i + 1) 0 = 0 then forPairs body0 ss res else forPairs body1 ss res :
        Circ (List (PairState K) × E12 K))
    mainLoop i ss res

/-- pairing.go:270-365, after the `yInv`/`xOverY` loop; `s` is pair number 0 -/
def millerBody (s : PairState K) (ss : List (PairState K)) : Circ (E12 K) := do
  let (s, res) ← body62first s
  let (ss, res) ← forPairs body62 ss res
  let (ss, res) ← mainLoop 61 (s :: ss) res
  let res := Ext12.square res
  let (_, res) ← forPairs bodyLast ss res
  pure (Ext12.conjugate res)

/-- pairing.go:245-366 -/
def millerLoop (P : List (G1Affine K)) (Q : List (G2Affine K)) : Except String (Circ (E12 K)) :=
  let n := P.length
  if n = 0 ∨ n ≠ Q.length then .error "invalid inputs sizes"
  else .ok do
    let ss ← initPairs P Q
    match ss with
    | [] => fail -- `Qacc[0]` out of range; unreachable because `n ≠ 0`
    | s :: ss => millerBody s ss

end

/-- pairing.go:202-209 -/
def pair (P : List (G1Affine Fp)) (Q : List (G2Affine Fp)) : Except String (Circ (E12 Fp)) :=
  match millerLoop P Q with
  | .error err => .error ("miller loop: " ++ err)
  | .ok ml => .ok do
    let res ← ml
    let (res, _) ← finalExponentiation res (P.length == 1)
    pure res

/-- pairing.go:215-229 -/
def pairingCheck (P : List (G1Affine Fp)) (Q : List (G2Affine Fp)) : Except String (Circ Unit) :=
  match pair P Q with
  | .error err => .error err
  | .ok c => .ok do
    let f ← c
    let one := Ext12.one
    Ext12.assertIsEqual f one

/-! ## Fixed-argument pairing -/

/-- `PrecomputedLines[k][i]` as a field element (precomputations.go; used in pairing.go:575-602, 646-682); using an entry
never assigned panics -/
def precomp (k i : ℕ) : Circ (E2 Fp) :=
  match precomputedLines k i with
  | some (a, b) => pure ⟨(a : Fp), (b : Fp)⟩
  | none => fail

/-- `res = MulBy014(res, PrecomputedLines[k+1][i]·yInv, PrecomputedLines[k][i]·xOverY)`:
pairing.go:573-576, 577-580, 590-593, 595-598, 599-602, 646-653, 663-666, 675-682 -/
def mulPrecomp (k i : ℕ) (yInv xOverY : Fp) (res : E12 Fp) : Circ (E12 Fp) := do
  let a ← precomp (k + 1) i
  let b ← precomp k i
  pure (Ext12.mulBy014 res (Ext2.mulByElement a yInv) (Ext2.mulByElement b xOverY))

/-- pairing.go:583-604: `for i := 61; i >= 0; i--` (argument: number of iterations to do, `i + 1`) -/
def fixedLoop (yInv xOverY : Fp) : ℕ → E12 Fp → Circ (E12 Fp)
  | 0, res => pure res
  | i + 1, res => do
    let res := Ext12.square res
    let res ← mulPrecomp 0 i yInv xOverY res
    let res ← (if loopCounter.getD i 0 = 0 then pure res else mulPrecomp 2 i yInv xOverY res :
      Circ (E12 Fp))
    fixedLoop yInv xOverY i res

/-- pairing.go:556-610 (never returns an error) -/
def millerLoopFixedQ (P : G1Affine Fp) : Circ (E12 Fp) := do
  let res : E12 Fp := Ext12.one
  let yInv ← fpInverse P.Y
  let xOverY := P.X * yInv
  let res ← mulPrecomp 0 62 yInv xOverY res
  let res ← mulPrecomp 2 62 yInv xOverY res
  let res ← fixedLoop yInv xOverY 62 res
  pure (Ext12.conjugate res)

/-- pairing.go:656-699: `for i := 61; i >= 0; i--` -/
def doubleFixedLoop (y2Inv x2OverY2 : Fp) : ℕ → PairState Fp → E12 Fp → Circ (E12 Fp)
  | 0, _, res => pure res
  | i + 1, s, res => do
    let res := Ext12.square res
    if loopCounter.getD i 0 = 0 then
      let res ← mulPrecomp 0 i y2Inv x2OverY2 res
      let (s, res) ← body0 s res
      doubleFixedLoop y2Inv x2OverY2 i s res
    else
      let res ← mulPrecomp 0 i y2Inv x2OverY2 res
      let res ← mulPrecomp 2 i y2Inv x2OverY2 res
      let (s, res) ← body1 s res
      doubleFixedLoop y2Inv x2OverY2 i s res

/-- pairing.go:612-705 (never returns an error) -/
def doubleMillerLoopFixedQ (P T : G1Affine Fp) (Q : G2Affine Fp) : Circ (E12 Fp) := do
  let yInv ← fpInverse P.Y
  let xOverY := P.X * yInv
  let y2Inv ← fpInverse T.Y
  let x2OverY2 := T.X * y2Inv
  let (s, res) ← body62first ⟨Q, Q, yInv, xOverY⟩
  let res ← mulPrecomp 0 62 y2Inv x2OverY2 res
  let res ← mulPrecomp 2 62 y2Inv x2OverY2 res
  let res ← doubleFixedLoop y2Inv x2OverY2 62 s res
  pure (Ext12.conjugate res)

/-- pairing.go:707-714 -/
def pairFixedQ (P : G1Affine Fp) : Circ (E12 Fp) := do
  let res ← millerLoopFixedQ P
  let (res, _) ← finalExponentiation res true
  pure res

/-- pairing.go:716-723 -/
def doublePairFixedQ (P T : G1Affine Fp) (Q : G2Affine Fp) : Circ (E12 Fp) := do
  let res ← doubleMillerLoopFixedQ P T Q
  let (res, _) ← finalExponentiation res false
  pure res

end Pairing
end Spark
