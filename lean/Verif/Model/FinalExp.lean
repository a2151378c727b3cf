import Verif.Model.Tower

/-!
# Model of the final exponentiation (`pairing_bls12381/pairing.go:68-188`)

`finalExponentiation` writes through its pointer argument in the safe variant; the model returns the
result together with the value the caller's element has after the call.
-/

namespace Spark
namespace Pairing

open Circ

/-- pairing.go:140-172 (the part common to both variants, from the division on): returns the final
values of the Go variables `c` and `t1`. -/
def finalExpChain (e : E12 Fp) : Circ (E6 Fp × E6 Fp) := do
  let c ← Ext6.divUnchecked e.C0 e.C1
  let c := Ext6.neg c
  let t0 := Ext12.frobeniusSquareTorus c
  let c ← Ext12.mulTorus t0 c
  let t0 ← Ext12.squareTorus c
  let t1 ← Ext12.exptHalfTorus t0
  let t2 := Ext12.inverseTorus c
  let t1 ← Ext12.mulTorus t1 t2
  let t2 ← Ext12.exptTorus t1
  let t1 := Ext12.inverseTorus t1
  let t1 ← Ext12.mulTorus t1 t2
  let t2 ← Ext12.exptTorus t1
  let t1 := Ext12.frobeniusTorus t1
  let t1 ← Ext12.mulTorus t1 t2
  let c ← Ext12.mulTorus c t0
  let t0 ← Ext12.exptTorus t1
  let t2 ← Ext12.exptTorus t0
  let t0 := Ext12.frobeniusSquareTorus t1
  let t1 := Ext12.inverseTorus t1
  let t1 ← Ext12.mulTorus t1 t2
  let t1 ← Ext12.mulTorus t1 t0
  pure (c, t1)

/-- pairing.go:114-188, `unsafe = true`.  The second component is the caller's `*e` afterwards. -/
def finalExpUnsafe (e : E12 Fp) : Circ (E12 Fp × E12 Fp) := do
  let (c, t1) ← finalExpChain e
  let m ← Ext12.mulTorus c t1
  let result ← Ext12.decompressTorus m
  pure (result, e)

/-- pairing.go:114-188, `unsafe = false`.  The second component is the caller's `*e` afterwards
(line 131 stores through the pointer). -/
def finalExpSafe (e : E12 Fp) : Circ (E12 Fp × E12 Fp) := do
  let dummy : E6 Fp := Ext6.one
  let selector1 ← Ext6.isZero e.C1
  let c1 ← Ext6.select selector1 dummy e.C1
  let e : E12 Fp := ⟨e.C0, c1⟩
  let (c, t1) ← finalExpChain e
  let sum := Ext6.add c t1
  let selector2 ← Ext6.isZero sum
  let t1 ← Ext6.select selector2 dummy t1
  let selector := (1 - selector1) * (1 - selector2)
  let m ← Ext12.mulTorus c t1
  let d ← Ext12.decompressTorus m
  let result ← Ext12.select selector d Ext12.one
  pure (result, e)

/-- pairing.go:114-188 -/
def finalExponentiation (e : E12 Fp) (unsafe_ : Bool) : Circ (E12 Fp × E12 Fp) :=
  if unsafe_ then finalExpUnsafe e else finalExpSafe e

/-- pairing.go:83-85 -/
def finalExp (e : E12 Fp) : Circ (E12 Fp × E12 Fp) := finalExponentiation e false

/-- pairing.go:101-103 -/
def finalExpUnsafeExported (e : E12 Fp) : Circ (E12 Fp × E12 Fp) := finalExponentiation e true

end Pairing
end Spark
