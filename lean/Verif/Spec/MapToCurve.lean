import Verif.Spec.Rfc9380
import Verif.Spec.Curve

/-!
# RFC 9380, curve-level part for BLS12-381 G2, specification

`sgn0` (§4.1), the simplified SWU map for `AB ≠ 0` (§6.6.2) on the curve
`E'' : y² = x³ + 240·I·x + 1012·(1 + I)` with `Z = -(2 + I)` (§8.8.2), and the 3-isogeny to the twist
`E' : y² = x³ + 4·(1 + I)` (Appendix E.3).
-/

namespace Spark.Rfc

open Spec

/-- §4.1: `sgn0` for `m = 2` -/
def sgn0 (x : E2 Fp) : ℕ :=
  let sign0 := x.A0.val % 2
  let zero0 := if x.A0 = 0 then 1 else 0
  let sign1 := x.A1.val % 2
  sign0 ||| (zero0 &&& sign1)

/-- §8.8.2: `A'` -/
def isoA : E2 Fp := ⟨0, 240⟩
/-- §8.8.2: `B'` -/
def isoB : E2 Fp := ⟨1012, 1012⟩
/-- §8.8.2: `Z = -(2 + I)` -/
def Z : E2 Fp := -⟨2, 1⟩

/-- §6.6.2: `g(x) = x³ + A·x + B` -/
def g (x : E2 Fp) : E2 Fp := x ^ 3 + isoA * x + isoB

/-- §6.6.2, step 1, before inversion: `Z²·u⁴ + Z·u²` -/
def den (u : E2 Fp) : E2 Fp := Z ^ 2 * u ^ 4 + Z * u ^ 2

open Classical in
/-- §6.6.2, steps 1-3: `tv1 = inv0(Z²u⁴ + Zu²)`, `x1 = (-B/A)·(1 + tv1)`, and `B/(Z·A)` if `tv1 = 0` -/
noncomputable def x1 (u : E2 Fp) : E2 Fp :=
  if den u = 0 then isoB / (Z * isoA) else (-isoB / isoA) * (1 + (den u)⁻¹)

/-- §6.6.2, step 5: `x2 = Z·u²·x1` -/
noncomputable def x2 (u : E2 Fp) : E2 Fp := Z * u ^ 2 * x1 u

open Classical in
/-- §6.6.2, steps 7-8: the abscissa of the result -/
noncomputable def sswuX (u : E2 Fp) : E2 Fp := if IsSquare (g (x1 u)) then x1 u else x2 u

/-- §6.6.2: `(x, y)` is the result of `map_to_curve_simple_swu(u)`: the abscissa is `sswuX u`, `y` is a
square root of `g(x)`, and its sign is that of `u` (step 9; a root `0` has no sign to choose). -/
def IsSswu (u x y : E2 Fp) : Prop :=
  x = sswuX u ∧ y ^ 2 = g x ∧ (y ≠ 0 → sgn0 y = sgn0 u)

/-- Appendix E.3: `x_num` -/
def isoXNum (x : E2 Fp) : E2 Fp :=
  E2.of 0x171d6541fa38ccfaed6dea691f5fb614cb14b4e7f4e810aa22d6108f142b85757098e38d0f671c7188e2aaaaaaaa5ed1 * x ^ 3
  + ⟨0x11560bf17baa99bc32126fced787c88f984f87adf7ae0c7f9a208c6b4f20a4181472aaa9cb8d555526a9ffffffffc71e,
     0x8ab05f8bdd54cde190937e76bc3e447cc27c3d6fbd7063fcd104635a790520c0a395554e5c6aaaa9354ffffffffe38d⟩ * x ^ 2
  + ⟨0, 0x11560bf17baa99bc32126fced787c88f984f87adf7ae0c7f9a208c6b4f20a4181472aaa9cb8d555526a9ffffffffc71a⟩ * x
  + ⟨0x5c759507e8e333ebb5b7a9a47d7ed8532c52d39fd3a042a88b58423c50ae15d5c2638e343d9c71c6238aaaaaaaa97d6,
     0x5c759507e8e333ebb5b7a9a47d7ed8532c52d39fd3a042a88b58423c50ae15d5c2638e343d9c71c6238aaaaaaaa97d6⟩

/-- Appendix E.3: `x_den` -/
def isoXDen (x : E2 Fp) : E2 Fp :=
  x ^ 2
  + ⟨0xc, 0x1a0111ea397fe69a4b1ba7b6434bacd764774b84f38512bf6730d2a0f6b0f6241eabfffeb153ffffb9feffffffffaa9f⟩ * x
  + ⟨0, 0x1a0111ea397fe69a4b1ba7b6434bacd764774b84f38512bf6730d2a0f6b0f6241eabfffeb153ffffb9feffffffffaa63⟩

/-- Appendix E.3: `y_num` -/
def isoYNum (x : E2 Fp) : E2 Fp :=
  E2.of 0x124c9ad43b6cf79bfbf7043de3811ad0761b0f37a1e26286b0e977c69aa274524e79097a56dc4bd9e1b371c71c718b10 * x ^ 3
  + ⟨0x11560bf17baa99bc32126fced787c88f984f87adf7ae0c7f9a208c6b4f20a4181472aaa9cb8d555526a9ffffffffc71c,
     0x8ab05f8bdd54cde190937e76bc3e447cc27c3d6fbd7063fcd104635a790520c0a395554e5c6aaaa9354ffffffffe38f⟩ * x ^ 2
  + ⟨0, 0x5c759507e8e333ebb5b7a9a47d7ed8532c52d39fd3a042a88b58423c50ae15d5c2638e343d9c71c6238aaaaaaaa97be⟩ * x
  + ⟨0x1530477c7ab4113b59a4c18b076d11930f7da5d4a07f649bf54439d87d27e500fc8c25ebf8c92f6812cfc71c71c6d706,
     0x1530477c7ab4113b59a4c18b076d11930f7da5d4a07f649bf54439d87d27e500fc8c25ebf8c92f6812cfc71c71c6d706⟩

/-- Appendix E.3: `y_den` -/
def isoYDen (x : E2 Fp) : E2 Fp :=
  x ^ 3
  + ⟨0x12, 0x1a0111ea397fe69a4b1ba7b6434bacd764774b84f38512bf6730d2a0f6b0f6241eabfffeb153ffffb9feffffffffaa99⟩ * x ^ 2
  + ⟨0, 0x1a0111ea397fe69a4b1ba7b6434bacd764774b84f38512bf6730d2a0f6b0f6241eabfffeb153ffffb9feffffffffa9d3⟩ * x
  + ⟨0x1a0111ea397fe69a4b1ba7b6434bacd764774b84f38512bf6730d2a0f6b0f6241eabfffeb153ffffb9feffffffffa8fb,
     0x1a0111ea397fe69a4b1ba7b6434bacd764774b84f38512bf6730d2a0f6b0f6241eabfffeb153ffffb9feffffffffa8fb⟩

/-- Appendix E.3: `iso_map(x', y') = (x_num / x_den, y' · y_num / y_den)`, abscissa -/
noncomputable def isoMapX (x : E2 Fp) : E2 Fp := isoXNum x / isoXDen x
/-- Appendix E.3: ordinate -/
noncomputable def isoMapY (x y : E2 Fp) : E2 Fp := y * isoYNum x / isoYDen x

/-- §6.6.3: `Q = map_to_curve(u)`: SWU on `E''` followed by the isogeny. -/
def MapsTo (u : E2 Fp) (Q : ETwist Fp) : Prop :=
  ∃ x y, IsSswu u x y ∧ Pt Q (isoMapX x) (isoMapY x y)

end Spark.Rfc
