import Verif.Math.Curve
import Verif.Math.Frobenius
import Verif.Math.GroupOrder

/-!
# Specification: the (optimal) ate pairing of BLS12-381, textbook form

Curves `E : y² = x³ + 4` over `Fp` and over `Fp12`, its sextic twist `E' : y² = x³ + 4(1+u)` over
`Fp2`; the group law is Mathlib's `WeierstrassCurve.Affine.Point`.  Miller's recursion is the one of
the literature (Miller 1986; Galbraith, "Pairings", Theorem IX.17): true line *and* vertical
evaluations, plain double-and-add.
-/

namespace Spark.Spec

open WeierstrassCurve Spark

section
variable {F : Type} [Field F] [DecidableEq F] {b : F}

/-- Value at `(x, y)` of the line through `T` and `S` (the tangent if `T = S`; the vertical line if
`S = -T` or if one of the points is at infinity; 1 if both are). -/
def lineVal (T S : (sw b).Point) (x y : F) : F :=
  match T, S with
  | .zero, .zero => 1
  | .zero, .some x₂ _ _ => x - x₂
  | .some x₁ _ _, .zero => x - x₁
  | .some x₁ y₁ _, .some x₂ y₂ _ =>
    if x₁ = x₂ ∧ y₁ = -y₂ then x - x₁
    else y - y₁ - (sw b).slope x₁ x₂ y₁ y₂ * (x - x₁)

/-- Value at `(x, y)` of the vertical line through `T` (1 if `T` is at infinity). -/
def vertVal (T : (sw b).Point) (x : F) : F :=
  match T with
  | .zero => 1
  | .some x₁ _ _ => x - x₁

/-- Miller's function `f_{n,Q}` evaluated at `(x, y)`:
`f₁ = 1`, `f_{2m} = f_m² · ℓ_{mQ,mQ} / v_{2mQ}`, `f_{m+1} = f_m · ℓ_{mQ,Q} / v_{(m+1)Q}`. -/
noncomputable def miller (Q : (sw b).Point) (x y : F) (n : ℕ) : F :=
  if n ≤ 1 then 1
  else if n % 2 = 0 then
    miller Q x y (n / 2) ^ 2 * lineVal ((n / 2) • Q) ((n / 2) • Q) x y / vertVal (n • Q) x
  else
    miller Q x y (n - 1) * lineVal ((n - 1) • Q) Q x y / vertVal (n • Q) x
termination_by n

/-- `f_{n,Q}` for an integer `n`: `f_{-n} = 1 / (f_n · v_{nQ})`. -/
noncomputable def millerInt (Q : (sw b).Point) (x y : F) (n : ℤ) : F :=
  if 0 ≤ n then miller Q x y n.natAbs
  else 1 / (miller Q x y n.natAbs * vertVal (n.natAbs • Q) x)

end

/-- The curve seed `u` of BLS12-381. -/
def seed : ℤ := -15132376222941642752

/-- `r = u⁴ - u² + 1`, `p = (u-1)²·r/3 + u`. -/
example : (rOrder : ℤ) = seed ^ 4 - seed ^ 2 + 1 := by decide +kernel
example : (fpOrder : ℤ) = (seed - 1) ^ 2 * (seed ^ 4 - seed ^ 2 + 1) / 3 + seed := by decide +kernel

section
variable (K : Type) [Field K] [TowerField K]

/-- `E(K)` (`K = Fp`) -/
abbrev E1 := (sw (4 : K)).Point
/-- `E'(K²)`; `4(1+u)` -/
abbrev ETwist := (sw (⟨4, 4⟩ : E2 K)).Point

/-- the inclusion `Fp2 → Fp12` -/
def inc2 : E2 K →+* E12 K := E12.ofHom.comp E6.ofHom
/-- the inclusion `Fp → Fp12` -/
def inc1 : K →+* E12 K := (inc2 K).comp E2.ofHom

/-- `E(K¹²)` -/
abbrev EFull := (sw (inc1 K 4)).Point

variable {K}

theorem w_ne_zero : (E12.w : E12 K) ≠ 0 := fun h => by
  have := congrArg E12.C1 h
  exact one_ne_zero this

theorem w_pow_six : (E12.w : E12 K) ^ 6 = inc2 K E2.xi := by
  rw [show 6 = 2 * 3 from rfl, pow_mul, E12.w_sq, ← E12.of_pow, E6.v_cube]; rfl

theorem untwist_coeff_aux {G : Type} [Field G] {w c d e : G} (hw : w ≠ 0) (h : w ^ 6 = c)
    (he : e = d * c) : w⁻¹ ^ 6 * e = d := by
  rw [he, ← h]; field_simp

theorem untwist_coeff : (E12.w : E12 K)⁻¹ ^ 6 * inc2 K ⟨4, 4⟩ = inc1 K 4 := by
  refine untwist_coeff_aux w_ne_zero w_pow_six ?_
  rw [inc1, RingHom.comp_apply, ← map_mul]
  congr 1
  ext <;> simp

variable (K) in
/-- The untwisting isomorphism `E'(K²) → E(K¹²)`, `(x, y) ↦ (x/w², y/w³)`. -/
noncomputable def untwist [DecidableEq K] : ETwist K →+ EFull K :=
  twistHom (inc2 K) (inv_ne_zero w_ne_zero) untwist_coeff

/-- The Miller function `f_{u,Q}(P)` of the ate pairing. -/
noncomputable def millerAte [DecidableEq K] (P : E1 K) (Q : ETwist K) : E12 K :=
  match P with
  | .zero => 1
  | .some x y _ => millerInt (untwist K Q) (inc1 K x) (inc1 K y) seed

end

/-- The reduced ate pairing `e(P, Q) = f_{u,Q}(P)^((p¹²-1)/r)`. -/
noncomputable def ate (P : E1 Fp) (Q : ETwist Fp) : E12 Fp :=
  millerAte P Q ^ ((fpOrder ^ 12 - 1) / rOrder)

end Spark.Spec
