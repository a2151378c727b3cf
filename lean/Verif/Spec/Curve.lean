import Verif.Spec.Pairing

/-!
# Specification: Jacobian coordinates and the endomorphism ψ of the twist
-/

namespace Spark.Spec

open WeierstrassCurve Spark

/-- `(X : Y : Z)` are Jacobian coordinates of `P`: `Z = 0` at infinity, otherwise `P` is the affine
point `(X/Z², Y/Z³)`. -/
def JacOf {F : Type} [Field F] {b : F} (P : (sw b).Point) (X Y Z : F) : Prop :=
  (P = 0 ∧ Z = 0) ∨ (Z ≠ 0 ∧ Pt P (X / Z ^ 2) (Y / Z ^ 3))

theorem frobE_coeff : (1 : E12 Fp) ^ 6 * frobHom (inc1 Fp 4) = inc1 Fp 4 := by
  rw [one_pow, one_mul, map_ofNat, map_ofNat]

/-- The `p`-power Frobenius of `E(Fp12)`: `(x, y) ↦ (x^p, y^p)`. -/
noncomputable def frobE : EFull Fp →+ EFull Fp := twistHom frobHom one_ne_zero frobE_coeff

/-- `frobE` really is the coordinatewise `p`-th power. -/
theorem frobE_pt {P : EFull Fp} {x y : E12 Fp} (h : Pt P x y) :
    Pt (frobE P) (x ^ fpOrder) (y ^ fpOrder) := by
  refine (h.twist frobHom one_ne_zero frobE_coeff).congr ?_ ?_
  · rw [frobHom_apply, one_pow, one_mul]
  · rw [frobHom_apply, one_pow, one_mul]

/-- `f` is the endomorphism `ψ = twist ∘ Frobenius ∘ untwist` of the twist (Galbraith-Scott). -/
def IsPsi (f : ETwist Fp →+ ETwist Fp) : Prop := ∀ Q, untwist Fp (f Q) = frobE (untwist Fp Q)

end Spark.Spec
