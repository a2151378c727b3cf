import Verif.Spec.Pairing

/-!
# Line functions form a cocycle

For the functions `g(A, B) = ℓ_{A,B} / v_{A+B}` on the curve `y² = x³ + b` (`ℓ` the line through `A` and `B`, `v` the
vertical line), `g(A, B) · g(A+B, C) = ± g(B, C) · g(A, B+C)`.  Proof: both sides have the same divisor, expressed with
ideals of Mathlib's coordinate ring, so they differ by a unit; units are constants; comparing the leading coefficients of
the norms the constant is `±1`.
-/

namespace Spark.Cocycle

set_option linter.unusedSectionVars false

open WeierstrassCurve WeierstrassCurve.Affine WeierstrassCurve.Affine.CoordinateRing Polynomial Spec
open scoped Polynomial.Bivariate

variable {F : Type} [Field F] [DecidableEq F] {b : F}

/-- ideal of the functions vanishing at a point -/
noncomputable def ptIdeal : (sw b).Point → Ideal (sw b).CoordinateRing
  | .zero => ⊤
  | .some x y _ => XYIdeal (sw b) x (C y)

/-- the vertical line as a function -/
noncomputable def vertF : (sw b).Point → (sw b).CoordinateRing
  | .zero => 1
  | .some x _ _ => XClass (sw b) x

/-- the line as a function -/
noncomputable def lineF (T S : (sw b).Point) : (sw b).CoordinateRing :=
  match T, S with
  | .zero, .zero => 1
  | .zero, .some x₂ _ _ => XClass (sw b) x₂
  | .some x₁ _ _, .zero => XClass (sw b) x₁
  | .some x₁ y₁ _, .some x₂ y₂ _ =>
    if x₁ = x₂ ∧ y₁ = -y₂ then XClass (sw b) x₁
    else YClass (sw b) (linePolynomial x₁ y₁ ((sw b).slope x₁ x₂ y₁ y₂))

theorem ideal_mul (A B : (sw b).Point) :
    Ideal.span {vertF (A + B)} * (ptIdeal A * ptIdeal B) = Ideal.span {lineF A B} * ptIdeal (A + B) := by
  match A, B with
  | .zero, .zero =>
    rw [show (Point.zero + Point.zero : (sw b).Point) = Point.zero from zero_add (0 : (sw b).Point)]
    simp [vertF, ptIdeal, lineF]
  | .zero, .some x y h =>
    rw [show (Point.zero + Point.some x y h : (sw b).Point) = .some x y h from zero_add _]
    simp [vertF, ptIdeal, lineF, Ideal.top_mul]
  | .some x y h, .zero =>
    rw [show (Point.some x y h + Point.zero : (sw b).Point) = .some x y h from add_zero _]
    simp [vertF, ptIdeal, lineF, Ideal.mul_top]
  | .some x₁ y₁ h₁, .some x₂ y₂ h₂ =>
    by_cases hxy : x₁ = x₂ ∧ y₁ = -y₂
    · obtain ⟨rfl, rfl⟩ := hxy
      rw [Point.add_of_Y_eq rfl (sw_negY _ _).symm]
      have := XYIdeal_neg_mul h₂
      rw [sw_negY] at this
      change Ideal.span {vertF (Point.zero : (sw b).Point)} * _ = _ * ptIdeal (Point.zero : (sw b).Point)
      simp only [ptIdeal, lineF, vertF, this, and_self, if_true, XIdeal]
      simp
    · have hxy' : ¬(x₁ = x₂ ∧ y₁ = (sw b).negY x₂ y₂) := by rwa [sw_negY]
      rw [Point.add_some hxy']
      simp only [ptIdeal, lineF, vertF, if_neg hxy]
      exact XYIdeal_mul_XYIdeal h₁.1 h₂.1 hxy'

theorem neg_mul (A : (sw b).Point) : ptIdeal (-A) * ptIdeal A = Ideal.span {vertF A} := by
  match A with
  | .zero =>
    rw [show (-Point.zero : (sw b).Point) = Point.zero from neg_zero]
    simp [ptIdeal, vertF]
  | .some x y h =>
    rw [Point.neg_some]
    exact XYIdeal_neg_mul h

theorem vertF_ne (A : (sw b).Point) : vertF A ≠ 0 := by
  match A with
  | .zero => exact one_ne_zero
  | .some x y h => exact XClass_ne_zero x

theorem lineF_ne (A B : (sw b).Point) : lineF A B ≠ 0 := by
  unfold lineF
  split
  · exact one_ne_zero
  · exact XClass_ne_zero _
  · exact XClass_ne_zero _
  · split
    · exact XClass_ne_zero _
    · exact YClass_ne_zero _

theorem span_cancel (f g : (sw b).CoordinateRing) (D : (sw b).Point)
    (h : Ideal.span {f} * ptIdeal D = Ideal.span {g} * ptIdeal D) : Associated f g := by
  have h1 := congrArg (· * ptIdeal (-D)) h
  simp only [mul_assoc, mul_comm (ptIdeal D), neg_mul, Ideal.span_singleton_mul_span_singleton] at h1
  have h2 := Ideal.span_singleton_eq_span_singleton.1 h1
  exact Associated.of_mul_right h2 (Associated.refl _) (vertF_ne D)

/-- leading coefficient of the norm is `(-1)^degree` -/
def Monicish (f : (sw b).CoordinateRing) : Prop :=
  (Algebra.norm F[X] f).leadingCoeff = (-1) ^ (Algebra.norm F[X] f).natDegree

instance : Module.Finite F[X] (sw b).CoordinateRing := Module.Finite.of_basis (CoordinateRing.basis (sw b))

theorem norm_ne {f : (sw b).CoordinateRing} (h : f ≠ 0) : Algebra.norm F[X] f ≠ 0 :=
  fun e => h (Algebra.norm_eq_zero_iff.1 e)

theorem Monicish.mul {f g : (sw b).CoordinateRing} (hf : Monicish f) (hg : Monicish g) (h0 : f ≠ 0) (h1 : g ≠ 0) :
    Monicish (f * g) := by
  unfold Monicish at *
  rw [map_mul, leadingCoeff_mul, hf, hg, natDegree_mul (norm_ne h0) (norm_ne h1), pow_add]

theorem norm_eq (p q : F[X]) : Algebra.norm F[X] (p • (1 : (sw b).CoordinateRing) + q • mk (sw b) Y) =
    p ^ 2 - q ^ 2 * (X ^ 3 + C b) := by
  rw [norm_smul_basis]
  simp [sw]

theorem monicish_one : Monicish (1 : (sw b).CoordinateRing) := by
  simp [Monicish]

theorem monicish_X (x : F) : Monicish (XClass (sw b) x) := by
  have h : XClass (sw b) x = (X - C x : F[X]) • (1 : (sw b).CoordinateRing) + (0 : F[X]) • mk (sw b) Y := by
    rw [zero_smul, add_zero, CoordinateRing.smul, mul_one]; rfl
  unfold Monicish
  rw [h, norm_eq]
  have : (X - C x : F[X]) ^ 2 - 0 ^ 2 * (X ^ 3 + C b) = (X - C x) ^ 2 := by ring
  rw [this, leadingCoeff_pow, natDegree_pow, leadingCoeff_X_sub_C, natDegree_X_sub_C]
  simp

theorem monicish_Y (x y l : F) : Monicish (YClass (sw b) (linePolynomial x y l)) := by
  have h : YClass (sw b) (linePolynomial x y l) =
      (-(linePolynomial x y l) : F[X]) • (1 : (sw b).CoordinateRing) + (1 : F[X]) • mk (sw b) Y := by
    rw [one_smul, CoordinateRing.smul, mul_one, YClass, map_sub, C_neg, map_neg]; ring
  unfold Monicish
  rw [h, norm_eq]
  have e : (-(linePolynomial x y l) : F[X]) ^ 2 - 1 ^ 2 * (X ^ 3 + C b) =
      C (-1) * X ^ 3 + C (l ^ 2) * X ^ 2 + C (2 * l * (y - l * x)) * X + C ((y - l * x) ^ 2 - b) := by
    simp only [linePolynomial, map_sub, map_mul, map_pow, map_neg, map_ofNat, C_1]
    ring
  rw [e, leadingCoeff_cubic (by simp), natDegree_cubic (by simp)]
  norm_num

theorem monicish_vertF (A : (sw b).Point) : Monicish (vertF A) := by
  match A with
  | .zero => exact monicish_one
  | .some x y h => exact monicish_X x

theorem monicish_lineF (A B : (sw b).Point) : Monicish (lineF A B) := by
  unfold lineF
  split
  · exact monicish_one
  · exact monicish_X _
  · exact monicish_X _
  · split
    · exact monicish_X _
    · exact monicish_Y ..

/-- associated monic-like functions are equal up to sign -/
theorem eq_or_neg {f g : (sw b).CoordinateRing} (h : Associated f g) (hf : Monicish f) (hg : Monicish g) (h0 : f ≠ 0) :
    g = f ∨ g = -f := by
  obtain ⟨u, hu⟩ := h
  have hn : IsUnit (Algebra.norm F[X] (u : (sw b).CoordinateRing)) := u.isUnit.map _
  obtain ⟨p, q, hpq⟩ := exists_smul_basis_eq (u : (sw b).CoordinateRing)
  have hd := degree_eq_zero_of_isUnit hn
  rw [← hpq, degree_norm_smul_basis] at hd
  have hq : q = 0 := by
    by_contra hq
    rw [degree_eq_natDegree hq] at hd
    have : ((2 • (q.natDegree : WithBot ℕ)) + 3) ≤ 0 := hd ▸ le_max_right _ _
    norm_cast at this
  subst hq
  have hp0 : p.degree = 0 := by
    have hp : p ≠ 0 := by
      rintro rfl
      rw [zero_smul, zero_smul, add_zero] at hpq
      exact u.ne_zero hpq.symm
    rw [degree_zero] at hd
    rw [degree_eq_natDegree hp] at hd ⊢
    have h2 : (2 • (p.natDegree : WithBot ℕ)) ≤ 0 := hd ▸ le_max_left _ _
    rw [two_nsmul] at h2
    norm_cast at h2 ⊢
    omega
  obtain ⟨c, rfl⟩ : ∃ c, p = C c := ⟨_, eq_C_of_degree_eq_zero hp0⟩
  have hN : Algebra.norm F[X] (u : (sw b).CoordinateRing) = C (c ^ 2) := by
    rw [← hpq, norm_eq]; simp
  have hc0 : c ≠ 0 := by
    rintro rfl
    simp at hp0
  have hc : c ^ 2 = 1 := by
    unfold Monicish at hf hg
    rw [← hu, map_mul, hN, leadingCoeff_mul, leadingCoeff_C, hf, natDegree_mul_C (pow_ne_zero 2 hc0)] at hg
    exact mul_left_cancel₀ (pow_ne_zero _ (neg_ne_zero.2 one_ne_zero)) (hg.trans (mul_one _).symm)
  rw [zero_smul, add_zero] at hpq
  rcases sq_eq_one_iff.1 hc with rfl | rfl
  · left
    rw [← hu, ← hpq, C_1, one_smul, mul_one]
  · right
    rw [← hu, ← hpq, C_neg, C_1, neg_smul, one_smul, mul_neg, mul_one]

/-- evaluation at a point of the curve -/
noncomputable def ev {x y : F} (h : y ^ 2 = x ^ 3 + b) : (sw b).CoordinateRing →+* F :=
  AdjoinRoot.lift (evalRingHom x) y (by
    rw [polynomial]
    simp [sw, h, eval₂_pow])

theorem ev_X {x y : F} (h : y ^ 2 = x ^ 3 + b) (x₁ : F) : ev h (XClass (sw b) x₁) = x - x₁ := by
  rw [ev, XClass]
  erw [AdjoinRoot.lift_mk]
  simp

theorem ev_Y {x y : F} (h : y ^ 2 = x ^ 3 + b) (p : F[X]) : ev h (YClass (sw b) p) = y - p.eval x := by
  rw [ev, YClass]
  erw [AdjoinRoot.lift_mk]
  simp

theorem ev_vert {x y : F} (h : y ^ 2 = x ^ 3 + b) (A : (sw b).Point) : ev h (vertF A) = vertVal A x := by
  match A with
  | .zero => exact map_one _
  | .some x y _ => exact ev_X ..

theorem ev_line {x y : F} (h : y ^ 2 = x ^ 3 + b) (A B : (sw b).Point) : ev h (lineF A B) = lineVal A B x y := by
  match A, B with
  | .zero, .zero => exact map_one _
  | .zero, .some .. => exact ev_X ..
  | .some .., .zero => exact ev_X ..
  | .some x₁ y₁ _, .some x₂ y₂ _ =>
    simp only [lineF, lineVal]
    split
    · exact ev_X ..
    · rw [ev_Y, linePolynomial]
      simp only [eval_add, eval_mul, eval_C, eval_sub, eval_X]
      ring

/-- the cocycle identity of functions -/
theorem lineF_cocycle (A B D : (sw b).Point) :
    lineF B D * lineF A (B + D) * vertF (A + B) = lineF A B * lineF (A + B) D * vertF (B + D) ∨
    lineF B D * lineF A (B + D) * vertF (A + B) = -(lineF A B * lineF (A + B) D * vertF (B + D)) := by
  refine eq_or_neg (span_cancel _ _ (A + B + D) ?_) ?_ ?_ ?_
  · simp only [← Ideal.span_singleton_mul_span_singleton]
    have h1 := ideal_mul A B
    have h2 := ideal_mul (A + B) D
    have h3 := ideal_mul B D
    have h4 := ideal_mul A (B + D)
    rw [← add_assoc] at h4
    calc Ideal.span {lineF A B} * Ideal.span {lineF (A + B) D} * Ideal.span {vertF (B + D)} * ptIdeal (A + B + D)
        = Ideal.span {lineF A B} * Ideal.span {vertF (B + D)} *
            (Ideal.span {lineF (A + B) D} * ptIdeal (A + B + D)) := by ring
      _ = Ideal.span {vertF (B + D)} * Ideal.span {vertF (A + B + D)} * ptIdeal D *
            (Ideal.span {lineF A B} * ptIdeal (A + B)) := by rw [← h2]; ring
      _ = Ideal.span {vertF (A + B)} * Ideal.span {vertF (A + B + D)} * ptIdeal A *
            (Ideal.span {vertF (B + D)} * (ptIdeal B * ptIdeal D)) := by rw [← h1]; ring
      _ = Ideal.span {vertF (A + B)} * Ideal.span {lineF B D} *
            (Ideal.span {vertF (A + B + D)} * (ptIdeal A * ptIdeal (B + D))) := by rw [h3]; ring
      _ = _ := by rw [h4]; ring
  · exact ((monicish_lineF _ _).mul (monicish_lineF _ _) (lineF_ne _ _) (lineF_ne _ _)).mul (monicish_vertF _)
      (mul_ne_zero (lineF_ne _ _) (lineF_ne _ _)) (vertF_ne _)
  · exact ((monicish_lineF _ _).mul (monicish_lineF _ _) (lineF_ne _ _) (lineF_ne _ _)).mul (monicish_vertF _)
      (mul_ne_zero (lineF_ne _ _) (lineF_ne _ _)) (vertF_ne _)
  · exact mul_ne_zero (mul_ne_zero (lineF_ne _ _) (lineF_ne _ _)) (vertF_ne _)

/-- `ℓ_{A,B} ℓ_{-A,-B} = ± v_A v_B v_{A+B}` -/
theorem lineF_neg (A B : (sw b).Point) :
    vertF A * vertF B * vertF (A + B) = lineF A B * lineF (-A) (-B) ∨
    vertF A * vertF B * vertF (A + B) = -(lineF A B * lineF (-A) (-B)) := by
  refine eq_or_neg (span_cancel _ _ 0 ?_) ?_ ?_ ?_
  · simp only [← Ideal.span_singleton_mul_span_singleton]
    have h1 := ideal_mul A B
    have h2 := ideal_mul (-A) (-B)
    rw [← neg_add] at h2
    have hv : ∀ T : (sw b).Point, Ideal.span {vertF (-T)} = Ideal.span {vertF T} := fun T => by
      rw [← neg_mul, ← neg_mul, neg_neg, mul_comm]
    have e : Ideal.span {vertF (A + B)} *
        (Ideal.span {lineF A B} * Ideal.span {lineF (-A) (-B)} * ptIdeal (0 : (sw b).Point)) =
        Ideal.span {vertF (A + B)} *
        (Ideal.span {vertF A} * Ideal.span {vertF B} * Ideal.span {vertF (A + B)} * ptIdeal (0 : (sw b).Point)) := by
      calc _ = (Ideal.span {lineF A B} * ptIdeal (A + B)) * (Ideal.span {lineF (-A) (-B)} * ptIdeal (-(A + B))) *
              ptIdeal 0 := by rw [← neg_mul]; ring
        _ = (Ideal.span {vertF (A + B)} * (ptIdeal A * ptIdeal B)) *
              (Ideal.span {vertF (-(A + B))} * (ptIdeal (-A) * ptIdeal (-B))) * ptIdeal 0 := by rw [h1, h2]
        _ = _ := by rw [hv, ← neg_mul A, ← neg_mul B]; ring
    rwa [Ideal.span_singleton_mul_right_inj (vertF_ne _)] at e
  · exact (monicish_lineF _ _).mul (monicish_lineF _ _) (lineF_ne _ _) (lineF_ne _ _)
  · exact ((monicish_vertF _).mul (monicish_vertF _) (vertF_ne _) (vertF_ne _)).mul (monicish_vertF _)
      (mul_ne_zero (vertF_ne _) (vertF_ne _)) (vertF_ne _)
  · exact mul_ne_zero (lineF_ne _ _) (lineF_ne _ _)

/-- cocycle identity of the values, squared -/
theorem line_cocycle {x y : F} (h : y ^ 2 = x ^ 3 + b) (A B D : (sw b).Point) :
    (lineVal B D x y * lineVal A (B + D) x y * vertVal (A + B) x) ^ 2 =
    (lineVal A B x y * lineVal (A + B) D x y * vertVal (B + D) x) ^ 2 := by
  simp only [← ev_line h, ← ev_vert h, ← map_mul]
  rcases lineF_cocycle A B D with e | e
  · rw [e]
  · rw [e, map_neg, neg_sq]

theorem line_neg {x y : F} (h : y ^ 2 = x ^ 3 + b) (A B : (sw b).Point) :
    (lineVal A B x y * lineVal (-A) (-B) x y) ^ 2 = (vertVal A x * vertVal B x * vertVal (A + B) x) ^ 2 := by
  simp only [← ev_line h, ← ev_vert h, ← map_mul]
  rcases lineF_neg A B with e | e
  · rw [e]
  · rw [e, map_neg, neg_sq]

end Spark.Cocycle
