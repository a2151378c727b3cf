import Mathlib.AlgebraicGeometry.EllipticCurve.Affine.Point
import Mathlib.Tactic.FieldSimp
import Mathlib.Tactic.LinearCombination

/-! Short Weierstrass curves `y² = x³ + b` and their group law (Mathlib's). -/

namespace Spark

open WeierstrassCurve

variable {F : Type} [Field F]

/-- The curve `y² = x³ + b`. -/
def sw (b : F) : WeierstrassCurve.Affine F := ⟨0, 0, 0, 0, b⟩

/-- `P` is the affine point `(x, y)`. -/
def Pt {b : F} (P : (sw b).Point) (x y : F) : Prop :=
  ∃ h : (sw b).Nonsingular x y, P = Affine.Point.some x y h

variable {b : F}

theorem sw_negY (x y : F) : (sw b).negY x y = -y := by simp [Affine.negY, sw]

theorem sw_equation (x y : F) : (sw b).Equation x y ↔ y ^ 2 = x ^ 3 + b := by
  rw [Affine.equation_iff]; simp [sw]

theorem sw_nonsingular (x y : F) :
    (sw b).Nonsingular x y ↔ y ^ 2 = x ^ 3 + b ∧ (3 * x ^ 2 ≠ 0 ∨ y ≠ -y) := by
  rw [Affine.nonsingular_iff, sw_equation]
  have : (sw b).a₁ = 0 ∧ (sw b).a₂ = 0 ∧ (sw b).a₃ = 0 ∧ (sw b).a₄ = 0 := ⟨rfl, rfl, rfl, rfl⟩
  obtain ⟨h1, h2, h3, h4⟩ := this
  simp only [h1, h2, h3, h4]
  simp [eq_comm, ne_eq]

theorem sw_addX (x₁ x₂ l : F) : (sw b).addX x₁ x₂ l = l ^ 2 - x₁ - x₂ := by
  simp [Affine.addX, sw]

theorem sw_addY (x₁ x₂ y₁ l : F) :
    (sw b).addY x₁ x₂ y₁ l = l * (x₁ - (l ^ 2 - x₁ - x₂)) - y₁ := by
  rw [Affine.addY, sw_negY, Affine.negAddY, sw_addX]; ring

namespace Pt

variable {P Q : (sw b).Point} {x y x' y' : F}

theorem ne_zero (h : Pt P x y) : P ≠ 0 := by
  obtain ⟨h, rfl⟩ := h; exact Affine.Point.some_ne_zero h

theorem exists_of_ne (h : P ≠ 0) : ∃ x y, Pt P x y := by
  rcases P with _ | ⟨x, y, hxy⟩
  · exact absurd rfl h
  · exact ⟨x, y, hxy, rfl⟩

theorem unique (h : Pt P x y) (h' : Pt P x' y') : x = x' ∧ y = y' := by
  obtain ⟨h, rfl⟩ := h
  obtain ⟨h', e⟩ := h'
  cases e; exact ⟨rfl, rfl⟩

theorem ext (h : Pt P x y) (h' : Pt Q x y) : P = Q := by
  obtain ⟨h, rfl⟩ := h
  obtain ⟨h', rfl⟩ := h'
  rfl

theorem congr (h : Pt P x y) (hx : x = x') (hy : y = y') : Pt P x' y' := by
  subst hx hy; exact h

theorem eqn (h : Pt P x y) : y ^ 2 = x ^ 3 + b := by
  obtain ⟨h, -⟩ := h; exact ((sw_nonsingular x y).1 h).1

theorem neg (h : Pt P x y) : Pt (-P) x (-y) := by
  obtain ⟨h, rfl⟩ := h
  refine ⟨?_, ?_⟩
  · have := (Affine.nonsingular_neg ..).mpr h
    rwa [sw_negY] at this
  · rw [Affine.Point.neg_some]
    congr 1
    exact sw_negY x y

variable [DecidableEq F]

theorem eq_or_neg (h : Pt P x y) (h' : Pt Q x y') : P = Q ∨ P = -Q := by
  obtain ⟨h, rfl⟩ := h
  obtain ⟨h', rfl⟩ := h'
  exact Affine.Point.X_eq_iff.1 rfl

theorem x_ne (h : Pt P x y) (h' : Pt Q x' y') (h1 : P ≠ Q) (h2 : P + Q ≠ 0) : x ≠ x' := by
  rintro rfl
  rcases h.eq_or_neg h' with e | e
  · exact h1 e
  · exact h2 (by rw [e, neg_add_cancel])

theorem y_ne (h : Pt P x y) (h2 : P + P ≠ 0) : y ≠ -y := by
  intro e
  apply h2
  have := h.neg
  rw [← e] at this
  have := h.ext this
  nth_rewrite 1 [this]
  exact neg_add_cancel P

theorem two_y_ne (h : Pt P x y) (h2 : P + P ≠ 0) : 2 * y ≠ 0 := fun e =>
  h.y_ne h2 (by linear_combination e)

theorem mk_some {x y x' y' : F} (hx : x = x') (hy : y = y') (h : (sw b).Nonsingular x y) :
    Pt (Affine.Point.some x y h) x' y' := by subst hx hy; exact ⟨h, rfl⟩

theorem add (h : Pt P x y) (h' : Pt Q x' y') (hx : x ≠ x') {l : F} (hl : l * (x - x') = y - y') :
    Pt (P + Q) (l ^ 2 - x - x') (l * (x - (l ^ 2 - x - x')) - y) := by
  obtain ⟨h, rfl⟩ := h
  obtain ⟨h', rfl⟩ := h'
  rw [Affine.Point.add_of_X_ne hx]
  have hs : (sw b).slope x x' y y' = l := by
    rw [Affine.slope_of_X_ne hx, ← hl, mul_div_cancel_right₀ _ (sub_ne_zero.2 hx)]
  refine mk_some ?_ ?_ _
  · rw [hs, sw_addX]
  · rw [hs, sw_addY]

theorem double (h : Pt P x y) (hy : 2 * y ≠ 0) {l : F} (hl : l * (2 * y) = 3 * x ^ 2) :
    Pt (P + P) (l ^ 2 - x - x) (l * (x - (l ^ 2 - x - x)) - y) := by
  obtain ⟨h, rfl⟩ := h
  have hy' : y ≠ (sw b).negY x y := by
    rw [sw_negY]; intro e; exact hy (by linear_combination e)
  rw [Affine.Point.add_self_of_Y_ne hy']
  have hs : (sw b).slope x x y y = l := by
    rw [Affine.slope_of_Y_ne rfl hy', sw_negY, div_eq_iff (by rwa [sub_neg_eq_add, ← two_mul])]
    simp only [sw]
    linear_combination -hl
  refine mk_some ?_ ?_ _
  · rw [hs, sw_addX]
  · rw [hs, sw_addY]

end Pt

/-! ## Isomorphisms `(x, y) ↦ (t²·φ x, t³·φ y)` -/
section twist
variable {G : Type} [Field G] [DecidableEq F] [DecidableEq G]

theorem twist_nonsingular (φ : F →+* G) {t : G} (ht : t ≠ 0) {b : F} {b' : G} (hb : t ^ 6 * φ b = b')
    {x y : F} (h : (sw b).Nonsingular x y) : (sw b').Nonsingular (t ^ 2 * φ x) (t ^ 3 * φ y) := by
  rw [sw_nonsingular] at *
  refine ⟨?_, ?_⟩
  · have := congrArg φ h.1
    rw [map_pow, map_add, map_pow] at this
    rw [← hb]
    linear_combination t ^ 6 * this
  · rcases h.2 with h3 | h2
    · left
      have : φ (3 * x ^ 2) ≠ 0 := fun e => h3 ((map_eq_zero φ).1 e)
      rw [map_mul, map_pow, map_ofNat] at this
      intro e
      apply this
      have : t ^ 4 * (3 * φ x ^ 2) = 0 := by linear_combination e
      exact (mul_eq_zero.1 this).resolve_left (pow_ne_zero 4 ht)
    · right
      intro e
      apply h2
      apply φ.injective
      rw [map_neg]
      have : t ^ 3 * φ y = t ^ 3 * -φ y := by linear_combination e
      exact mul_left_cancel₀ (pow_ne_zero 3 ht) this

/-- The map `(x, y) ↦ (t²·φ x, t³·φ y)` from `y² = x³ + b` to `y² = x³ + t⁶·φ b`. -/
noncomputable def twistFun (φ : F →+* G) {t : G} (ht : t ≠ 0) {b : F} {b' : G} (hb : t ^ 6 * φ b = b') :
    (sw b).Point → (sw b').Point
  | .zero => .zero
  | .some _ _ h => .some _ _ (twist_nonsingular φ ht hb h)

variable (φ : F →+* G) {t : G} (ht : t ≠ 0) {b : F} {b' : G} (hb : t ^ 6 * φ b = b')


theorem Pt.image {P : (sw b).Point} {x y : F} (h : Pt P x y) :
    Pt (twistFun φ ht hb P) (t ^ 2 * φ x) (t ^ 3 * φ y) := by
  obtain ⟨h, rfl⟩ := h
  exact ⟨twist_nonsingular φ ht hb h, rfl⟩

/-- ... as a group homomorphism. -/
noncomputable def twistHom : (sw b).Point →+ (sw b').Point where
  toFun := twistFun φ ht hb
  map_zero' := rfl
  map_add' := by
    intro P Q
    by_cases hP : P = 0
    · subst hP; rw [zero_add]
      exact (zero_add (twistFun φ ht hb Q)).symm
    by_cases hQ : Q = 0
    · subst hQ; rw [add_zero]
      exact (add_zero (twistFun φ ht hb P)).symm
    obtain ⟨x, y, h⟩ := Pt.exists_of_ne hP
    obtain ⟨x', y', h'⟩ := Pt.exists_of_ne hQ
    have H := h.image φ ht hb
    have H' := h'.image φ ht hb
    by_cases hs : P + Q = 0
    · have hQ' : Q = -P := (neg_eq_of_add_eq_zero_right hs).symm
      rw [hs]
      have e := h.neg.image φ ht hb
      rw [← hQ', map_neg, mul_neg] at e
      rw [e.ext H.neg, add_neg_cancel]
      rfl
    by_cases hPQ : P = Q
    · subst hPQ
      have hy := h.two_y_ne hs
      have hl : 3 * x ^ 2 / (2 * y) * (2 * y) = 3 * x ^ 2 := div_mul_cancel₀ _ hy
      have h1 := (h.double hy hl).image φ ht hb
      generalize 3 * x ^ 2 / (2 * y) = l at hl h1
      have hφ : φ (2 * y) ≠ 0 := fun e => hy ((map_eq_zero φ).1 e)
      have hl' := congrArg φ hl
      simp only [map_mul, map_pow, map_ofNat, map_sub] at hφ hl' h1
      have h2 := H.double (l := t * φ l) (by
        intro e
        apply hφ
        have : t ^ 3 * (2 * φ y) = 0 := by linear_combination e
        exact (mul_eq_zero.1 this).resolve_left (pow_ne_zero 3 ht)) (by
        linear_combination t ^ 4 * hl')
      refine h1.ext ?_
      convert h2 using 1 <;> ring
    · have hx := h.x_ne h' hPQ hs
      have hl : (y - y') / (x - x') * (x - x') = y - y' := div_mul_cancel₀ _ (sub_ne_zero.2 hx)
      have h1 := (h.add h' hx hl).image φ ht hb
      generalize (y - y') / (x - x') = l at hl h1
      have hl' := congrArg φ hl
      simp only [map_mul, map_pow, map_sub] at hl' h1
      have h2 := H.add H' (l := t * φ l) (by
        intro e
        exact hx (φ.injective (mul_left_cancel₀ (pow_ne_zero 2 ht) e))) (by
        linear_combination t ^ 3 * hl')
      refine h1.ext ?_
      convert h2 using 1 <;> ring

theorem Pt.twist {P : (sw b).Point} {x y : F} (h : Pt P x y) :
    Pt (twistHom φ ht hb P) (t ^ 2 * φ x) (t ^ 3 * φ y) := h.image φ ht hb

theorem twistHom_injective : Function.Injective (twistHom φ ht hb) := by
  rw [injective_iff_map_eq_zero]
  intro P hP
  by_contra h
  obtain ⟨x, y, h⟩ := Pt.exists_of_ne h
  exact (h.twist φ ht hb).ne_zero hP

end twist
end Spark
