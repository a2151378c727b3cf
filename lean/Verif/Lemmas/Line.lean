import Verif.Spec.Pairing

/-! Lines on `y² = x³ + b`: values of the specification's `lineVal`, and the identity behind the
merged double-and-add step. -/

namespace Spark
open WeierstrassCurve Spec

variable {F : Type} [Field F] [DecidableEq F] {b : F}

theorem vertVal_pt {T : (sw b).Point} {x₁ y₁ : F} (h : Pt T x₁ y₁) (x : F) :
    vertVal T x = x - x₁ := by
  obtain ⟨h, rfl⟩ := h; rfl

theorem lineVal_chord {T S : (sw b).Point} {x₁ y₁ x₂ y₂ l : F} (h : Pt T x₁ y₁) (h' : Pt S x₂ y₂)
    (hx : x₁ ≠ x₂) (hl : l * (x₁ - x₂) = y₁ - y₂) (x y : F) :
    lineVal T S x y = y - y₁ - l * (x - x₁) := by
  obtain ⟨h, rfl⟩ := h
  obtain ⟨h', rfl⟩ := h'
  have hs : (sw b).slope x₁ x₂ y₁ y₂ = l := by
    rw [Affine.slope_of_X_ne hx, ← hl, mul_div_cancel_right₀ _ (sub_ne_zero.2 hx)]
  simp only [lineVal]
  rw [if_neg (fun e => hx e.1), hs]

theorem lineVal_tangent {T : (sw b).Point} {x₁ y₁ l : F} (h : Pt T x₁ y₁)
    (hy : 2 * y₁ ≠ 0) (hl : l * (2 * y₁) = 3 * x₁ ^ 2) (x y : F) :
    lineVal T T x y = y - y₁ - l * (x - x₁) := by
  obtain ⟨h, rfl⟩ := h
  have hy' : y₁ ≠ (sw b).negY x₁ y₁ := by
    rw [sw_negY]; intro e; exact hy (by linear_combination e)
  have hs : (sw b).slope x₁ x₁ y₁ y₁ = l := by
    rw [Affine.slope_of_Y_ne rfl hy', sw_negY, div_eq_iff (by rwa [sub_neg_eq_add, ← two_mul])]
    simp only [sw]
    linear_combination -hl
  simp only [lineVal]
  rw [if_neg (fun e => hy (by linear_combination e.2)), hs]

/-- `ℓ_{T,T}·ℓ_{2T,Q}·v_{T+Q} = ℓ_{T,Q}·ℓ_{T+Q,T}·v_{2T}` in coordinates. -/
theorem daa_aux {x₁ y₁ x₂ y₂ x y l m n r x₃ y₃ x₄ y₄ : F}
    (e₁ : y₁ ^ 2 = x₁ ^ 3 + b) (e₂ : y₂ ^ 2 = x₂ ^ 3 + b) (e : y ^ 2 = x ^ 3 + b)
    (hl : l * (2 * y₁) = 3 * x₁ ^ 2) (h3 : x₃ = l ^ 2 - x₁ - x₁) (h3' : y₃ = l * (x₁ - x₃) - y₁)
    (hm : m * (x₃ - x₂) = y₃ - y₂)
    (hn : n * (x₁ - x₂) = y₁ - y₂) (h4 : x₄ = n ^ 2 - x₁ - x₂) (h4' : y₄ = n * (x₁ - x₄) - y₁)
    (hr : r * (x₄ - x₁) = y₄ - y₁)
    (n12 : x₁ ≠ x₂) (n32 : x₃ ≠ x₂) (n14 : x₄ ≠ x₁) :
    (y - y₁ - l * (x - x₁)) * (y - y₃ - m * (x - x₃)) * (x - x₄) =
      (y - y₁ - n * (x - x₁)) * (y - y₄ - r * (x - x₄)) * (x - x₃) := by
  have hs : (l + m) * (n - l) = x₂ - x₁ := by
    refine mul_right_cancel₀ (sub_ne_zero.2 n32) (mul_right_cancel₀ (sub_ne_zero.2 n12) ?_)
    have a1 : (l + m) * (x₃ - x₂) = l * (x₁ - x₂) - y₁ - y₂ := by linear_combination hm + h3'
    have a2 : (n - l) * (x₁ - x₂) = y₁ - y₂ - l * (x₁ - x₂) := by linear_combination hn
    have a3 : (l * (x₁ - x₂) - y₁ - y₂) * (y₁ - y₂ - l * (x₁ - x₂)) =
        -(x₂ - x₁) ^ 2 * (x₃ - x₂) := by
      subst h3
      linear_combination e₂ - e₁ + (x₁ - x₂) * hl
    calc (l + m) * (n - l) * (x₃ - x₂) * (x₁ - x₂)
        = ((l + m) * (x₃ - x₂)) * ((n - l) * (x₁ - x₂)) := by ring
      _ = _ := by rw [a1, a2, a3]; ring
  have hs' : (n + r) * (l - n) = x₁ - x₂ := by
    refine mul_right_cancel₀ (sub_ne_zero.2 n14) ?_
    have a1 : (n + r) * (x₄ - x₁) = -(2 * y₁) := by linear_combination hr + h4'
    have a2 : 2 * y₁ * (l - n) = (x₁ - x₂) * (x₁ - x₄) := by
      refine mul_right_cancel₀ (sub_ne_zero.2 n12) ?_
      subst h4
      linear_combination (x₁ - x₂) * hl - e₁ + e₂ - (y₁ + y₂) * hn + n * (x₁ - x₂) * hn + y₂ * hn - y₁ * hn + (y₁ - y₂) * hn
    calc (n + r) * (l - n) * (x₄ - x₁) = ((n + r) * (x₄ - x₁)) * (l - n) := by ring
      _ = -(2 * y₁ * (l - n)) := by rw [a1]; ring
      _ = _ := by rw [a2]; ring
  have hss : l + m = n + r := by
    have hne : n - l ≠ 0 := fun h => by
      rw [h, mul_zero] at hs
      exact n12 (sub_eq_zero.1 hs.symm).symm
    refine mul_right_cancel₀ hne ?_
    linear_combination hs + hs'
  obtain rfl : m = n + r - l := by linear_combination hss
  -- `ℓ₁ℓ₂ = (x - x₃)·C`, `ℓ₃ℓ₄ = (x - x₄)·C`
  have c1 : (y - y₁ - l * (x - x₁)) * (y - y₃ - (n + r - l) * (x - x₃)) =
      (x - x₃) * ((x - x₁) ^ 2 + (n + r) * (y₁ + l * (x - x₁)) - y * (n + r)) := by
    subst h3' h3
    linear_combination e - e₁ - (x - x₁) * hl
  have c2 : (y - y₁ - n * (x - x₁)) * (y - y₄ - r * (x - x₄)) =
      (x - x₄) * ((x - x₁) * (x - x₂) + (n + r) * (y₁ + n * (x - x₁)) - y * (n + r)) := by
    have a3 : (y₁ + n * (x - x₁)) ^ 2 = x ^ 3 + b - (x - x₁) * (x - x₂) * (x - x₄) := by
      refine mul_right_cancel₀ (sub_ne_zero.2 n12) ?_
      subst h4
      linear_combination (x - x₂) * e₁ - (x - x₁) * e₂ + ((x - x₁) * (y₁ + y₂) ) * hn - n * (x - x₁) * (x₁ - x₂) * hn
    subst h4'
    linear_combination e - a3
  rw [c1, c2]
  linear_combination (x - x₃) * (x - x₄) * (x - x₁) * (hs')

theorem daa {T Q : (sw b).Point} {x y : F} (e : y ^ 2 = x ^ 3 + b)
    (hT : T ≠ 0) (hQ : Q ≠ 0) (hTQ : T ≠ Q) (h2 : T + Q ≠ 0) (h3 : T + T ≠ 0)
    (h4 : T + T ≠ Q) (h5 : T + T + Q ≠ 0) :
    lineVal T T x y * lineVal (T + T) Q x y * vertVal (T + Q) x =
      lineVal T Q x y * lineVal (T + Q) T x y * vertVal (T + T) x := by
  obtain ⟨x₁, y₁, p₁⟩ := Pt.exists_of_ne hT
  obtain ⟨x₂, y₂, p₂⟩ := Pt.exists_of_ne hQ
  have n12 := p₁.x_ne p₂ hTQ h2
  have hy := p₁.two_y_ne h3
  have hl : 3 * x₁ ^ 2 / (2 * y₁) * (2 * y₁) = 3 * x₁ ^ 2 := div_mul_cancel₀ _ hy
  have hn : (y₁ - y₂) / (x₁ - x₂) * (x₁ - x₂) = y₁ - y₂ := div_mul_cancel₀ _ (sub_ne_zero.2 n12)
  generalize 3 * x₁ ^ 2 / (2 * y₁) = l at hl
  generalize (y₁ - y₂) / (x₁ - x₂) = n at hn
  have p3 := p₁.double hy hl
  have p4 := p₁.add p₂ n12 hn
  have n32 := p3.x_ne p₂ h4 h5
  have n41 := p4.x_ne p₁ (fun h => hQ (by simpa using h)) (fun h => h5 (by rw [← h]; abel))
  obtain ⟨x₃, h3e⟩ : ∃ x₃, x₃ = l ^ 2 - x₁ - x₁ := ⟨_, rfl⟩
  rw [← h3e] at p3 n32
  obtain ⟨y₃, h3e'⟩ : ∃ y₃, y₃ = l * (x₁ - x₃) - y₁ := ⟨_, rfl⟩
  rw [← h3e'] at p3
  obtain ⟨x₄, h4e⟩ : ∃ x₃, x₃ = n ^ 2 - x₁ - x₂ := ⟨_, rfl⟩
  rw [← h4e] at p4 n41
  obtain ⟨y₄, h4e'⟩ : ∃ y₃, y₃ = n * (x₁ - x₄) - y₁ := ⟨_, rfl⟩
  rw [← h4e'] at p4
  have hm : (y₃ - y₂) / (x₃ - x₂) * (x₃ - x₂) = y₃ - y₂ := div_mul_cancel₀ _ (sub_ne_zero.2 n32)
  have hr : (y₄ - y₁) / (x₄ - x₁) * (x₄ - x₁) = y₄ - y₁ := div_mul_cancel₀ _ (sub_ne_zero.2 n41)
  rw [lineVal_tangent p₁ hy hl, lineVal_chord p3 p₂ n32 hm, lineVal_chord p₁ p₂ n12 hn,
    lineVal_chord p4 p₁ n41 hr, vertVal_pt p3, vertVal_pt p4]
  exact daa_aux p₁.eqn p₂.eqn e hl h3e h3e' hm hn h4e h4e' hr n12 n32 n41

end Spark
