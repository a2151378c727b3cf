import Verif.Lemmas.Line
import Verif.Lemmas.Tower
import Verif.Model.Pairing

/-! The steps of the Miller loop on points in general position. -/

namespace Spark
open WeierstrassCurve Spec Circ

section slope
variable {F : Type} [Field F] {b : F}

/-- `l` is the slope of the line through `T = (x₁, y₁)` and `S` (chord or tangent). -/
def Slope (T S : (sw b).Point) (l x₁ y₁ : F) : Prop :=
  Pt T x₁ y₁ ∧ ((T = S ∧ 2 * y₁ ≠ 0 ∧ l * (2 * y₁) = 3 * x₁ ^ 2) ∨
    ∃ x₂ y₂, Pt S x₂ y₂ ∧ x₁ ≠ x₂ ∧ l * (x₁ - x₂) = y₁ - y₂)

variable [DecidableEq F]

theorem Slope.lineVal {T S : (sw b).Point} {l x₁ y₁ : F} (h : Slope T S l x₁ y₁) (x y : F) :
    lineVal T S x y = y - y₁ - l * (x - x₁) := by
  obtain ⟨p, ⟨rfl, hy, hl⟩ | ⟨x₂, y₂, q, hx, hl⟩⟩ := h
  · exact lineVal_tangent p hy hl x y
  · exact lineVal_chord p q hx hl x y

theorem Slope.lineVal_symm {T S : (sw b).Point} {l x₁ y₁ : F} (h : Slope T S l x₁ y₁) (x y : F) :
    Spec.lineVal S T x y = y - y₁ - l * (x - x₁) := by
  obtain ⟨p, ⟨rfl, hy, hl⟩ | ⟨x₂, y₂, q, hx, hl⟩⟩ := h
  · exact lineVal_tangent p hy hl x y
  · rw [lineVal_chord q p hx.symm (l := l) (by linear_combination -hl) x y]
    linear_combination -hl

theorem Slope.twist {G : Type} [Field G] [DecidableEq G] (φ : F →+* G) {t : G} (ht : t ≠ 0)
    {b' : G} (hb : t ^ 6 * φ b = b') {T S : (sw b).Point} {l x₁ y₁ : F} (h : Slope T S l x₁ y₁) :
    Slope (twistHom φ ht hb T) (twistHom φ ht hb S) (t * φ l) (t ^ 2 * φ x₁) (t ^ 3 * φ y₁) := by
  obtain ⟨p, hc⟩ := h
  refine ⟨p.twist φ ht hb, ?_⟩
  rcases hc with ⟨rfl, hy, hl⟩ | ⟨x₂, y₂, q, hx, hl⟩
  · refine Or.inl ⟨rfl, ?_, ?_⟩
    · intro e
      apply hy
      have e' : t ^ 3 * φ (2 * y₁) = 0 := by
        rw [map_mul, map_ofNat]; linear_combination e
      exact (map_eq_zero φ).1 ((mul_eq_zero.1 e').resolve_left (pow_ne_zero 3 ht))
    · have := congrArg φ hl
      simp only [map_mul, map_ofNat, map_pow] at this
      linear_combination t ^ 4 * this
  · refine Or.inr ⟨_, _, q.twist φ ht hb, ?_, ?_⟩
    · intro e
      exact hx (φ.injective (mul_left_cancel₀ (pow_ne_zero 2 ht) e))
    · have := congrArg φ hl
      simp only [map_mul, map_sub] at this
      linear_combination t ^ 3 * this

end slope

namespace Pairing
variable {K : Type} [Field K] [TowerField K] [DecidableEq K]

/-- The line with slope `l` through `p`, as computed by the code. -/
def lineOf (l : E2 K) (p : G2Affine K) : LineEval K := ⟨-l, l * p.X - p.Y⟩

variable {b : E2 K} {T S : (sw b).Point} {p q : G2Affine K}

theorem tangent_slope (hT : Pt T p.X p.Y) (h2 : T + T ≠ 0) :
    Slope T T (3 * (p.X * p.X) / (2 * p.Y)) p.X p.Y :=
  ⟨hT, Or.inl ⟨rfl, hT.two_y_ne h2, by rw [div_mul_cancel₀ _ (hT.two_y_ne h2)]; ring⟩⟩

theorem int_three : ((3 : ℤ) : E2 K) = 3 := by norm_num

theorem tangentCompute_eq (hT : Pt T p.X p.Y) (h2 : T + T ≠ 0) :
    tangentCompute p = pure (lineOf (3 * (p.X * p.X) / (2 * p.Y)) p) := by
  simp only [tangentCompute, tower, int_three]
  rw [Ext2.divUnchecked_eq (hT.two_y_ne h2), pure_bind]
  rfl

theorem doubleStep_eq (hT : Pt T p.X p.Y) (h2 : T + T ≠ 0) :
    ∃ p', Pt (T + T) p'.X p'.Y ∧
      doubleStep p = pure (p', lineOf (3 * (p.X * p.X) / (2 * p.Y)) p) := by
  simp only [doubleStep, tower, int_three]
  rw [Ext2.divUnchecked_eq (hT.two_y_ne h2), pure_bind]
  refine ⟨_, ?_, rfl⟩
  have := hT.double (hT.two_y_ne h2) (l := 3 * (p.X * p.X) / (2 * p.Y))
    (by rw [div_mul_cancel₀ _ (hT.two_y_ne h2)]; ring)
  rwa [pow_two] at this

theorem addStep_eq (hT : Pt T p.X p.Y) (hS : Pt S q.X q.Y) (h1 : T ≠ S) (h2 : T + S ≠ 0) :
    ∃ p' l, Pt (T + S) p'.X p'.Y ∧ Slope T S l p.X p.Y ∧ addStep p q = pure (p', lineOf l p) := by
  have hx := hT.x_ne hS h1 h2
  simp only [addStep, tower]
  rw [Ext2.divUnchecked_eq (sub_ne_zero.2 hx.symm), pure_bind]
  have hl : (q.Y - p.Y) / (q.X - p.X) * (p.X - q.X) = p.Y - q.Y := by
    have := div_mul_cancel₀ (q.Y - p.Y) (sub_ne_zero.2 hx.symm)
    linear_combination -this
  refine ⟨_, _, ?_, ⟨hT, Or.inr ⟨_, _, hS, hx, hl⟩⟩, rfl⟩
  have := hT.add hS hx hl
  rwa [pow_two, sub_sub] at this

theorem doubleAndAddStep_eq (hT : Pt T p.X p.Y) (hS : Pt S q.X q.Y) (h1 : T ≠ S) (h2 : T + S ≠ 0)
    (hS0 : S ≠ 0) (h3 : T + S + T ≠ 0) :
    ∃ p' l m, Pt (T + S + T) p'.X p'.Y ∧ Slope T S l p.X p.Y ∧ Slope T (T + S) m p.X p.Y ∧
      doubleAndAddStep p q = pure (p', lineOf l p, lineOf m p) := by
  have hx := hT.x_ne hS h1 h2
  simp only [doubleAndAddStep, tower]
  rw [Ext2.divUnchecked_eq (sub_ne_zero.2 hx), pure_bind]
  have hl : (p.Y - q.Y) / (p.X - q.X) * (p.X - q.X) = p.Y - q.Y := div_mul_cancel₀ _ (sub_ne_zero.2 hx)
  generalize (p.Y - q.Y) / (p.X - q.X) = l at hl
  have p4 := hT.add hS hx hl
  have n4 := p4.x_ne hT (fun h => hS0 (by simpa using h)) h3
  rw [pow_two] at p4 n4
  rw [Ext2.divUnchecked_eq (sub_ne_zero.2 n4), pure_bind]
  have hd := div_mul_cancel₀ (2 * p.Y) (sub_ne_zero.2 n4)
  generalize 2 * p.Y / (l * l - p.X - q.X - p.X) = d at hd
  have hm : -(d + l) * (l * l - p.X - q.X - p.X) =
      (l * (p.X - (l * l - p.X - q.X)) - p.Y) - p.Y := by linear_combination -hd
  refine ⟨_, l, -(d + l), ?_, ⟨hT, Or.inr ⟨_, _, hS, hx, hl⟩⟩,
    ⟨hT, Or.inr ⟨_, _, p4, n4.symm, by linear_combination -hm⟩⟩, rfl⟩
  have := hT.add p4 n4.symm (l := -(d + l)) (by linear_combination -hm)
  rw [show T + S + T = T + (T + S) by abel, ← pow_two (-(d + l))]
  exact this

theorem tripleStep_eq (hT : Pt T p.X p.Y) (h2 : T + T ≠ 0) (h3 : T + T + T ≠ 0) :
    ∃ p' l m, Pt (T + T + T) p'.X p'.Y ∧ Slope T T l p.X p.Y ∧ Slope T (T + T) m p.X p.Y ∧
      tripleStep p = pure (p', lineOf l p, lineOf m p) := by
  have hT0 : T ≠ 0 := hT.ne_zero
  simp only [tripleStep, tower, int_three]
  rw [Ext2.divUnchecked_eq (hT.two_y_ne h2), pure_bind]
  have hs := tangent_slope hT h2
  have hl : 3 * (p.X * p.X) / (2 * p.Y) * (2 * p.Y) = 3 * p.X ^ 2 := by
    rw [div_mul_cancel₀ _ (hT.two_y_ne h2)]; ring
  generalize 3 * (p.X * p.X) / (2 * p.Y) = l at hl hs
  have p4 := hT.double (hT.two_y_ne h2) hl
  have n4 := hT.x_ne p4 (fun h => hT0 (by simpa using h.symm)) (by rwa [add_comm])
  rw [pow_two] at p4 n4
  rw [Ext2.divUnchecked_eq (sub_ne_zero.2 n4), pure_bind]
  have hd := div_mul_cancel₀ (2 * p.Y) (sub_ne_zero.2 n4)
  generalize 2 * p.Y / (p.X - (l * l - p.X - p.X)) = d at hd
  have hm : (d - l) * (p.X - (l * l - p.X - p.X)) =
      p.Y - (l * (p.X - (l * l - p.X - p.X)) - p.Y) := by linear_combination hd
  refine ⟨_, l, d - l, ?_, hs, ⟨hT, Or.inr ⟨_, _, p4, n4, hm⟩⟩, rfl⟩
  have := hT.add p4 n4 hm
  rw [add_comm (T + T) T]
  convert this using 1 <;> ring

end Pairing
end Spark
