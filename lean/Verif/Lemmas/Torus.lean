import Verif.Lemmas.NonResidue

/-! Torus-compressed arithmetic: `D y = (y+w)/(y-w)` identifies `E6` with the norm-1 elements
other than `1`. -/

namespace Spark
open Circ
set_option maxRecDepth 100000

namespace Torus
variable {K : Type} [Field K] [TowerField K] [DecidableEq K]

/-- the element of `E12` represented by the compressed value `y` -/
def D (y : E6 K) : E12 K := (E12.of y + E12.w) / (E12.of y - E12.w)

/-- compression -/
def C (a : E12 K) : E6 K := (a.C0 + 1) / a.C1

/-- norm 1 and different from 1: the elements that can be compressed -/
def Tor (a : E12 K) : Prop := a * E12.conj a = 1 ∧ a ≠ 1

omit [TowerField K] [DecidableEq K] in
theorem sub_w_ne (y : E6 K) : E12.of y - E12.w ≠ 0 := fun h => by
  simpa using congrArg (fun z => z.C1.B0.A0) h

omit [TowerField K] [DecidableEq K] in
theorem add_w_ne (y : E6 K) : E12.of y + E12.w ≠ 0 := fun h => by
  simpa using congrArg (fun z => z.C1.B0.A0) h

omit [DecidableEq K] in
theorem D_spec (y : E6 K) : D y * (E12.of y - E12.w) = E12.of y + E12.w :=
  div_mul_cancel₀ _ (sub_w_ne y)

theorem two_ne : (2 : K) ≠ 0 := by
  intro h
  refine TowerField.neg_one_not_sq (1 : K) ?_
  linear_combination h

theorem two_ne6 : (2 : E6 K) ≠ 0 := fun h => by
  have := congrArg (fun z => z.B0.A0) h
  have h2 : (2 : E6 K).B0.A0 = 2 := by
    rw [← one_add_one_eq_two, E6.B0_add, E6.B0_one, E2.A0_add, E2.A0_one, one_add_one_eq_two]
  simp only [h2] at this
  exact two_ne this

theorem eq_D_iff (a : E12 K) (y : E6 K) : a = D y ↔ a * (E12.of y - E12.w) = E12.of y + E12.w := by
  rw [D, eq_div_iff (sub_w_ne y)]

theorem D_ne_one (y : E6 K) : D y ≠ 1 := by
  intro h
  have h1 := (eq_D_iff 1 y).1 h.symm
  have h2 : (2 : E6 K) = 0 := by
    have := congrArg E12.C1 h1
    simp at this
    linear_combination -this
  exact two_ne6 h2

omit [DecidableEq K] in
theorem conj_D (y : E6 K) : E12.conj (D y) * (E12.of y + E12.w) = E12.of y - E12.w := by
  have h := congrArg E12.conj (D_spec y)
  rw [E12.conj_mul] at h
  have e1 : E12.conj (E12.of y - E12.w) = E12.of y + E12.w := by ext1 <;> simp
  have e2 : E12.conj (E12.of y + E12.w) = E12.of y - E12.w := by ext1 <;> simp
  rwa [e1, e2] at h

theorem tor_D (y : E6 K) : Tor (D y) := by
  refine ⟨?_, D_ne_one y⟩
  have h1 := D_spec y
  have h2 := conj_D y
  have h3 : (E12.of y + E12.w) * (E12.of y - E12.w) ≠ 0 := mul_ne_zero (add_w_ne y) (sub_w_ne y)
  apply mul_right_cancel₀ h3
  linear_combination (E12.conj (D y)) * (E12.of y + E12.w) * h1 + (E12.of y + E12.w) * h2

theorem D_inj {y z : E6 K} (h : D y = D z) : y = z := by
  have h1 := D_spec y
  rw [h] at h1
  have h2 := D_spec z
  have h3 : (E12.of y + E12.w) * (E12.of z - E12.w) = (E12.of z + E12.w) * (E12.of y - E12.w) := by
    linear_combination (E12.of y - E12.w) * h2 - (E12.of z - E12.w) * h1
  have h4 := congrArg E12.C1 h3
  simp at h4
  have h5 : (2 : E6 K) * (z - y) = 0 := by linear_combination h4
  rcases mul_eq_zero.1 h5 with h6 | h6
  · exact absurd h6 two_ne6
  · exact (sub_eq_zero.1 h6).symm

theorem norm_eq {a : E12 K} (h : a * E12.conj a = 1) :
    a.C0 * a.C0 - E6.v * (a.C1 * a.C1) = 1 := by
  have := congrArg E12.C0 h
  simp at this
  linear_combination this

theorem D_C {a : E12 K} (h : Tor a) : D (C a) = a := by
  have hn := norm_eq h.1
  symm
  rw [eq_D_iff]
  by_cases h1 : a.C1 = 0
  · have h0 : a.C0 = -1 := by
      have h3 : (a.C0 - 1) * (a.C0 + 1) = 0 := by rw [h1] at hn; linear_combination hn
      rcases mul_eq_zero.1 h3 with h4 | h4
      · exact absurd (by ext1 <;> simp [h1]; linear_combination h4) h.2
      · linear_combination h4
    ext1 <;> simp [C, h0, h1]
  · have hc : C a * a.C1 = a.C0 + 1 := div_mul_cancel₀ _ h1
    ext1
    · simp
      apply mul_right_cancel₀ h1
      linear_combination (a.C0 - 1) * hc + hn
    · simp
      linear_combination hc

theorem C_D (y : E6 K) : C (D y) = y := D_inj (D_C (tor_D y))

theorem mul_D {y1 y2 y3 : E6 K} (h : y3 * (y1 + y2) = y1 * y2 + E6.v) (hs : y1 + y2 ≠ 0) :
    D y3 = D y1 * D y2 := by
  symm
  rw [eq_D_iff]
  have h1 := D_spec y1
  have h2 := D_spec y2
  have hs' : E12.of (y1 + y2) ≠ 0 := fun h0 => hs (E12.of_injective h0)
  have hne : E12.of (y1 + y2) * ((E12.of y1 - E12.w) * (E12.of y2 - E12.w)) ≠ 0 :=
    mul_ne_zero hs' (mul_ne_zero (sub_w_ne _) (sub_w_ne _))
  apply mul_right_cancel₀ hne
  have hw : (E12.w : E12 K) ^ 2 = E12.of E6.v := E12.w_sq
  have h' : E12.of y3 * (E12.of y1 + E12.of y2) = E12.of y1 * E12.of y2 + E12.of E6.v := by
    have := congrArg E12.of h
    simpa only [E12.of_mul, E12.of_add] using this
  rw [E12.of_add]
  have h12 : D y1 * D y2 * ((E12.of y1 - E12.w) * (E12.of y2 - E12.w)) =
      (E12.of y1 + E12.w) * (E12.of y2 + E12.w) := by
    linear_combination (D y2) * (E12.of y2 - E12.w) * h1 + (E12.of y1 + E12.w) * h2
  have e1 : (E12.of y3 - E12.w) * (E12.of y1 + E12.of y2) =
      (E12.of y1 - E12.w) * (E12.of y2 - E12.w) := by
    linear_combination h' - hw
  have e2 : (E12.of y3 + E12.w) * (E12.of y1 + E12.of y2) =
      (E12.of y1 + E12.w) * (E12.of y2 + E12.w) := by
    linear_combination h' - hw
  calc D y1 * D y2 * (E12.of y3 - E12.w) * ((E12.of y1 + E12.of y2) * ((E12.of y1 - E12.w) * (E12.of y2 - E12.w)))
      = (D y1 * D y2 * ((E12.of y1 - E12.w) * (E12.of y2 - E12.w))) * ((E12.of y3 - E12.w) * (E12.of y1 + E12.of y2)) := by ring
    _ = ((E12.of y1 + E12.w) * (E12.of y2 + E12.w)) * ((E12.of y1 - E12.w) * (E12.of y2 - E12.w)) := by rw [h12, e1]
    _ = ((E12.of y3 + E12.w) * (E12.of y1 + E12.of y2)) * ((E12.of y1 - E12.w) * (E12.of y2 - E12.w)) := by rw [e2]
    _ = _ := by ring

theorem D_neg (y : E6 K) : D (-y) = (D y)⁻¹ := by
  rw [D, D, inv_div, E12.of_neg]
  rw [div_eq_div_iff (by have := add_w_ne y; intro h; apply this; linear_combination -h) (add_w_ne y)]
  ring

theorem mul_D_eq_one {y1 y2 : E6 K} : D y1 * D y2 = 1 ↔ y1 + y2 = 0 := by
  have h0 : D y2 ≠ 0 := fun h => by
    have := (tor_D y2).1; rw [h, zero_mul] at this; exact zero_ne_one this
  rw [mul_eq_one_iff_eq_inv₀ h0, ← D_neg]
  exact ⟨fun h => by rw [D_inj h]; ring, fun h => by rw [eq_neg_of_add_eq_zero_left h]⟩

/-- the compressed value of `a`; no value when `a = 1` -/
def tor (a : E12 K) : Circ (E6 K) := if a = 1 then fail else pure (C a)

theorem sat_tor (a : E12 K) (y : E6 K) : (tor a).sat y ↔ a ≠ 1 ∧ y = C a := by
  unfold tor; split <;> simp_all

theorem tor_of_ne {a : E12 K} (h : a ≠ 1) : tor a = pure (C a) := if_neg h
theorem tor_one : tor (1 : E12 K) = fail := if_pos rfl

theorem Tor.ne_zero {a : E12 K} (h : Tor a) : a ≠ 0 := fun h0 => by
  have := h.1; rw [h0, zero_mul] at this; exact zero_ne_one this

/-! ### the gadgets -/

theorem compressTorus_eq {a : E12 K} (h : Tor a) (h1 : a ≠ -1) : Ext12.compressTorus a = pure (C a) := by
  have : a.C1 ≠ 0 := by
    intro hc
    have hn := norm_eq h.1
    rw [hc] at hn
    have h3 : (a.C0 - 1) * (a.C0 + 1) = 0 := by linear_combination hn
    rcases mul_eq_zero.1 h3 with h4 | h4
    · exact h.2 (by ext1 <;> simp [hc]; linear_combination h4)
    · exact h1 (by ext1 <;> simp [hc]; linear_combination h4)
  rw [Ext12.compressTorus]
  simp only [tower]
  rw [Ext6.divUnchecked_eq this]
  rfl

theorem decompressTorus_eq (y : E6 K) : Ext12.decompressTorus y = pure (D y) := by
  have e1 : (⟨y, 1⟩ : E12 K) = E12.of y + E12.w := by ext1 <;> simp
  have e2 : (⟨y, -1⟩ : E12 K) = E12.of y - E12.w := by ext1 <;> simp
  rw [Ext12.decompressTorus]
  simp only [tower, e1, e2]
  rw [Ext12.divUnchecked_eq (sub_w_ne y)]
  rfl

theorem mulTorus_num (y1 y2 : E6 K) :
    (⟨(y1 * y2).B0, (y1 * y2).B1 + 1, (y1 * y2).B2⟩ : E6 K) = y1 * y2 + E6.v := by
  ext1 <;> simp

theorem mulTorus_eq (y1 y2 : E6 K) : Ext12.mulTorus y1 y2 = tor (D y1 * D y2) := by
  rw [Ext12.mulTorus]
  simp only [tower]
  rw [mulTorus_num]
  by_cases hs : y1 + y2 = 0
  · rw [mul_D_eq_one.2 hs, tor_one, hs, Ext6.divUnchecked_fail]
    have : y2 = -y1 := eq_neg_of_add_eq_zero_right hs
    rw [this]
    intro h
    exact E6.v_not_sq y1 (by linear_combination -h)
  · rw [tor_of_ne (mul_D_eq_one.not.2 hs), Ext6.divUnchecked_eq hs]
    congr 1
    apply D_inj
    rw [mul_D (y1 := y1) (y2 := y2) (div_mul_cancel₀ _ hs) hs, D_C]
    refine ⟨?_, mul_D_eq_one.not.2 hs⟩
    rw [E12.conj_mul]
    have h1 := (tor_D y1).1
    have h2 := (tor_D y2).1
    linear_combination (D y2) * (E12.conj (D y2)) * h1 + h2

theorem sat_squareTorus (y z : E6 K) :
    (Ext12.squareTorus y).sat z ↔ (tor (D y * D y)).sat z := by
  rw [sat_tor, Ne, mul_D_eq_one]
  have hv : (⟨0, 1, 0⟩ : E6 K) = E6.v := rfl
  simp only [Ext12.squareTorus, tower, sat_bind, sat_hint, sat_assert, sat_pure, true_and, hv]
  constructor
  · rintro ⟨z', _, h, rfl⟩
    have hy : y + y ≠ 0 := by
      intro h0
      have : (2 : E6 K) * y = 0 := by linear_combination h0
      rcases mul_eq_zero.1 this with h2 | h2
      · exact two_ne6 h2
      · rw [h2, mul_zero] at h
        have := congrArg (fun z => z.B1.A0) h
        simp at this
    refine ⟨hy, D_inj ?_⟩
    rw [mul_D (y1 := y) (y2 := y) (by linear_combination h) hy, D_C]
    refine ⟨?_, mul_D_eq_one.not.2 hy⟩
    rw [E12.conj_mul]
    have h1 := (tor_D y).1
    linear_combination (D y * E12.conj (D y) + 1) * h1
  · rintro ⟨hy, rfl⟩
    refine ⟨_, (), ?_, rfl⟩
    have hq : ((y * y + E6.v) / (y + y)) * (y + y) = y * y + E6.v := div_mul_cancel₀ _ hy
    have : C (D y * D y) = (y * y + E6.v) / (y + y) := by
      rw [← mul_D hq hy, C_D]
    rw [this]
    linear_combination hq

theorem Tor.mul {a b : E12 K} (ha : Tor a) (hb : Tor b) (h : a * b ≠ 1) : Tor (a * b) := by
  refine ⟨?_, h⟩
  rw [E12.conj_mul]
  have h1 := ha.1
  have h2 := hb.1
  linear_combination b * E12.conj b * h1 + h2

theorem Tor.inv {a : E12 K} (ha : Tor a) : Tor a⁻¹ := by
  have : a⁻¹ = E12.conj a := (eq_inv_of_mul_eq_one_right ha.1).symm
  refine ⟨?_, fun h => ha.2 (inv_eq_one.1 h)⟩
  rw [this, E12.conj_conj, mul_comm]; exact ha.1

theorem mulTorus_C {a b : E12 K} (ha : Tor a) (hb : Tor b) :
    Ext12.mulTorus (C a) (C b) = tor (a * b) := by rw [mulTorus_eq, D_C ha, D_C hb]

theorem inverseTorus_C {a : E12 K} (ha : Tor a) : Ext12.inverseTorus (C a) = C a⁻¹ := by
  apply D_inj
  rw [Ext12.inverseTorus, Ext6.neg_eq, D_neg, D_C ha, D_C ha.inv]

theorem sat_squareTorus_C {a : E12 K} (ha : Tor a) (z : E6 K) :
    (Ext12.squareTorus (C a)).sat z ↔ (tor (a * a)).sat z := by rw [sat_squareTorus, D_C ha]

/-- when the honest hint is right, squaring is exact -/
theorem squareTorus_of_cyc {a : E12 K} (ha : Tor a) (hc : Ext12.cyclotomicSquare a = a * a) :
    Ext12.squareTorus (C a) = tor (a * a) := by
  have e1 : (⟨C a, 1⟩ : E12 K) = E12.of (C a) + E12.w := by ext1 <;> simp
  have e2 : (⟨C a, -1⟩ : E12 K) = E12.of (C a) - E12.w := by ext1 <;> simp
  have hh : Ext12.squareTorusHint (C a) = C (a * a) := by
    unfold Ext12.squareTorusHint
    simp only [e1, e2]
    have : (E12.of (C a) - E12.w)⁻¹ * (E12.of (C a) + E12.w) = a := by
      rw [← div_eq_inv_mul]; exact D_C ha
    rw [this, hc]; rfl
  by_cases h1 : a * a = 1
  · rw [h1, tor_one]
    refine eq_fail fun z hz => ?_
    rw [sat_squareTorus_C ha, h1, tor_one] at hz
    exact hz
  · rw [tor_of_ne h1]
    have hz : (Ext12.squareTorus (C a)).sat (C (a * a)) := by
      rw [sat_squareTorus_C ha, sat_tor]; exact ⟨h1, rfl⟩
    refine exact_iff_pure.1 ⟨?_, fun b hb => ?_⟩
    · simp only [Ext12.squareTorus, tower, sat_bind, sat_hint, sat_assert, sat_pure, true_and] at hz
      obtain ⟨z', _, h, rfl⟩ := hz
      simp only [Ext12.squareTorus, tower, run_bind, run_hint, Option.bind_some, run_assert, hh, h,
        if_true, run_pure]
    · rw [sat_squareTorus_C ha, sat_tor] at hb
      exact hb.2

end Torus
end Spark
