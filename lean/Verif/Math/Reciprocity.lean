import Verif.Math.Cocycle

/-!
# Miller functions: additivity and reciprocity, up to sign

`mf φ x y n Q` is the square of Miller's function `f_{n,Q}` at `(x, y)`.  Everything is stated for squares, so that the
signs of `Verif.Math.Cocycle` do not matter.
-/

namespace Spark.Cocycle

open WeierstrassCurve Spec

set_option linter.unusedSectionVars false

variable {F : Type} [Field F] [DecidableEq F] {b : F}

theorem lineVal_comm (A B : (sw b).Point) (x y : F) : lineVal A B x y = lineVal B A x y := by
  match A, B with
  | .zero, .zero => rfl
  | .zero, .some .. => rfl
  | .some .., .zero => rfl
  | .some x₁ y₁ h₁, .some x₂ y₂ h₂ =>
    by_cases hv : x₁ = x₂ ∧ y₁ = -y₂
    · have hv' : x₂ = x₁ ∧ y₂ = -y₁ := ⟨hv.1.symm, by rw [hv.2, neg_neg]⟩
      simp only [lineVal]
      rw [if_pos hv, if_pos hv', hv.1]
    · have hv' : ¬(x₂ = x₁ ∧ y₂ = -y₁) := fun e => hv ⟨e.1.symm, by rw [e.2, neg_neg]⟩
      simp only [lineVal, if_neg hv, if_neg hv']
      by_cases hx : x₁ = x₂
      · subst hx
        have e1 := ((sw_nonsingular _ _).1 h₁).1
        have e2 := ((sw_nonsingular _ _).1 h₂).1
        have : (y₁ - y₂) * (y₁ + y₂) = 0 := by linear_combination e1 - e2
        rcases mul_eq_zero.1 this with h | h
        · obtain rfl : y₁ = y₂ := by linear_combination h
          rfl
        · exact absurd ⟨rfl, by linear_combination h⟩ hv
      · rw [Affine.slope_of_X_ne hx, Affine.slope_of_X_ne (Ne.symm hx)]
        have h1 : x₁ - x₂ ≠ 0 := sub_ne_zero.2 hx
        have h2 : x₂ - x₁ ≠ 0 := sub_ne_zero.2 (Ne.symm hx)
        field_simp
        ring

theorem lineVal_zero (A : (sw b).Point) (x y : F) : lineVal A 0 x y = vertVal A x := by
  match A with
  | .zero => rfl
  | .some .. => rfl

section
variable {G : Type} [AddCommGroup G] (φ : G →+ (sw b).Point) (x y : F)

/-- `g(A, B) = (ℓ_{A,B} / v_{A+B})²` at `(x, y)` -/
def g2 (A B : G) : F := (lineVal (φ A) (φ B) x y / vertVal (φ (A + B)) x) ^ 2

/-- `f_{n,Q}²` at `(x, y)` -/
def mf (Q : G) : ℕ → F
  | 0 => 1
  | n + 1 => mf Q n * g2 φ x y (n • Q) Q

/-- no point of the group is vertically aligned with `(x, y)` -/
def Avoids : Prop := ∀ A : G, vertVal (φ A) x ≠ 0

variable {φ x y}

theorem Avoids.line (hv : Avoids φ x) (h : y ^ 2 = x ^ 3 + b) (A B : G) : lineVal (φ A) (φ B) x y ≠ 0 := by
  intro e
  have := line_neg h (φ A) (φ B)
  rw [e, zero_mul, zero_pow two_ne_zero, ← map_add] at this
  exact pow_ne_zero 2 (mul_ne_zero (mul_ne_zero (hv A) (hv B)) (hv (A + B))) this.symm

theorem g2_ne (hv : Avoids φ x) (h : y ^ 2 = x ^ 3 + b) (A B : G) : g2 φ x y A B ≠ 0 :=
  pow_ne_zero 2 (div_ne_zero (hv.line h A B) (hv _))

theorem g2_comm (A B : G) : g2 φ x y A B = g2 φ x y B A := by
  rw [g2, g2, lineVal_comm, add_comm]

theorem g2_zero (hv : Avoids φ x) (A : G) : g2 φ x y 0 A = 1 := by
  rw [g2, lineVal_comm, map_zero, lineVal_zero, zero_add, div_self (hv A), one_pow]

theorem g2_cocycle (hv : Avoids φ x) (h : y ^ 2 = x ^ 3 + b) (A B D : G) :
    g2 φ x y B D * g2 φ x y A (B + D) = g2 φ x y A B * g2 φ x y (A + B) D := by
  have e := line_cocycle h (φ A) (φ B) (φ D)
  simp only [g2, map_add, ← add_assoc]
  rw [← mul_pow, ← mul_pow]
  have h1 := hv (A + B)
  have h2 := hv (B + D)
  have h3 := hv (A + B + D)
  simp only [map_add] at h1 h2 h3
  field_simp
  linear_combination e

theorem g2_quad (hv : Avoids φ x) (h : y ^ 2 = x ^ 3 + b) (A B C D : G) :
    g2 φ x y A B * g2 φ x y C D * g2 φ x y (A + B) (C + D) =
    g2 φ x y A C * g2 φ x y B D * g2 φ x y (A + C) (B + D) := by
  have h1 := g2_cocycle hv h (A + B) C D
  have h2 := g2_cocycle hv h A B C
  have h3 := g2_cocycle hv h (A + C) B D
  have h4 := g2_cocycle hv h A C B
  have e : A + B + C = A + C + B := by abel
  rw [add_comm C B, g2_comm C B] at h4
  rw [e] at h1
  linear_combination g2 φ x y A B * h1 - g2 φ x y (A + C + B) D * h2 - g2 φ x y A C * h3 +
    g2 φ x y (A + C + B) D * h4

theorem mf_ne (hv : Avoids φ x) (h : y ^ 2 = x ^ 3 + b) (Q : G) (n : ℕ) : mf φ x y Q n ≠ 0 := by
  induction n with
  | zero => exact one_ne_zero
  | succ n ih => exact mul_ne_zero ih (g2_ne hv h _ _)

theorem mf_add (hv : Avoids φ x) (h : y ^ 2 = x ^ 3 + b) (Q : G) (m n : ℕ) :
    mf φ x y Q (m + n) = mf φ x y Q m * mf φ x y Q n * g2 φ x y (m • Q) (n • Q) := by
  induction n with
  | zero => rw [zero_smul, g2_comm, g2_zero hv]; simp [mf]
  | succ n ih =>
    rw [← add_assoc, mf, ih, mf]
    have := g2_cocycle hv h (m • Q) (n • Q) Q
    rw [← add_smul, ← succ_nsmul] at this
    linear_combination mf φ x y Q m * mf φ x y Q n * -this

theorem mf_hom (hv : Avoids φ x) (h : y ^ 2 = x ^ 3 + b) (Q R : G) (n : ℕ) :
    mf φ x y (Q + R) n * g2 φ x y Q R ^ n = mf φ x y Q n * mf φ x y R n * g2 φ x y (n • Q) (n • R) := by
  induction n with
  | zero => rw [zero_smul, zero_smul, g2_zero hv]; simp [mf]
  | succ n ih =>
    simp only [mf, pow_succ, succ_nsmul, smul_add]
    have := g2_quad hv h (n • Q) (n • R) Q R
    linear_combination g2 φ x y (n • Q + n • R) (Q + R) * g2 φ x y Q R * ih + mf φ x y Q n * mf φ x y R n * this

theorem miller_sq (hv : Avoids φ x) (h : y ^ 2 = x ^ 3 + b) (Q : G) (n : ℕ) :
    miller (φ Q) x y n ^ 2 = mf φ x y Q n := by
  induction n using Nat.strong_induction_on with
  | _ n ih =>
    rw [miller]
    split
    · rename_i hn
      interval_cases n
      · simp [mf]
      · simp [mf, g2_zero hv]
    · rename_i hn
      split
      · rename_i h2
        obtain ⟨m, rfl⟩ : ∃ m, n = m + m := ⟨n / 2, by omega⟩
        have e : (m + m) / 2 = m := by omega
        rw [e, mf_add hv h, ← ih m (by omega), g2, ← map_nsmul, ← map_nsmul, ← add_smul]
        ring
      · obtain ⟨m, rfl⟩ : ∃ m, n = m + 1 := ⟨n - 1, by omega⟩
        rw [show m + 1 - 1 = m from rfl, mf, ← ih m (by omega), g2, ← map_nsmul, ← map_nsmul, ← succ_nsmul]
        ring

end

/-! ## Reciprocity -/

/-- `c t + d` is the chord with abscissas `x₁, x₂, x₃` -/
def Chord (b c d x₁ x₂ x₃ : F) : Prop :=
  c ^ 2 = x₁ + x₂ + x₃ ∧ -(2 * c * d) = x₁ * x₂ + x₁ * x₃ + x₂ * x₃ ∧ d ^ 2 - b = x₁ * x₂ * x₃

theorem Chord.eval {c d x₁ x₂ x₃ : F} (h : Chord b c d x₁ x₂ x₃) (t : F) :
    t ^ 3 + b - (c * t + d) ^ 2 = (t - x₁) * (t - x₂) * (t - x₃) := by
  linear_combination -t ^ 2 * h.1 + t * h.2.1 - h.2.2

theorem Chord.of {c d x₁ x₂ x₃ : F} (h : ∀ t, t ^ 3 + b - (c * t + d) ^ 2 = (t - x₁) * (t - x₂) * (t - x₃))
    (h1 : c ^ 2 = x₁ + x₂ + x₃) : Chord b c d x₁ x₂ x₃ :=
  ⟨h1, by linear_combination h 1 - h 0 + h1, by linear_combination -h 0⟩

theorem Chord.map {K : Type} [Field K] (f : F →+* K) {c d x₁ x₂ x₃ : F} (h : Chord b c d x₁ x₂ x₃) :
    Chord (f b) (f c) (f d) (f x₁) (f x₂) (f x₃) := by
  obtain ⟨h1, h2, h3⟩ := h
  refine ⟨?_, ?_, ?_⟩
  · have := congrArg f h1; simpa using this
  · have := congrArg f h2; simpa [map_ofNat] using this
  · have := congrArg f h3; simpa using this

theorem chord_recip {c d x₁ x₂ x₃ c' d' X₁ X₂ X₃ : F} (h : Chord b c d x₁ x₂ x₃) (h' : Chord b c' d' X₁ X₂ X₃) :
    (c * x₁ + d - (c' * x₁ + d')) * (c * x₂ + d - (c' * x₂ + d')) * (c * x₃ + d - (c' * x₃ + d')) =
    -((c' * X₁ + d' - (c * X₁ + d)) * (c' * X₂ + d' - (c * X₂ + d)) * (c' * X₃ + d' - (c * X₃ + d))) := by
  by_cases hc : c = c'
  · subst hc; ring
  · have hd : c - c' ≠ 0 := sub_ne_zero.2 hc
    obtain ⟨t, ht⟩ : ∃ t, (c - c') * t = d' - d := ⟨(d' - d) / (c - c'), mul_div_cancel₀ _ hd⟩
    have e1 := h.eval t
    have e2 := h'.eval t
    have hl : c * t + d = c' * t + d' := by linear_combination ht
    rw [hl] at e1
    have k : ∀ z, c * z + d - (c' * z + d') = (c - c') * (z - t) := fun z => by linear_combination ht
    have k' : ∀ z, c' * z + d' - (c * z + d) = -((c - c') * (z - t)) := fun z => by linear_combination -ht
    simp only [k, k']
    linear_combination (c - c') ^ 3 * (e1 - e2)

theorem exists_chord {A B : (sw b).Point} (hA : A ≠ 0) (hB : B ≠ 0) (hAB : A + B ≠ 0) :
    ∃ c d x₁ x₂ x₃, Chord b c d x₁ x₂ x₃ ∧ Pt A x₁ (c * x₁ + d) ∧ Pt B x₂ (c * x₂ + d) ∧
      Pt (-(A + B)) x₃ (c * x₃ + d) ∧ ∀ x y, lineVal A B x y = y - (c * x + d) := by
  obtain ⟨x₁, y₁, h₁, rfl⟩ := Pt.exists_of_ne hA
  obtain ⟨x₂, y₂, h₂, rfl⟩ := Pt.exists_of_ne hB
  have hxy : ¬(x₁ = x₂ ∧ y₁ = (sw b).negY x₂ y₂) := fun e => hAB (Affine.Point.add_of_Y_eq e.1 e.2)
  have hxy' : ¬(x₁ = x₂ ∧ y₁ = -y₂) := by rwa [sw_negY] at hxy
  have hp := Affine.addPolynomial_slope h₁.1 h₂.1 hxy
  have hch : Chord b ((sw b).slope x₁ x₂ y₁ y₂) (y₁ - (sw b).slope x₁ x₂ y₁ y₂ * x₁) x₁ x₂
      ((sw b).addX x₁ x₂ ((sw b).slope x₁ x₂ y₁ y₂)) := by
    refine Chord.of (fun t => ?_) (by rw [sw_addX]; ring)
    have := congrArg (Polynomial.eval t) hp
    rw [Affine.addPolynomial_eq] at this
    simp [Cubic.toPoly, sw] at this
    simp only [sw]
    rw [show Affine.addX ⟨0, 0, 0, 0, b⟩ x₁ x₂ (Affine.slope ⟨0, 0, 0, 0, b⟩ x₁ x₂ y₁ y₂) =
      Affine.slope ⟨0, 0, 0, 0, b⟩ x₁ x₂ y₁ y₂ ^ 2 - x₁ - x₂ from sw_addX (b := b) ..]
    linear_combination -this
  refine ⟨_, _, _, _, _, hch, ?_, ?_, ?_, ?_⟩
  · exact Pt.mk_some rfl (by ring) h₁
  · refine Pt.mk_some rfl ?_ h₂
    by_cases hx : x₁ = x₂
    · subst hx
      have e1 := ((sw_nonsingular _ _).1 h₁).1
      have e2 := ((sw_nonsingular _ _).1 h₂).1
      have : (y₁ - y₂) * (y₁ + y₂) = 0 := by linear_combination e1 - e2
      rcases mul_eq_zero.1 this with h | h
      · linear_combination -h
      · exact absurd ⟨rfl, by linear_combination h⟩ hxy'
    · rw [Affine.slope_of_X_ne hx]
      have := sub_ne_zero.2 hx
      field_simp
      ring
  · rw [Affine.Point.add_some hxy, Affine.Point.neg_some]
    refine Pt.mk_some rfl ?_ _
    rw [sw_negY, Affine.addY, sw_negY, Affine.negAddY]
    ring
  · intro x y
    simp only [lineVal, if_neg hxy']
    ring

/-- `L` plays the role of a function whose zeros are the points of the list: `∏ ℓ_{A,B}(Pᵢ) = ± L(A) L(B) L(-(A+B))` -/
structure Recip (pts : List (F × F)) (L : (sw b).Point → F) : Prop where
  zero : L 0 = 1
  line : ∀ A B, (pts.map fun p => lineVal A B p.1 p.2).prod ^ 2 = (L A * L B * L (-(A + B))) ^ 2

theorem Recip.vert {pts : List (F × F)} {L : (sw b).Point → F} (h : Recip pts L) (A : (sw b).Point) :
    (pts.map fun p => vertVal A p.1).prod ^ 2 = (L A * L (-A)) ^ 2 := by
  have := h.line A 0
  simp only [lineVal_zero] at this
  rw [this, h.zero, add_zero, mul_one]

/-- the value of `y - (c x + d)` at a point, 1 at infinity -/
def chordAt (c d : F) (A : (sw b).Point) : F :=
  match A with
  | .zero => 1
  | .some x y _ => y - (c * x + d)

/-- the value of `x - c` at a point, 1 at infinity -/
def vertAt (c : F) (A : (sw b).Point) : F :=
  match A with
  | .zero => 1
  | .some x _ _ => x - c

theorem chordAt_pt (c d : F) {A : (sw b).Point} {x y : F} (h : Pt A x y) : chordAt c d A = y - (c * x + d) := by
  obtain ⟨h, rfl⟩ := h; rfl

theorem vertAt_pt (c : F) {A : (sw b).Point} {x y : F} (h : Pt A x y) : vertAt c A = x - c := by
  obtain ⟨h, rfl⟩ := h; rfl

theorem vertVal_pt {A : (sw b).Point} {x y : F} (h : Pt A x y) (t : F) : vertVal A t = t - x := by
  obtain ⟨h, rfl⟩ := h; rfl

theorem lineVal_neg_self (A : (sw b).Point) (x y : F) : lineVal A (-A) x y = vertVal A x := by
  match A with
  | .zero => rfl
  | .some x₁ y₁ h =>
    rw [Affine.Point.neg_some]
    simp only [lineVal, vertVal, sw_negY]
    rw [if_pos ⟨trivial, (neg_neg _).symm⟩]

/-- reduction of reciprocity to vertical lines and proper chords -/
theorem Recip.of {pts : List (F × F)} {L : (sw b).Point → F} (h0 : L 0 = 1)
    (hv : ∀ A x y, Pt A x y → (pts.map fun p => p.1 - x).prod ^ 2 = (L A * L (-A)) ^ 2)
    (hc : ∀ A B c d x₁ x₂ x₃, Chord b c d x₁ x₂ x₃ → Pt A x₁ (c * x₁ + d) → Pt B x₂ (c * x₂ + d) →
      Pt (-(A + B)) x₃ (c * x₃ + d) →
      (pts.map fun p => p.2 - (c * p.1 + d)).prod ^ 2 = (L A * L B * L (-(A + B))) ^ 2) : Recip pts L := by
  have hv' : ∀ A, (pts.map fun p => vertVal A p.1).prod ^ 2 = (L A * L (-A)) ^ 2 := by
    intro A
    by_cases hA : A = 0
    · subst hA
      rw [neg_zero, h0]
      simp [show ∀ t : F, vertVal (0 : (sw b).Point) t = 1 from fun _ => rfl]
    · obtain ⟨x, y, h⟩ := Pt.exists_of_ne hA
      simp only [vertVal_pt h]
      exact hv A x y h
  refine ⟨h0, fun A B => ?_⟩
  by_cases hA : A = 0
  · subst hA
    simp only [lineVal_comm 0 B, lineVal_zero]
    rw [hv', h0, zero_add, one_mul]
  by_cases hB : B = 0
  · subst hB
    simp only [lineVal_zero]
    rw [hv', h0, add_zero, mul_one]
  by_cases hAB : A + B = 0
  · obtain rfl : B = -A := (neg_eq_of_add_eq_zero_right hAB).symm
    simp only [lineVal_neg_self]
    rw [hv', hAB, neg_zero, h0, mul_one]
  · obtain ⟨c, d, x₁, x₂, x₃, h, h1, h2, h3, h4⟩ := exists_chord hA hB hAB
    simp only [h4]
    exact hc A B c d x₁ x₂ x₃ h h1 h2 h3

theorem recip_chord {c d x₁ x₂ x₃ : F} (h : Chord b c d x₁ x₂ x₃) :
    Recip [(x₁, c * x₁ + d), (x₂, c * x₂ + d), (x₃, c * x₃ + d)] (chordAt (b := b) c d) := by
  refine Recip.of rfl ?_ ?_
  · intro A x y hA
    rw [chordAt_pt c d hA, chordAt_pt c d hA.neg]
    simp only [List.map_cons, List.map_nil, List.prod_cons, List.prod_nil, mul_one]
    have e := h.eval x
    rw [← hA.eqn] at e
    congr 1
    linear_combination e
  · intro A B c' d' X₁ X₂ X₃ h' h1 h2 h3
    rw [chordAt_pt c d h1, chordAt_pt c d h2, chordAt_pt c d h3]
    simp only [List.map_cons, List.map_nil, List.prod_cons, List.prod_nil, mul_one]
    rw [← mul_assoc, chord_recip h h', neg_sq]

theorem recip_vert {x₁ y₁ : F} (h : y₁ ^ 2 = x₁ ^ 3 + b) :
    Recip [(x₁, y₁), (x₁, -y₁)] (vertAt (b := b) x₁) := by
  refine Recip.of rfl ?_ ?_
  · intro A x y hA
    rw [vertAt_pt _ hA, vertAt_pt _ hA.neg]
    simp only [List.map_cons, List.map_nil, List.prod_cons, List.prod_nil, mul_one]
    ring
  · intro A B c' d' X₁ X₂ X₃ h' h1 h2 h3
    rw [vertAt_pt _ h1, vertAt_pt _ h2, vertAt_pt _ h3]
    simp only [List.map_cons, List.map_nil, List.prod_cons, List.prod_nil, mul_one]
    have e := h'.eval x₁
    rw [← h] at e
    have : (y₁ - (c' * x₁ + d')) * (-y₁ - (c' * x₁ + d')) = (X₁ - x₁) * (X₂ - x₁) * (X₃ - x₁) := by
      linear_combination -e
    rw [this]

section
variable {G : Type} [AddCommGroup G] {φ : G →+ (sw b).Point} {pts : List (F × F)} {L : (sw b).Point → F}

theorem prod_div_sq (f g : F × F → F) (l : List (F × F)) :
    (l.map fun p => (f p / g p) ^ 2).prod = (l.map f).prod ^ 2 / (l.map g).prod ^ 2 := by
  induction l with
  | nil => simp
  | cons a l ih => rw [List.map_cons, List.prod_cons, ih]; simp only [List.map_cons, List.prod_cons]; ring

theorem prod_mul' (f g : F × F → F) (l : List (F × F)) :
    (l.map fun p => f p * g p).prod = (l.map f).prod * (l.map g).prod := List.prod_map_mul

theorem Recip.ne (h : Recip pts L) (hv : ∀ p ∈ pts, Avoids φ p.1) (A : G) : L (φ A) ≠ 0 := by
  intro e
  have := h.vert (φ A)
  rw [e, zero_mul, zero_pow two_ne_zero] at this
  have := pow_eq_zero_iff two_ne_zero |>.1 this
  rw [List.prod_eq_zero_iff, List.mem_map] at this
  obtain ⟨p, hp, e⟩ := this
  exact hv p hp A e

/-- `∏ f_{n,Q}(Pᵢ) = ± L(Q)^n / L(nQ)` -/
theorem Recip.mf (h : Recip pts L) (hv : ∀ p ∈ pts, Avoids φ p.1) (Q : G) (n : ℕ) :
    (pts.map fun p => mf φ p.1 p.2 Q n).prod * L (φ (n • Q)) ^ 2 = L (φ Q) ^ (2 * n) := by
  induction n with
  | zero => simp [Cocycle.mf, h.zero]
  | succ n ih =>
    simp only [Cocycle.mf]
    rw [prod_mul']
    simp only [g2]
    rw [prod_div_sq, h.line, h.vert, ← succ_nsmul, ← map_add, ← succ_nsmul, ← map_neg]
    have h1 := h.ne hv ((n + 1) • Q)
    have h2 := h.ne hv (-((n + 1) • Q))
    rw [mul_add, pow_add, ← ih]
    field_simp

/-- the Miller function of the exponent `-n`, as in `Spec.millerInt` -/
noncomputable def minv (φ : G →+ (sw b).Point) (x y : F) (n : ℕ) (Q : G) : F :=
  1 / (miller (φ Q) x y n * vertVal (n • φ Q) x)

theorem vertVal_neg (A : (sw b).Point) (x : F) : vertVal (-A) x = vertVal A x := by
  match A with
  | .zero => rfl
  | .some .. => rw [Affine.Point.neg_some]; rfl

theorem minv_sq {x y : F} (hv : Avoids φ x) (h : y ^ 2 = x ^ 3 + b) (Q : G) (n : ℕ) :
    minv φ x y n Q ^ 2 = 1 / (Cocycle.mf φ x y Q n * vertVal (φ (n • Q)) x ^ 2) := by
  rw [minv, div_pow, mul_pow, miller_sq hv h, one_pow, map_nsmul]

theorem minv_ne {x y : F} (hv : Avoids φ x) (h : y ^ 2 = x ^ 3 + b) (Q : G) (n : ℕ) : minv φ x y n Q ≠ 0 := by
  intro e
  have := minv_sq hv h Q n
  rw [e, zero_pow two_ne_zero] at this
  exact one_div_ne_zero (mul_ne_zero (mf_ne hv h Q n) (pow_ne_zero 2 (hv _))) this.symm

theorem minv_prod (h : Recip pts L) (hv : ∀ p ∈ pts, Avoids φ p.1) (he : ∀ p ∈ pts, p.2 ^ 2 = p.1 ^ 3 + b) (Q : G)
    (n : ℕ) : (pts.map fun p => minv φ p.1 p.2 n Q).prod ^ 2 * (L (φ Q) ^ n * L (φ (-(n • Q)))) ^ 2 = 1 := by
  have e1 : (pts.map fun p => minv φ p.1 p.2 n Q).prod ^ 2 =
      1 / ((pts.map fun p => Cocycle.mf φ p.1 p.2 Q n).prod * (pts.map fun p => vertVal (φ (n • Q)) p.1).prod ^ 2) := by
    clear h
    induction pts with
    | nil => simp
    | cons a l ih =>
      simp only [List.map_cons, List.prod_cons]
      rw [mul_pow, ih (fun p hp => hv p (List.mem_cons_of_mem _ hp)) (fun p hp => he p (List.mem_cons_of_mem _ hp)),
        minv_sq (hv a List.mem_cons_self) (he a List.mem_cons_self)]
      rw [mul_pow, one_div_mul_one_div]
      congr 1
      ring
  have e2 := h.mf hv Q n
  have h1 := h.ne hv (n • Q)
  have h2 := h.ne hv (-(n • Q))
  have h3 := h.ne hv Q
  rw [e1, h.vert, ← map_neg]
  have e3 : (pts.map fun p => Cocycle.mf φ p.1 p.2 Q n).prod * (L (φ (n • Q)) * L (φ (-(n • Q)))) ^ 2 =
      L (φ Q) ^ (2 * n) * L (φ (-(n • Q))) ^ 2 := by rw [← e2]; ring
  rw [e3, mul_pow, ← pow_mul, mul_comm n 2]
  field_simp

theorem minv_add {x y : F} (hv : Avoids φ x) (h : y ^ 2 = x ^ 3 + b) (Q R : G) (n : ℕ) :
    minv φ x y n (Q + R) ^ 2 = (minv φ x y n Q * minv φ x y n R) ^ 2 * (g2 φ x y Q R ^ n *
      g2 φ x y (-(n • Q)) (-(n • R))) := by
  rw [mul_pow, minv_sq hv h, minv_sq hv h, minv_sq hv h]
  have e1 := mf_hom hv h Q R n
  have e2 := line_neg h (φ (n • Q)) (φ (n • R))
  have hm1 := mf_ne hv h Q n
  have hm2 := mf_ne hv h R n
  have hm3 := mf_ne hv h (Q + R) n
  have hg := g2_ne hv h (n • Q) (n • R)
  have hg' := g2_ne hv h Q R
  have v1 := hv (n • Q)
  have v2 := hv (n • R)
  have v3 := hv (n • (Q + R))
  have e3 : g2 φ x y (n • Q) (n • R) * g2 φ x y (-(n • Q)) (-(n • R)) * vertVal (φ (n • (Q + R))) x ^ 2 =
      (vertVal (φ (n • Q)) x * vertVal (φ (n • R)) x) ^ 2 := by
    rw [g2, g2, ← neg_add, map_neg φ (n • Q + n • R), vertVal_neg, ← smul_add, ← mul_pow, ← mul_pow]
    rw [← map_add, ← smul_add] at e2
    simp only [map_neg]
    have : (lineVal (φ (n • Q)) (φ (n • R)) x y / vertVal (φ (n • (Q + R))) x *
        (lineVal (-φ (n • Q)) (-φ (n • R)) x y / vertVal (φ (n • (Q + R))) x) * vertVal (φ (n • (Q + R))) x) ^ 2 =
        (lineVal (φ (n • Q)) (φ (n • R)) x y * lineVal (-φ (n • Q)) (-φ (n • R)) x y) ^ 2 /
          vertVal (φ (n • (Q + R))) x ^ 2 := by field_simp
    rw [this, e2, mul_pow _ (vertVal (φ (n • (Q + R))) x), mul_div_cancel_right₀ _ (pow_ne_zero 2 v3)]
  have hn := g2_ne hv h (-(n • Q)) (-(n • R))
  rw [one_div_mul_one_div, one_div_mul_eq_div, div_eq_div_iff (mul_ne_zero hm3 (pow_ne_zero 2 v3))
    (mul_ne_zero (mul_ne_zero hm1 (pow_ne_zero 2 v1)) (mul_ne_zero hm2 (pow_ne_zero 2 v2)))]
  linear_combination -(g2 φ x y (-(n • Q)) (-(n • R)) * vertVal (φ (n • (Q + R))) x ^ 2) * e1 -
    Cocycle.mf φ x y Q n * Cocycle.mf φ x y R n * e3

end
end Spark.Cocycle
