import Verif.Spec.Curve
import Verif.Lemmas.Reduce

/-! Jacobian arithmetic of g2.go. -/

namespace Spark
open WeierstrassCurve Spec

section
variable {F : Type} [Field F] {b : F}

theorem Spec.JacOf.zero {X Y : F} : JacOf (0 : (sw b).Point) X Y 0 := Or.inl ⟨rfl, rfl⟩

theorem Spec.JacOf.mk {P : (sw b).Point} {x y X Y Z : F} (h : Pt P x y) (hZ : Z ≠ 0)
    (hX : X = x * Z ^ 2) (hY : Y = y * Z ^ 3) : JacOf P X Y Z := by
  right
  refine ⟨hZ, ?_⟩
  rw [hX, hY, mul_div_cancel_right₀ _ (pow_ne_zero 2 hZ), mul_div_cancel_right₀ _ (pow_ne_zero 3 hZ)]
  exact h

theorem Spec.JacOf.cases {P : (sw b).Point} {X Y Z : F} (h : JacOf P X Y Z) :
    (P = 0 ∧ Z = 0) ∨ (P ≠ 0 ∧ Z ≠ 0 ∧ ∃ x y, Pt P x y ∧ X = x * Z ^ 2 ∧ Y = y * Z ^ 3) := by
  rcases h with h | ⟨hZ, h⟩
  · exact Or.inl h
  · refine Or.inr ⟨h.ne_zero, hZ, _, _, h, ?_, ?_⟩
    · rw [div_mul_cancel₀ _ (pow_ne_zero 2 hZ)]
    · rw [div_mul_cancel₀ _ (pow_ne_zero 3 hZ)]

theorem Spec.JacOf.Z_eq_zero_iff {P : (sw b).Point} {X Y Z : F} (h : JacOf P X Y Z) : Z = 0 ↔ P = 0 := by
  rcases h.cases with ⟨h1, h2⟩ | ⟨h1, h2, -⟩ <;> simp [h1, h2]

variable [DecidableEq F]

theorem Spec.JacOf.neg {P : (sw b).Point} {X Y Z : F} (h : JacOf P X Y Z) : JacOf (-P) X (-Y) Z := by
  rcases h.cases with ⟨rfl, h2⟩ | ⟨-, h2, x, y, h, h3, h4⟩
  · exact Or.inl ⟨neg_zero, h2⟩
  · exact .mk h.neg h2 h3 (by rw [h4]; ring)

theorem Spec.JacOf.double {P : (sw b).Point} {X Y Z X' Y' Z' : F} (h : JacOf P X Y Z)
    (hX : X' = 9 * X ^ 4 - 8 * X * Y ^ 2)
    (hY : Y' = 3 * X ^ 2 * (4 * X * Y ^ 2 - X') - 8 * Y ^ 4) (hZ : Z' = 2 * Y * Z) :
    JacOf (P + P) X' Y' Z' := by
  rcases h.cases with ⟨rfl, h2⟩ | ⟨-, h2, x, y, h, h3, h4⟩
  · left; exact ⟨add_zero 0, by rw [hZ, h2, mul_zero]⟩
  · by_cases hy : 2 * y = 0
    · left
      refine ⟨?_, ?_⟩
      · by_contra hne
        exact h.two_y_ne hne hy
      · rw [hZ, h4]; linear_combination Z ^ 4 * hy
    · have hl : 3 * x ^ 2 / (2 * y) * (2 * y) = 3 * x ^ 2 := div_mul_cancel₀ _ hy
      have hd := h.double hy hl
      generalize 3 * x ^ 2 / (2 * y) = l at hl hd
      have hZ' : Z' = (2 * y) * Z ^ 4 := by rw [hZ, h4]; ring
      refine .mk hd ?_ ?_ ?_
      · rw [hZ']; exact mul_ne_zero hy (pow_ne_zero 4 h2)
      · rw [hX, hZ', h3, h4]
        linear_combination (-(Z ^ 8) * (l * (2 * y) + 3 * x ^ 2)) * hl
      · rw [hY, hX, hZ', h3, h4]
        have e1 : l ^ 2 * (2 * y) ^ 2 = 9 * x ^ 4 := by
          rw [← mul_pow, hl]; ring
        have e2 : l ^ 3 * (2 * y) ^ 3 = 27 * x ^ 6 := by
          rw [← mul_pow, hl]; ring
        linear_combination (-(Z ^ 12) * 12 * x * y ^ 2) * hl + Z ^ 12 * e2

theorem Spec.JacOf.add_generic {P A : (sw b).Point} {X₁ Y₁ Z₁ X₂ Y₂ Z₂ X' Y' Z' : F}
    (h : JacOf P X₁ Y₁ Z₁) (hA : JacOf A X₂ Y₂ Z₂) (hP0 : P ≠ 0) (hA0 : A ≠ 0) (hPA : P ≠ A)
    {H r U : F} (hU : U = X₂ * Z₁ ^ 2) (hH : H = X₁ * Z₂ ^ 2 - U)
    (hr : r = 2 * (Y₁ * Z₂ ^ 3 - Y₂ * Z₁ ^ 3))
    (hX : X' = r ^ 2 - 4 * H ^ 3 - 8 * U * H ^ 2)
    (hY : Y' = r * (4 * U * H ^ 2 - X') - 8 * (Y₂ * Z₁ ^ 3) * H ^ 3) (hZ : Z' = 2 * Z₁ * Z₂ * H)
    (h2 : (2 : F) ≠ 0) :
    JacOf (P + A) X' Y' Z' := by
  rcases h.cases with ⟨rfl, -⟩ | ⟨-, hZ1, x, y, h, h3, h4⟩
  · exact absurd rfl hP0
  rcases hA.cases with ⟨rfl, -⟩ | ⟨-, hZ2, x', y', h', h3', h4'⟩
  · exact absurd rfl hA0
  by_cases hs : P + A = 0
  · left
    refine ⟨hs, ?_⟩
    have hAP : A = -P := (neg_eq_of_add_eq_zero_right hs).symm
    have hn := h.neg
    rw [← hAP] at hn
    obtain ⟨e, -⟩ := hn.unique h'
    rw [hZ, hH, hU, h3, h3', e]; ring
  · have hx := h.x_ne h' hPA hs
    have hl : (y - y') / (x - x') * (x - x') = y - y' := div_mul_cancel₀ _ (sub_ne_zero.2 hx)
    have hd := h.add h' hx hl
    generalize (y - y') / (x - x') = l at hl hd
    have hZ' : Z' = 2 * (x - x') * (Z₁ * Z₂) ^ 3 := by rw [hZ, hH, hU, h3, h3']; ring
    have e1 : l ^ 2 * (x - x') ^ 2 = (y - y') ^ 2 := by rw [← mul_pow, hl]
    have e2 : l ^ 3 * (x - x') ^ 3 = (y - y') ^ 3 := by rw [← mul_pow, hl]
    refine .mk hd ?_ ?_ ?_
    · rw [hZ']
      exact mul_ne_zero (mul_ne_zero h2 (sub_ne_zero.2 hx)) (pow_ne_zero 3 (mul_ne_zero hZ1 hZ2))
    · rw [hX, hr, hH, hU, hZ', h3, h3', h4, h4']
      linear_combination -(4 * (Z₁ * Z₂) ^ 6) * e1
    · rw [hY, hX, hr, hH, hU, hZ', h3, h3', h4, h4']
      linear_combination (8 * (Z₁ * Z₂) ^ 9) * e2 - (8 * (Z₁ * Z₂) ^ 9 * (x - x') ^ 2 * (2 * x + x')) * hl

end

namespace G2
open Circ

/-- `p` are Jacobian coordinates of `P` -/
def JRep (P : ETwist Fp) (p : G2Jacobian Fp) : Prop := JacOf P p.X p.Y p.Z

theorem jacDouble_rep {P : ETwist Fp} {p : G2Jacobian Fp} (h : JRep P p) :
    JRep (P + P) (jacDouble p) := by
  refine JacOf.double h ?_ ?_ ?_ <;> simp only [jacDouble, tower] <;> ring

theorem jacNeg_rep {P : ETwist Fp} {p : G2Jacobian Fp} (h : JRep P p) : JRep (-P) (jacNeg p) :=
  JacOf.neg h

theorem jacSelect_bit (s : Bool) (a b : G2Jacobian Fp) :
    jacSelect (bit s) a b = pure (if s then a else b) := by
  simp only [jacSelect, Ext2.select_eq, pure_bind]
  cases s <;> rfl

/-- the three-way choice at the end of `G2JacobianAddAssign` -/
def addChoice (p a : G2Jacobian Fp) (pz az ne : Bool) : G2Jacobian Fp :=
  if pz then
    (if az then
      (if ne then
        jacAddGeneric p a (jacAddUS p a).1 (jacAddUS p a).2.1 (jacAddUS p a).2.2.1 (jacAddUS p a).2.2.2
      else jacDouble p)
    else p)
  else a

/-- the two points have different (cross-multiplied) coordinates -/
def CrossNe (p a : G2Jacobian Fp) : Prop :=
  (jacAddUS p a).1 ≠ (jacAddUS p a).2.1 ∨ (jacAddUS p a).2.2.1 ≠ (jacAddUS p a).2.2.2

/-- the computation of `pNotEqualA` -/
def neCirc (p a : G2Jacobian Fp) : Circ Fr :=
  e2NotEqual (jacAddUS p a).1 (jacAddUS p a).2.1 >>= fun x =>
    e2NotEqual (jacAddUS p a).2.2.1 (jacAddUS p a).2.2.2 >>= fun y => apiOr x y

theorem neCirc_test (p a : G2Jacobian Fp) : Test (neCirc p a) (CrossNe p a) :=
  (e2NotEqual_test _ _).or (e2NotEqual_test _ _)

/-- the final selections -/
def addTail (p a : G2Jacobian Fp) (pz az ne : Fr) : Circ (G2Jacobian Fp) := do
  let res ← jacSelect ne
    (jacAddGeneric p a (jacAddUS p a).1 (jacAddUS p a).2.1 (jacAddUS p a).2.2.1 (jacAddUS p a).2.2.2)
    (jacDouble p)
  let res ← jacSelect az res p
  jacSelect pz res a

theorem addTail_bit (p a : G2Jacobian Fp) (pz az ne : Bool) :
    addTail p a (bit pz) (bit az) (bit ne) = pure (addChoice p a pz az ne) := by
  simp only [addTail, jacSelect_bit, pure_bind]; rfl

theorem jacAdd_eq (p a : G2Jacobian Fp) : jacAdd p a =
    (e2NotZero p.Z >>= fun pz => e2NotZero a.Z >>= fun az => neCirc p a >>= fun ne =>
      addTail p a pz az ne) := by
  simp only [jacAdd, neCirc, bind_assoc]; rfl

open Classical in
theorem jacAdd_run (p a : G2Jacobian Fp) : (jacAdd p a).run =
    some (addChoice p a (decide (p.Z ≠ 0)) (decide (a.Z ≠ 0)) (decide (CrossNe p a))) := by
  rw [jacAdd_eq, run_bind, (e2NotZero_test _).run_eq, Option.bind_some, run_bind,
    (e2NotZero_test _).run_eq, Option.bind_some, run_bind, (neCirc_test p a).run_eq,
    Option.bind_some, addTail_bit]
  rfl

theorem Test.bit {t : Circ Fr} {P : Prop} (h : Test t P) {b : Fr} (hb : t.sat b) :
    ∃ c : Bool, b = Spark.bit c ∧ (P → c = true) := by
  rcases h.sat b hb with rfl | ⟨rfl, hP⟩
  · exact ⟨true, rfl, fun _ => rfl⟩
  · exact ⟨false, rfl, fun h => absurd h hP⟩

theorem jacAdd_sat {p a r : G2Jacobian Fp} (h : (jacAdd p a).sat r) : ∃ pz az ne : Bool,
    (p.Z ≠ 0 → pz = true) ∧ (a.Z ≠ 0 → az = true) ∧ (CrossNe p a → ne = true) ∧
      r = addChoice p a pz az ne := by
  rw [jacAdd_eq] at h
  obtain ⟨b1, h1, b2, h2, b3, h3, h4⟩ := h
  obtain ⟨c1, rfl, e1⟩ := (e2NotZero_test _).bit h1
  obtain ⟨c2, rfl, e2⟩ := (e2NotZero_test _).bit h2
  obtain ⟨c3, rfl, e3⟩ := (neCirc_test p a).bit h3
  change (addTail p a (Spark.bit c1) (Spark.bit c2) (Spark.bit c3)).sat r at h4
  rw [addTail_bit] at h4
  exact ⟨c1, c2, c3, e1, e2, e3, h4⟩

theorem jacAdd_exact {p a : G2Jacobian Fp} (hp : p.Z ≠ 0) (ha : a.Z ≠ 0) (hne : CrossNe p a) :
    jacAdd p a = pure (addChoice p a true true true) := by
  rw [jacAdd_eq, (e2NotZero_test _).eq_one hp, pure_bind, (e2NotZero_test _).eq_one ha, pure_bind,
    (neCirc_test p a).eq_one hne, pure_bind]
  exact addTail_bit p a true true true

theorem jacAdd_sat_of {p a : G2Jacobian Fp} {pz az ne : Bool} (h1 : (e2NotZero p.Z).sat (bit pz))
    (h2 : (e2NotZero a.Z).sat (bit az)) (h3 : (neCirc p a).sat (bit ne)) :
    (jacAdd p a).sat (addChoice p a pz az ne) := by
  rw [jacAdd_eq]
  refine ⟨_, h1, _, h2, _, h3, ?_⟩
  show (addTail p a (bit pz) (bit az) (bit ne)).sat _
  rw [addTail_bit]; rfl

theorem crossNe_iff {P A : ETwist Fp} {p a : G2Jacobian Fp} (hp : JRep P p) (ha : JRep A a)
    (hP : P ≠ 0) (hA : A ≠ 0) : CrossNe p a ↔ P ≠ A := by
  rcases JacOf.cases hp with ⟨rfl, -⟩ | ⟨-, hZ1, x, y, h, h3, h4⟩
  · exact absurd rfl hP
  rcases JacOf.cases ha with ⟨rfl, -⟩ | ⟨-, hZ2, x', y', h', h3', h4'⟩
  · exact absurd rfl hA
  have eU : (jacAddUS p a).1 = (jacAddUS p a).2.1 ↔ x = x' := by
    simp only [jacAddUS, tower]
    rw [h3, h3']
    have hz : p.Z ^ 2 * a.Z ^ 2 ≠ 0 := mul_ne_zero (pow_ne_zero 2 hZ1) (pow_ne_zero 2 hZ2)
    constructor
    · intro e; apply mul_right_cancel₀ hz; linear_combination -e
    · rintro rfl; ring
  have eS : (jacAddUS p a).2.2.1 = (jacAddUS p a).2.2.2 ↔ y = y' := by
    simp only [jacAddUS, tower]
    rw [h4, h4']
    have hz : p.Z ^ 3 * a.Z ^ 3 ≠ 0 := mul_ne_zero (pow_ne_zero 3 hZ1) (pow_ne_zero 3 hZ2)
    constructor
    · intro e; apply mul_right_cancel₀ hz; linear_combination -e
    · rintro rfl; ring
  rw [CrossNe, ← not_and_or, ne_eq, not_iff_not, eU, eS]
  constructor
  · rintro ⟨rfl, rfl⟩; exact h.ext h'
  · rintro rfl; exact h.unique h'

theorem two_ne_E2' : (2 : E2 Fp) ≠ 0 := fun h => by
  have h1 := congrArg E2.A0 h
  have h2 : ((2 : ℕ) : Fp) = 0 := h1
  rw [ZMod.natCast_eq_zero_iff] at h2
  exact absurd (Nat.le_of_dvd (by norm_num) h2) (by decide +kernel)

theorem addGeneric_rep {P A : ETwist Fp} {p a : G2Jacobian Fp} (hp : JRep P p) (ha : JRep A a)
    (hP : P ≠ 0) (hA : A ≠ 0) (hPA : P ≠ A) : JRep (P + A) (addChoice p a true true true) := by
  refine JacOf.add_generic hp ha hP hA hPA (U := a.X * p.Z ^ 2) (H := p.X * a.Z ^ 2 - a.X * p.Z ^ 2)
    (r := 2 * (p.Y * a.Z ^ 3 - a.Y * p.Z ^ 3)) rfl rfl rfl ?_ ?_ ?_ two_ne_E2' <;>
  simp only [addChoice, jacAddGeneric, jacAddUS, tower, if_true] <;> ring

/-- honest solver, all cases -/
theorem jacAdd_honest {P A : ETwist Fp} {p a : G2Jacobian Fp} (hp : JRep P p) (ha : JRep A a) :
    ∃ r, (jacAdd p a).run = some r ∧ JRep (P + A) r := by
  classical
  refine ⟨_, jacAdd_run p a, ?_⟩
  by_cases hP : P = 0
  · have hz : p.Z = 0 := (JacOf.Z_eq_zero_iff hp).2 hP
    simp only [addChoice, hz, ne_eq, not_true_eq_false, decide_false, hP, zero_add]
    exact ha
  have hpz : p.Z ≠ 0 := fun e => hP ((JacOf.Z_eq_zero_iff hp).1 e)
  by_cases hA : A = 0
  · have hz : a.Z = 0 := (JacOf.Z_eq_zero_iff ha).2 hA
    simp only [addChoice, hz, hpz, ne_eq, not_true_eq_false, not_false_eq_true, decide_true,
      decide_false, hA, add_zero]
    exact hp
  have haz : a.Z ≠ 0 := fun e => hA ((JacOf.Z_eq_zero_iff ha).1 e)
  by_cases hPA : P = A
  · have hc : ¬ CrossNe p a := by rw [crossNe_iff hp ha hP hA]; exact not_not.2 hPA
    simp only [hpz, haz, hc, ne_eq, not_false_eq_true, decide_true, decide_false]
    rw [← hPA]
    exact jacDouble_rep hp
  · have hc : CrossNe p a := by rw [crossNe_iff hp ha hP hA]; exact hPA
    simp only [hpz, haz, hc, ne_eq, not_false_eq_true, decide_true]
    exact addGeneric_rep hp ha hP hA hPA

/-- every prover, points distinct and finite -/
theorem jacAdd_sound {P A : ETwist Fp} {p a : G2Jacobian Fp} (hp : JRep P p) (ha : JRep A a)
    (hP : P ≠ 0) (hA : A ≠ 0) (hPA : P ≠ A) : ∃ r, jacAdd p a = pure r ∧ JRep (P + A) r :=
  ⟨_, jacAdd_exact (fun e => hP ((JacOf.Z_eq_zero_iff hp).1 e))
    (fun e => hA ((JacOf.Z_eq_zero_iff ha).1 e)) ((crossNe_iff hp ha hP hA).2 hPA),
    addGeneric_rep hp ha hP hA hPA⟩

theorem jacSub_honest {P A : ETwist Fp} {p a : G2Jacobian Fp} (hp : JRep P p) (ha : JRep A a) :
    ∃ r, (jacSub p a).run = some r ∧ JRep (P - A) r := by
  rw [sub_eq_add_neg]
  exact jacAdd_honest hp (jacNeg_rep ha)

theorem jacSub_sound {P A : ETwist Fp} {p a : G2Jacobian Fp} (hp : JRep P p) (ha : JRep A a)
    (hP : P ≠ 0) (hA : A ≠ 0) (hPA : P ≠ -A) : ∃ r, jacSub p a = pure r ∧ JRep (P - A) r := by
  rw [sub_eq_add_neg]
  exact jacAdd_sound hp (jacNeg_rep ha) hP (neg_ne_zero.2 hA) hPA

/-- infinity plus infinity is infinity for every prover -/
theorem jacAdd_inf {p a r : G2Jacobian Fp} (hp : p.Z = 0) (ha : a.Z = 0) (h : (jacAdd p a).sat r) :
    r.Z = 0 := by
  obtain ⟨pz, az, ne, -, -, -, rfl⟩ := jacAdd_sat h
  rcases pz <;> rcases az <;> rcases ne <;>
    simp only [addChoice, jacAddGeneric, jacDouble, tower, hp, ha, if_true, Bool.false_eq_true,
      if_false] <;> ring

end G2
end Spark
