import Verif.Lemmas.Cofactor

/-!
# Properties C44-C49 and C56: arithmetic on the twist, ψ, cofactor clearing, zero tests

Specification: `Verif/Spec/Curve.lean`. `ETwist Fp` is Mathlib's group of points of
`E' : y² = x³ + 4(1+u)` over `Fp2`; `Pt P x y` says that `P` is the affine point `(x, y)`;
`JacOf P X Y Z` says that `(X : Y : Z)` are Jacobian coordinates of `P` (`Z = 0` at infinity).

`t.run = some r` is the result of the honest prover, `t = pure r` says that `r` is the only result
*any* prover can reach, `t.sat r` that some prover reaches `r`, `t = fail` that no prover satisfies
the constraints.
-/

namespace Spark.CurveProps
open Spark Circ Spec G2
set_option maxRecDepth 100000

/-! ## C56: zero and equality tests -/

/-- The tests are exact for the honest prover. -/
theorem c56_honest (x y : Fp) (a b : E2 Fp) :
    (g1NotZero x).run = some (if x = 0 then 0 else 1) ∧
    (g1NotEqual x y).run = some (if x = y then 0 else 1) ∧
    (g1NotEqualOne x).run = some (if x = 1 then 0 else 1) ∧
    (e2NotZero a).run = some (if a = 0 then 0 else 1) ∧
    (e2NotEqual a b).run = some (if a = b then 0 else 1) ∧
    (e2NotOne a).run = some (if a = 1 then 0 else 1) := by
  have key : ∀ {t : Circ Fr} {P : Prop} [Decidable P], Test t (¬ P) →
      t.run = some (if P then 0 else 1) := by
    intro t P _ h
    split
    · next hP => exact h.run_false (not_not.2 hP)
    · next hP => exact h.run_true hP
  exact ⟨key (g1NotZero_test x), key (g1NotEqual_test x y), key (g1NotEqualOne_test x),
    key (e2NotZero_test a), key (e2NotEqual_test a b), key (e2NotOne_test a)⟩

/-- On non-zero / unequal / non-one values no prover can get anything but 1. -/
theorem c56_sound_partial :
    (∀ x : Fp, x ≠ 0 → g1NotZero x = pure 1) ∧ (∀ x y : Fp, x ≠ y → g1NotEqual x y = pure 1) ∧
    (∀ x : Fp, x ≠ 1 → g1NotEqualOne x = pure 1) ∧ (∀ a : E2 Fp, a ≠ 0 → e2NotZero a = pure 1) ∧
    (∀ a b : E2 Fp, a ≠ b → e2NotEqual a b = pure 1) ∧ (∀ a : E2 Fp, a ≠ 1 → e2NotOne a = pure 1) :=
  ⟨fun x h => (g1NotZero_test x).eq_one h, fun x y h => (g1NotEqual_test x y).eq_one h,
    fun x h => (g1NotEqualOne_test x).eq_one h, fun x h => (e2NotZero_test x).eq_one h,
    fun x y h => (e2NotEqual_test x y).eq_one h, fun x h => (e2NotOne_test x).eq_one h⟩

/-- Every answer is a bit, and 0 is never a lie: it implies zero / equality / one. -/
theorem c56_zero_answer (x y : Fp) (a b : E2 Fp) :
    ((g1NotZero x).sat 0 → x = 0) ∧ ((g1NotEqual x y).sat 0 → x = y) ∧
    ((g1NotEqualOne x).sat 0 → x = 1) ∧ ((e2NotZero a).sat 0 → a = 0) ∧
    ((e2NotEqual a b).sat 0 → a = b) ∧ ((e2NotOne a).sat 0 → a = 1) := by
  have key : ∀ {t : Circ Fr} {P : Prop}, Test t (¬ P) → t.sat 0 → P := by
    intro t P h hs
    rcases h.sat 0 hs with e | ⟨-, e⟩
    · exact absurd e (by decide +kernel)
    · exact not_not.1 e
  exact ⟨key (g1NotZero_test x), key (g1NotEqual_test x y), key (g1NotEqualOne_test x),
    key (e2NotZero_test a), key (e2NotEqual_test a b), key (e2NotOne_test a)⟩

/-- **The full claim is false**: a prover that feeds `Reduce` the representative `x + p` makes the
zero test answer 1 on zero, the one-test answer 1 on one, and the equality test answer 1 on two equal
elements, the latter exactly when a second representative fits in the 381 bits. -/
theorem c56_false :
    (g1NotZero 0).sat 1 ∧ (e2NotZero 0).sat 1 ∧ (g1NotEqualOne 1).sat 1 ∧ (e2NotOne 1).sat 1 ∧
    (∀ x : Fp, (g1NotEqual x x).sat 1 ↔ x.val + fpOrder < 2 ^ 381) ∧ (g1NotEqual 0 0).sat 1 :=
  ⟨g1NotZero_cheat, e2NotZero_cheat, g1NotEqualOne_cheat, e2NotOne_cheat, g1NotEqual_cheat_iff,
    (g1NotEqual_cheat_iff 0).2 (by decide +kernel)⟩

/-! ## C44: Jacobian arithmetic -/

variable {P A : ETwist Fp} {p a : G2Jacobian Fp}

/-- Doubling and negation, for every point including infinity; no hints are involved. -/
theorem c44_double_neg (hP : JacOf P p.X p.Y p.Z) :
    JacOf (P + P) (jacDouble p).X (jacDouble p).Y (jacDouble p).Z ∧
    JacOf (-P) (jacNeg p).X (jacNeg p).Y (jacNeg p).Z :=
  ⟨jacDouble_rep hP, jacNeg_rep hP⟩

/-- Addition for every pair of points - infinity, equal and opposite points included (honest
prover, that is with exact zero and equality tests). -/
theorem c44_add (hP : JacOf P p.X p.Y p.Z) (hA : JacOf A a.X a.Y a.Z) :
    ∃ r, (jacAdd p a).run = some r ∧ JacOf (P + A) r.X r.Y r.Z := jacAdd_honest hP hA

/-- Subtraction for every pair of points (honest prover). -/
theorem c44_sub (hP : JacOf P p.X p.Y p.Z) (hA : JacOf A a.X a.Y a.Z) :
    ∃ r, (jacSub p a).run = some r ∧ JacOf (P - A) r.X r.Y r.Z := jacSub_honest hP hA

/-- For finite distinct points (opposite points included) the result is forced for every prover. -/
theorem c44_add_sound (hP : JacOf P p.X p.Y p.Z) (hA : JacOf A a.X a.Y a.Z) (hP0 : P ≠ 0)
    (hA0 : A ≠ 0) (hPA : P ≠ A) : ∃ r, jacAdd p a = pure r ∧ JacOf (P + A) r.X r.Y r.Z :=
  jacAdd_sound hP hA hP0 hA0 hPA

/-- ... and likewise for subtraction. -/
theorem c44_sub_sound (hP : JacOf P p.X p.Y p.Z) (hA : JacOf A a.X a.Y a.Z) (hP0 : P ≠ 0)
    (hA0 : A ≠ 0) (hPA : P ≠ -A) : ∃ r, jacSub p a = pure r ∧ JacOf (P - A) r.X r.Y r.Z :=
  jacSub_sound hP hA hP0 hA0 hPA

/-- Without exact tests it is not the group law: for infinity plus any finite point some prover
reaches (a representation of) infinity. -/
theorem c44_infinity_lie (hp : p.Z = 0) (hA : JacOf A a.X a.Y a.Z) (hA0 : A ≠ 0) :
    ∃ r, (jacAdd p a).sat r ∧ r.Z = 0 ∧ ¬ JacOf (0 + A) r.X r.Y r.Z := by
  have hZ : (addChoice p a true true true).Z = 0 := by
    simp only [addChoice, jacAddGeneric, tower, hp, if_true]; ring
  refine ⟨addChoice p a true true true, jacAdd_sat_of ?_ ?_ ?_, hZ, ?_⟩
  · rw [hp]; exact e2NotZero_cheat
  · have : a.Z ≠ 0 := fun e => hA0 ((JacOf.Z_eq_zero_iff hA).1 e)
    rw [(e2NotZero_test _).eq_one this]; exact rfl
  · by_cases h : CrossNe p a
    · rw [(neCirc_test p a).eq_one h]; exact rfl
    · have h1 : (jacAddUS p a).1 = 0 := by simp only [jacAddUS, tower, hp]; ring
      have h2 : (jacAddUS p a).2.1 = 0 := by
        by_contra h2
        exact h (Or.inl (by rw [h1]; exact fun e => h2 e.symm))
      obtain ⟨b, hb⟩ : ∃ b : Bool, (e2NotEqual (jacAddUS p a).2.2.1 (jacAddUS p a).2.2.2).sat (bit b) := by
        classical
        exact ⟨_, (e2NotEqual_test _ _).sat_run⟩
      refine ⟨1, ?_, bit b, hb, ?_⟩
      · rw [h1, h2]; exact e2NotEqual_cheat_zero
      · change (apiOr 1 (bit b)).sat _
        rw [show (1 : Fr) = bit true from rfl, apiOr_bit]; exact rfl
  · rw [zero_add]
    intro h
    exact hA0 ((JacOf.Z_eq_zero_iff h).1 hZ)

/-- ... and for the sum of the standard generator of G2 with itself some prover reaches the
meaningless triple `(0, 0, 0)`, which stands for infinity. -/
theorem c44_equal_lie :
    (jacAdd ⟨NC.e2 Pairing.genN.1, NC.e2 Pairing.genN.2, 1⟩
      ⟨NC.e2 Pairing.genN.1, NC.e2 Pairing.genN.2, 1⟩).sat ⟨0, 0, 0⟩ ∧
    ¬ JacOf (G2gen + G2gen) 0 0 0 := by
  set g : G2Jacobian Fp := ⟨NC.e2 Pairing.genN.1, NC.e2 Pairing.genN.2, 1⟩ with hg
  have hr : addChoice g g true true true = ⟨0, 0, 0⟩ := by
    simp only [addChoice, jacAddGeneric, jacAddUS, tower, if_true, G2Jacobian.mk.injEq]
    refine ⟨?_, ?_, ?_⟩ <;> ring
  constructor
  · rw [← hr]
    have hz : e2NotZero g.Z = pure 1 := (e2NotZero_test _).eq_one (by rw [hg]; exact one_ne_zero)
    refine jacAdd_sat_of (by rw [hz]; exact rfl) (by rw [hz]; exact rfl) ?_
    have h1 : (jacAddUS g g).1 = NC.e2 Pairing.genN.1 := by
      simp only [jacAddUS, tower, hg]; ring
    have h2 : (jacAddUS g g).2.1 = NC.e2 Pairing.genN.1 := by
      simp only [jacAddUS, tower, hg]; ring
    obtain ⟨b, hb⟩ : ∃ b : Bool, (e2NotEqual (jacAddUS g g).2.2.1 (jacAddUS g g).2.2.2).sat (bit b) := by
      classical
      exact ⟨_, (e2NotEqual_test _ _).sat_run⟩
    refine ⟨1, ?_, bit b, hb, ?_⟩
    · rw [h1, h2]
      refine e2NotEqual_cheat (Or.inl ?_)
      rw [NC.e2, toE2, ZMod.val_natCast]
      decide +kernel
    · change (apiOr 1 (bit b)).sat _
      rw [show (1 : Fr) = bit true from rfl, apiOr_bit]; exact rfl
  · intro h
    exact generic_gen.facts.2.1 ((JacOf.Z_eq_zero_iff h).1 rfl)

/-- non-vacuity: infinity and the generator with a non-trivial `Z` -/
example : JacOf (0 : ETwist Fp) 1 1 0 ∧
    JacOf G2gen (NC.e2 Pairing.genN.1 * 2 ^ 2) (NC.e2 Pairing.genN.2 * 2 ^ 3) 2 ∧
    G2gen ≠ 0 ∧ -G2gen ≠ 0 ∧ G2gen ≠ -G2gen :=
  ⟨.zero, .mk ⟨_, rfl⟩ two_ne_E2 rfl rfl, G2gen_ne, neg_ne_zero.2 G2gen_ne, fun h =>
    generic_gen.facts.2.1 (by nth_rewrite 2 [h]; exact add_neg_cancel _)⟩

/-! ## C45: multiplication by |seed| -/

/-- `G2JacobianConstScalarMul` multiplies every point by `15132376222941642752` (honest prover). -/
theorem c45_honest (hP : JacOf P p.X p.Y p.Z) :
    ∃ r, (constScalarMul p).run = some r ∧
      JacOf (15132376222941642752 • P) r.X r.Y r.Z := constScalarMul_honest hP

/-- The result is forced for every prover when the point has no small multiple at infinity, in
particular for every non-zero point of the prime-order subgroup (`c45_subgroup`). -/
theorem c45_sound_partial (hP : JacOf P p.X p.Y p.Z)
    (hN : ∀ m : ℕ, 0 < m → m ≤ 15132376222941642752 → m • P ≠ 0) :
    ∃ r, constScalarMul p = pure r ∧ JacOf (15132376222941642752 • P) r.X r.Y r.Z :=
  constScalarMul_sound hP hN

theorem c45_subgroup (hP : JacOf P p.X p.Y p.Z) (hr : rOrder • P = 0) (h0 : P ≠ 0) :
    ∃ r, constScalarMul p = pure r ∧ JacOf (15132376222941642752 • P) r.X r.Y r.Z := by
  refine constScalarMul_sound hP fun m hm hle => ?_
  rw [← natCast_zsmul]
  refine zsmul_ne_zero_of_order hr h0 ?_
  rw [Int.natAbs_natCast, Nat.mod_eq_of_lt (lt_of_le_of_lt hle (by decide +kernel))]
  omega

/-- Infinity is mapped to infinity by every prover. -/
theorem c45_infinity {r : G2Jacobian Fp} (hp : p.Z = 0) (hr : (constScalarMul p).sat r) : r.Z = 0 :=
  constScalarMul_inf hp hr

/-- non-vacuity -/
example : ∃ p : G2Jacobian Fp, JacOf G2gen p.X p.Y p.Z ∧ rOrder • G2gen = 0 ∧ G2gen ≠ 0 :=
  ⟨⟨NC.e2 Pairing.genN.1, NC.e2 Pairing.genN.2, 1⟩, .mk ⟨_, rfl⟩ one_ne_zero (by simp) (by simp),
    G2gen_order, G2gen_ne⟩

/-! ## C46: conversions -/

/-- Affine to Jacobian and back is the identity except at the placeholder `(0, 0)`. -/
theorem c46_round_trip (q : G2Affine Fp) (hq : ¬ (q.X = 0 ∧ q.Y = 0)) :
    (jacFromAff q >>= affFromJac) = pure q := by
  rw [jacFromAff_ne (not_and_or.1 hq), pure_bind, affFromJac_ne one_ne_zero]
  simp

/-- Jacobian to affine gives the coordinates of the point, for every finite point and prover. -/
theorem c46_to_affine (hP : JacOf P p.X p.Y p.Z) (h0 : P ≠ 0) :
    ∃ q, affFromJac p = pure q ∧ Pt P q.X q.Y := affFromJac_sound hP h0

/-- Affine to Jacobian represents the same point, for every finite point and prover. -/
theorem c46_to_jacobian {q : G2Affine Fp} (hP : Pt P q.X q.Y) :
    ∃ j, jacFromAff q = pure j ∧ JacOf P j.X j.Y j.Z :=
  jacFromAff_sound hP (Or.inl (twist_x_ne hP))

/-- The placeholder `(0, 0)` becomes infinity (honest prover) ... -/
theorem c46_placeholder :
    ∃ j, (jacFromAff ⟨0, 0⟩).run = some j ∧ JacOf (0 : ETwist Fp) j.X j.Y j.Z :=
  ⟨_, jacFromAff_zero_run, .zero⟩

/-- ... but infinity cannot be converted back: the constraints are unsatisfiable. -/
theorem c46_infinity_unsat (p : G2Jacobian Fp) (h : p.Z = 0) : affFromJac p = fail := by
  obtain ⟨X, Y, Z⟩ := p
  cases h
  exact affFromJac_zero X Y

/-- A cheating prover turns the placeholder into `(0 : 0 : 1)`, which is not on the curve. -/
theorem c46_placeholder_lie : (jacFromAff ⟨0, 0⟩).sat ⟨0, 0, 1⟩ ∧
    ∀ Q : ETwist Fp, ¬ JacOf Q 0 0 1 := by
  refine ⟨⟨1, ?_, ?_⟩, ?_⟩
  · refine ⟨1, e2NotZero_cheat, 1, e2NotZero_cheat, ?_⟩
    change (apiOr 1 1).sat _
    rw [or_11]; exact rfl
  · have := jacFromAff_bit ⟨0, 0⟩ true
    change (do
      let z ← Ext2.select (bit true) Ext2.one Ext2.zero
      let x ← Ext2.select (bit true) 0 Ext2.one
      let y ← Ext2.select (bit true) 0 Ext2.one
      pure (⟨x, y, z⟩ : G2Jacobian Fp) : Circ (G2Jacobian Fp)).sat _
    rw [this]; exact rfl
  · rintro Q (⟨-, h⟩ | ⟨-, h⟩)
    · exact one_ne_zero h
    · exact twist_x_ne h (by simp)

/-! ## C47: affine arithmetic -/

variable {p q : G2Affine Fp}

/-- Points with different abscissas: the sum, for every prover. -/
theorem c47_add (hP : Pt P p.X p.Y) (hA : Pt A q.X q.Y) (hx : p.X ≠ q.X) :
    ∃ r, affAdd p q = pure r ∧ Pt (P + A) r.X r.Y := by
  refine affAdd_sound hP hA ?_ ?_
  · rintro rfl; exact hx (hP.unique hA).1
  · intro e
    have hN : P = -A := eq_neg_of_add_eq_zero_left e
    subst hN
    exact hx (hP.unique hA.neg).1

/-- The difference likewise. -/
theorem c47_sub (hP : Pt P p.X p.Y) (hA : Pt A q.X q.Y) (hx : p.X ≠ q.X) :
    ∃ r, affSub p q = pure r ∧ Pt (P - A) r.X r.Y := by
  rw [sub_eq_add_neg]
  exact c47_add (q := ⟨q.X, -q.Y⟩) hP hA.neg hx

/-- Opposite (different) points: unsatisfiable. -/
theorem c47_opposite_unsat (hx : p.X = q.X) (hy : p.Y ≠ q.Y) : affAdd p q = fail := by
  rw [affAdd_eq, hx, sub_self, Ext2.divUnchecked_fail (sub_ne_zero.2 hy.symm), fail_bind]

/-- Equal points: the honest prover gets `(-2x, -y - 3x·0) = (-2x, -y)`, and any slope is accepted, so
a prover reaches the third intersection point of *any* line through the point. -/
theorem c47_equal_free (p : G2Affine Fp) :
    (affAdd p p).run = some ⟨-(2 * p.X), -p.Y⟩ ∧
    ∀ l : E2 Fp, (affAdd p p).sat ⟨l ^ 2 - 2 * p.X, l * (p.X - (l ^ 2 - 2 * p.X)) - p.Y⟩ := by
  rw [affAdd_eq, sub_self, sub_self]
  constructor
  · have : (Ext2.divUnchecked (0 : E2 Fp) 0).run = some 0 := by simp [Ext2.divUnchecked, tower]
    rw [run_bind, this, Option.bind_some, run_pure, chord]
    congr 2 <;> ring
  · intro l
    refine ⟨l, (Ext2.sat_divUnchecked _ _ _).2 (mul_zero _), ?_⟩
    change (pure (chord l p p) : Circ (G2Affine Fp)).sat _
    rw [sat_pure, chord]
    congr 1 <;> ring

/-- ... in particular neither result is forced nor correct: for a curve point whose double is finite,
the honest result is not `2P`, and some prover does reach `2P`. -/
theorem c47_equal_wrong (hP : Pt P p.X p.Y) (h2 : P + P ≠ 0) :
    (∀ r, (affAdd p p).run = some r → ¬ Pt (P + P) r.X r.Y) ∧
    ∃ r, (affAdd p p).sat r ∧ Pt (P + P) r.X r.Y := by
  have hy := hP.two_y_ne h2
  have hd := Pt.double hP hy (l := 3 * p.X ^ 2 / (2 * p.Y)) (div_mul_cancel₀ _ hy)
  constructor
  · intro r hr h
    rw [(c47_equal_free p).1] at hr
    obtain rfl := Option.some.inj hr
    have e := (h.unique hd).1
    have hl : 3 * p.X ^ 2 / (2 * p.Y) = 0 := by
      have : (3 * p.X ^ 2 / (2 * p.Y)) ^ 2 = 0 := by
        have e' : -(2 * p.X) = (3 * p.X ^ 2 / (2 * p.Y)) ^ 2 - p.X - p.X := e
        linear_combination -e'
      exact pow_eq_zero_iff (two_ne_zero) |>.1 this
    rcases div_eq_zero_iff.1 hl with h | h
    · rcases mul_eq_zero.1 h with h | h
      · exact three_ne_E2 h
      · exact twist_x_ne hP (pow_eq_zero_iff two_ne_zero |>.1 h)
    · exact hy h
  · refine ⟨_, (c47_equal_free p).2 (3 * p.X ^ 2 / (2 * p.Y)), hd.congr ?_ ?_⟩ <;> ring

/-- Doubling a point with `y ≠ 0`: the double, for every prover. -/
theorem c47_double (hP : Pt P p.X p.Y) (hy : p.Y ≠ 0) :
    ∃ r, affDouble p = pure r ∧ Pt (P + P) r.X r.Y := by
  refine affDouble_sound hP ?_
  intro e
  have hN : P = -P := eq_neg_of_add_eq_zero_left e
  have h1 : Pt P p.X (-p.Y) := by rw [hN]; exact hP.neg
  have h2 := (hP.unique h1).2
  have h3 : 2 * p.Y = 0 := by linear_combination h2
  exact (mul_ne_zero two_ne_E2 hy) h3

/-- Doubling with `y = 0`, `x ≠ 0`: unsatisfiable. -/
theorem c47_double_unsat (hx : p.X ≠ 0) (hy : p.Y = 0) : affDouble p = fail := by
  rw [affDouble_eq, hy, mul_zero, Ext2.divUnchecked_fail (mul_ne_zero three_ne_E2 (pow_ne_zero 2 hx)),
    fail_bind]

/-- Doubling the placeholder `(0, 0)`: any slope is accepted. -/
theorem c47_double_placeholder (l : E2 Fp) : (affDouble ⟨0, 0⟩).sat ⟨l ^ 2, -l ^ 3⟩ := by
  rw [affDouble_eq]
  refine ⟨l, (Ext2.sat_divUnchecked _ _ _).2 (by simp), ?_⟩
  change (pure (tangent l ⟨0, 0⟩) : Circ (G2Affine Fp)).sat _
  rw [sat_pure, tangent]
  congr 1 <;> ring

/-- non-vacuity: the generator and its double -/
example : ∃ (p q : G2Affine Fp) (P A : ETwist Fp), Pt P p.X p.Y ∧ Pt A q.X q.Y ∧ p.X ≠ q.X ∧
    p.Y ≠ 0 ∧ P + P ≠ 0 := by
  have h0 : Pt G2gen (NC.e2 Pairing.genN.1) (NC.e2 Pairing.genN.2) := ⟨_, rfl⟩
  have hy : NC.e2 Pairing.genN.2 ≠ 0 := NC.e2_nz (by decide +kernel)
  obtain ⟨r, -, hr⟩ := c47_double (p := ⟨_, _⟩) h0 hy
  refine ⟨⟨_, _⟩, r, G2gen, _, h0, hr, ?_, hy, generic_gen.facts.2.1⟩
  refine Pt.x_ne h0 hr ?_ ?_
  · intro e
    exact G2gen_ne (by simpa using e)
  · intro e
    exact generic_gen.small 3 (by omega) (by decide +kernel) (by rw [← e]; abel)

/-! ## C48: ψ -/

/-- There is an additive endomorphism `ψ` of the twist - the `p`-power Frobenius of `E(Fp12)` carried
through the untwisting isomorphism - that both variants compute, and
`ψ(ψ(x, y)) = (c·x, -y)` for the cube root of unity `c` of the cofactor clearing. -/
theorem c48_psi : ∃ ψ : ETwist Fp →+ ETwist Fp, IsPsi ψ ∧ Function.Injective ψ ∧
    (∀ (P : ETwist Fp) (p : G2Affine Fp), Pt P p.X p.Y → Pt (ψ P) (affPsi p).X (affPsi p).Y) ∧
    (∀ (P : ETwist Fp) (p : G2Jacobian Fp), JacOf P p.X p.Y p.Z →
      JacOf (ψ P) (jacPsi p).X (jacPsi p).Y (jacPsi p).Z) ∧
    (∀ (P : ETwist Fp) (x y : E2 Fp), Pt P x y → Pt (ψ (ψ P)) (E2.of thirdRootOneG1 * x) (-y)) ∧
    thirdRootOneG1 ^ 3 = 1 ∧ thirdRootOneG1 ≠ 1 :=
  ⟨psiHom, isPsi_psiHom, psiHom_injective, fun _ _ h => affPsi_rep h, fun _ _ h => jacPsi_rep h,
    fun _ _ _ h => psiHom_sq_pt h, thirdRoot_cube, thirdRoot_ne⟩

/-- `IsPsi` determines `ψ`, so "the" `ψ` of the statements below is the one of `c48_psi`. -/
theorem c48_unique {f g : ETwist Fp →+ ETwist Fp} (hf : IsPsi f) (hg : IsPsi g) : f = g := by
  ext1 Q
  exact twistHom_injective _ _ _ ((hf Q).trans (hg Q).symm)

/-- non-vacuity: on the standard generator `ψ` is multiplication by the seed -/
example : ∃ ψ : ETwist Fp →+ ETwist Fp, IsPsi ψ ∧ ψ G2gen = seed • G2gen ∧ ψ G2gen ≠ 0 :=
  ⟨psiHom, isPsi_psiHom, psi_gen, by
    rw [Ne, map_eq_zero_iff _ psiHom_injective]; exact G2gen_ne⟩

/-! ## C49: cofactor clearing -/

/-- `[x² - x - 1]P + [x - 1]ψ(P) + ψ²(2P)` (Budroni-Pintore, ePrint 2017/419, 4.1) -/
noncomputable def budroniPintore (ψ : ETwist Fp →+ ETwist Fp) (P : ETwist Fp) : ETwist Fp :=
  (seed ^ 2 - seed - 1) • P + (seed - 1) • ψ P + ψ (ψ (2 • P))

/-- `ClearCofactor` evaluates the formula on every point, infinity included (honest prover). -/
theorem c49_jacobian {p : G2Jacobian Fp} {ψ : ETwist Fp →+ ETwist Fp} (hψ : IsPsi ψ)
    (hP : JacOf P p.X p.Y p.Z) :
    ∃ r, (clearCofactorJac p).run = some r ∧ JacOf (budroniPintore ψ P) r.X r.Y r.Z := by
  obtain rfl := c48_unique hψ isPsi_psiHom
  exact clearCofactorJac_honest hP

/-- The affine variant is defined at `P`: no intermediate point is infinity and the two operands of
each of its additions are neither equal nor opposite. -/
structure AffineDefined (ψ : ETwist Fp →+ ETwist Fp) (P : ETwist Fp) : Prop where
  double : P + P ≠ 0
  xg : seed • P ≠ 0
  xxg : seed • seed • P ≠ 0
  sub1 : seed • seed • P ≠ seed • P ∧ seed • seed • P ≠ -(seed • P)
  sub2 : seed • seed • P - seed • P ≠ P ∧ seed • seed • P - seed • P ≠ -P
  sub3 : seed • P ≠ P ∧ seed • P ≠ -P
  add4 : (seed ^ 2 - seed - 1) • P ≠ (seed - 1) • ψ P ∧
    (seed ^ 2 - seed - 1) • P ≠ -((seed - 1) • ψ P)
  sub5 : (seed ^ 2 - seed - 1) • P + (seed - 1) • ψ P ≠ ψ (ψ (2 • P)) ∧
    (seed ^ 2 - seed - 1) • P + (seed - 1) • ψ P ≠ -ψ (ψ (2 • P))

theorem AffineDefined.affOk (h : AffineDefined psiHom P) : AffOk P :=
  ⟨h.double, h.xg, h.xxg, h.sub1.2, h.sub1.1, h.sub2.1, h.sub2.2, h.sub3.1, h.sub3.2, h.add4.1,
    h.add4.2, h.sub5.1, h.sub5.2⟩

theorem affineDefined_of (h : AffOk P) : AffineDefined psiHom P :=
  ⟨h.f2, h.f3, h.f4, ⟨h.f8, h.f7⟩, ⟨h.f10, h.f11⟩, ⟨h.f12, h.f13⟩, ⟨h.ne1, h.ne2⟩, ⟨h.ne3, h.ne4⟩⟩

/-- Wherever it is defined `G2ClearCofactor` evaluates the formula too (honest prover); so the two
variants agree. -/
theorem c49_affine {p : G2Affine Fp} {ψ : ETwist Fp →+ ETwist Fp} (hψ : IsPsi ψ)
    (hP : Pt P p.X p.Y) (hd : AffineDefined ψ P) :
    ∃ r, (clearCofactorAff p).run = some r ∧ Pt (budroniPintore ψ P) r.X r.Y := by
  obtain rfl := c48_unique hψ isPsi_psiHom
  exact clearCofactorAff_honest hP hd.affOk

/-- If moreover no small multiple of `P` is infinity, both variants are forced to the formula for
every prover. -/
theorem c49_sound {p : G2Affine Fp} {j : G2Jacobian Fp} {ψ : ETwist Fp →+ ETwist Fp}
    (hψ : IsPsi ψ) (hP : Pt P p.X p.Y) (hJ : JacOf P j.X j.Y j.Z) (hd : AffineDefined ψ P)
    (small : ∀ m : ℕ, 0 < m → (m : ℤ) ≤ seed ^ 2 - seed + 1 → m • P ≠ 0) :
    (∃ r, clearCofactorAff p = pure r ∧ Pt (budroniPintore ψ P) r.X r.Y) ∧
    (∃ r, clearCofactorJac j = pure r ∧ JacOf (budroniPintore ψ P) r.X r.Y r.Z) := by
  obtain rfl := c48_unique hψ isPsi_psiHom
  have hg : Generic P := by
    refine ⟨fun m hm hle => small m hm ?_, hd.add4.1, hd.add4.2, hd.sub5.1, hd.sub5.2⟩
    have : ((absSeed ^ 2 + absSeed + 1 : ℕ) : ℤ) = seed ^ 2 - seed + 1 := by decide +kernel
    rw [← this]
    exact_mod_cast hle
  exact ⟨clearCofactorAff_sound hP hg, clearCofactorJac_sound hJ hg⟩

theorem bp_eigen {G : Type} [AddCommGroup G] (f : G →+ G) (s : ℤ) (P : G) (h : f P = s • P) :
    (s ^ 2 - s - 1) • P + (s - 1) • f P + f (f (2 • P)) = (4 * s ^ 2 - 2 * s - 1) • P := by
  rw [map_nsmul, map_nsmul, h, map_zsmul, h, ← natCast_zsmul, ← mul_zsmul', ← mul_zsmul',
    ← mul_zsmul', ← add_zsmul, ← add_zsmul]
  congr 1
  push_cast
  ring

/-- Every non-zero point of the prime-order subgroup G2 (where `ψ` is multiplication by the seed) is in
general position. -/
theorem c49_subgroup {p : G2Affine Fp} {j : G2Jacobian Fp} {ψ : ETwist Fp →+ ETwist Fp}
    (hψ : IsPsi ψ) (hP : Pt P p.X p.Y) (hJ : JacOf P j.X j.Y j.Z) (hr : rOrder • P = 0)
    (hs : ψ P = seed • P) :
    (∃ r, clearCofactorAff p = pure r ∧ Pt ((4 * seed ^ 2 - 2 * seed - 1) • P) r.X r.Y) ∧
    (∃ r, clearCofactorJac j = pure r ∧ JacOf ((4 * seed ^ 2 - 2 * seed - 1) • P) r.X r.Y r.Z) := by
  obtain rfl := c48_unique hψ isPsi_psiHom
  have hg := generic_of_subgroup hr hP.ne_zero hs
  have e : bp P = (4 * seed ^ 2 - 2 * seed - 1) • P := bp_eigen psiHom seed P hs
  rw [← e]
  exact ⟨clearCofactorAff_sound hP hg, clearCofactorJac_sound hJ hg⟩

/-- On the placeholder `(0, 0)` for infinity the honest affine variant is unsatisfiable (while the
Jacobian one returns infinity, `c49_jacobian` with `P = 0`). -/
theorem c49_affine_infinity : (clearCofactorAff ⟨0, 0⟩).run = none := by
  obtain ⟨r, e, hr⟩ := constScalarMul_honest (P := 0) (a := ⟨1, 1, 0⟩) .zero
  have hz : (jacNeg r).Z = 0 := by
    have : r.Z = 0 := (JacOf.Z_eq_zero_iff hr).2 (nsmul_zero _)
    simpa [jacNeg] using this
  obtain ⟨r2, e2, -⟩ := constScalarMul_honest (P := 0) (a := jacNeg r) (Or.inl ⟨rfl, hz⟩)
  rw [clearCofactorAff, run_bind, jacFromAff_zero_run, Option.bind_some, run_bind, e,
    Option.bind_some, run_bind, e2, Option.bind_some, run_bind, c46_infinity_unsat _ hz]
  exact Option.bind_none _

/-- non-vacuity: the standard generator -/
example : ∃ (p : G2Affine Fp) (j : G2Jacobian Fp), Pt G2gen p.X p.Y ∧ JacOf G2gen j.X j.Y j.Z ∧
    AffineDefined psiHom G2gen ∧ rOrder • G2gen = 0 ∧ psiHom G2gen = seed • G2gen ∧
    ∀ m : ℕ, 0 < m → (m : ℤ) ≤ seed ^ 2 - seed + 1 → m • G2gen ≠ 0 := by
  have hg := generic_gen
  refine ⟨⟨NC.e2 Pairing.genN.1, NC.e2 Pairing.genN.2⟩, ⟨NC.e2 Pairing.genN.1, NC.e2 Pairing.genN.2, 1⟩,
    ⟨_, rfl⟩, .mk ⟨_, rfl⟩ one_ne_zero (by simp) (by simp), affineDefined_of hg.affOk, G2gen_order,
    psi_gen, fun m hm hle => hg.small m hm ?_⟩
  have : ((absSeed ^ 2 + absSeed + 1 : ℕ) : ℤ) = seed ^ 2 - seed + 1 := by decide +kernel
  rw [← this] at hle
  exact_mod_cast hle

end Spark.CurveProps
