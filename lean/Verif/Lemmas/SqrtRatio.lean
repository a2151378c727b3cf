import Verif.Lemmas.HashExp
import Verif.Lemmas.Isogeny
import Verif.Math.Card
import Mathlib.FieldTheory.Finite.Basic

/-! `g2SqrtRatio`. -/

namespace Spark.G2
set_option maxRecDepth 100000
set_option exponentiation.threshold 10000

open NC Circ

theorem card_E2 : Nat.card (E2 Fp) = fpOrder ^ 2 := by
  rw [Nat.card_congr (E2.equiv Fp), Nat.card_prod]
  have : Nat.card Fp = fpOrder := Nat.card_zmod fpOrder
  rw [this]; ring

/-- Euler's criterion in `Fp2` -/
theorem isSquare_iff {a : E2 Fp} (ha : a ≠ 0) : IsSquare a ↔ a ^ ((fpOrder ^ 2 - 1) / 2) = 1 := by
  have : Fintype (E2 Fp) := Fintype.ofFinite _
  have hc : ringChar (E2 Fp) = fpOrder := ringChar.eq (E2 Fp) fpOrder
  have h2 : ringChar (E2 Fp) ≠ 2 := by rw [hc]; exact fpOrder_ne_two
  rw [FiniteField.isSquare_iff h2 ha, ← Nat.card_eq_fintype_card, card_E2]
  rw [show fpOrder ^ 2 / 2 = (fpOrder ^ 2 - 1) / 2 by decide +kernel]

/-- `(p²-1)/8` -/
irreducible_def c2 : ℕ := (fpOrder ^ 2 - 1) / 8
/-- `(c2-1)/2` -/
irreducible_def c3 : ℕ := (c2 - 1) / 2

theorem c2_eq : c2 = 2 * c3 + 1 := by rw [c3_def, c2_def]; decide +kernel
theorem c2_four : c2 * 4 = (fpOrder ^ 2 - 1) / 2 := by rw [c2_def]; decide +kernel
theorem c2_eight : c2 * 8 = fpOrder ^ 2 - 1 := by rw [c2_def]; decide +kernel

theorem sqrtC3_val : setBytes sqrtC3Bytes = ((c3 : ℕ) : ℤ) := by
  rw [setBytes, c3_def, c2_def]
  exact congrArg _ (by decide +kernel)

theorem c2_pow_eight {a : E2 Fp} (ha : a ≠ 0) : (a ^ c2) ^ 8 = 1 := by
  rw [← pow_mul, c2_eight, E2.pow_card_sub_one ha]

theorem c2_pow_four {a : E2 Fp} (ha : a ≠ 0) : (a ^ c2) ^ 4 = 1 ↔ IsSquare a := by
  rw [← pow_mul, c2_four, isSquare_iff ha]

theorem c2_pow_four_neg {a : E2 Fp} (ha : a ≠ 0) (h : ¬ IsSquare a) : (a ^ c2) ^ 4 = -1 := by
  have h8 := c2_pow_eight ha
  have h4 := mt (c2_pow_four ha).1 h
  have : ((a ^ c2) ^ 4 - 1) * ((a ^ c2) ^ 4 + 1) = 0 := by linear_combination h8
  rcases mul_eq_zero.1 this with e | e
  · exact absurd (sub_eq_zero.1 e) h4
  · exact eq_neg_of_add_eq_zero_left e

theorem tv4Z_eq : tv4Z = Rfc.Z := by
  rw [tv4Z_val, Rfc.Z, e2_lit]
  have h := cast_p
  ext
  · simp; linear_combination h
  · simp; linear_combination h

theorem sswuA_eq : sswuIsoCurveCoeffA = Rfc.isoA := by
  rw [sswuIsoCurveCoeffA_val, Rfc.isoA, e2_lit]; simp
theorem sswuB_eq : sswuIsoCurveCoeffB = Rfc.isoB := by
  rw [sswuIsoCurveCoeffB_val, Rfc.isoB, e2_lit]; simp

theorem sqrtTv1_four : sqrtTv1 ^ 4 = -1 := by
  rw [sqrtTv1_val]
  have h : e2 (1, 0) = 1 := by rfl
  rw [← h, ← e2_neg, show ∀ a : E2 Fp, a ^ 4 = (a * a) * (a * a) by intro a; ring]
  rw [← e2_mul, ← e2_mul]
  exact congrArg e2 (by decide +kernel)

theorem sqrtC7_sq : sqrtC7 * sqrtC7 = Rfc.Z * sqrtTv1 := by
  rw [← tv4Z_eq, sqrtC7_val, sqrtTv1_val, tv4Z_val, ← e2_mul, ← e2_mul]
  exact congrArg e2 (by decide +kernel)

theorem Z_ne : Rfc.Z ≠ 0 := by
  rw [← tv4Z_eq, tv4Z_val]; exact e2_nz (by decide +kernel)
theorem isoA_ne : Rfc.isoA ≠ 0 := by
  rw [← sswuA_eq, sswuIsoCurveCoeffA_val]; exact e2_nz (by decide +kernel)
theorem isoB_ne : Rfc.isoB ≠ 0 := by
  rw [← sswuB_eq, sswuIsoCurveCoeffB_val]; exact e2_nz (by decide +kernel)

theorem Z_euler : Rfc.Z ^ ((fpOrder ^ 2 - 1) / 2) = -1 := by
  have h : e2 (1, 0) = 1 := by rfl
  rw [← tv4Z_eq, tv4Z_val, ← h, ← e2_neg]
  exact E2.pow_eval _ _ (by decide +kernel) _ (by decide +kernel)

theorem neg_one_ne : (-1 : E2 Fp) ≠ 1 := by
  intro h
  refine two_ne ?_
  linear_combination -h

theorem Z_not_sq : ¬ IsSquare Rfc.Z := by
  rw [isSquare_iff Z_ne, Z_euler]
  exact neg_one_ne

/-! ### the gadget -/

/-- the state after the selection with flag `f`: `(tv3, tv4)` multiplied by `(a, b)` if `f` -/
def adj (f : Bool) (s : E2 Fp × E2 Fp) (a b : E2 Fp) : E2 Fp × E2 Fp :=
  if f then (s.1 * a, s.2 * b) else s

theorem e2Exp_four (x : E2 Fp) : e2Exp x (setBytes [4]) = pure (x ^ 4, 4) := e2Exp_nat x 4
theorem e2Exp_seven (x : E2 Fp) : e2Exp x (setBytes [7]) = pure (x ^ 7, 7) := e2Exp_nat x 7
theorem e2Exp_c3 (x : E2 Fp) : e2Exp x (setBytes sqrtC3Bytes) = pure (x ^ c3, (c3 : ℤ)) := by
  rw [sqrtC3_val]; exact e2Exp_nat x c3
theorem e2Exp_two (x : E2 Fp) : e2Exp x 2 = pure (x ^ 2, 2) := e2Exp_nat x 2
theorem e2Exp_one (x : E2 Fp) : e2Exp x 1 = pure (x ^ 1, 1) := e2Exp_nat x 1

theorem bind_congr_sat {α β : Type} {t : Circ α} {f g : α → Circ β}
    (h' : ∀ b, t.sat b → f b = g b) : (t >>= f) = (t >>= g) := by
  refine ext' ?_ fun a => ?_
  · rw [run_bind, run_bind]
    rcases ht' : t.run with _ | b
    · rfl
    · simp only [Option.bind_some]; rw [h' b (t.ok _ ht')]
  · simp only [sat_bind]
    constructor <;>
    · rintro ⟨b, hb, h3⟩
      refine ⟨b, hb, ?_⟩
      have := h' b hb
      first | rwa [← this] | rwa [this]

/-- a circuit returning a bit -/
theorem bind_bit_congr {α : Type} {t : Circ Fr} (ht : ∀ b, t.sat b → b = 0 ∨ b = 1)
    {f g : Fr → Circ α} (h : ∀ b : Bool, f (bit b) = g (bit b)) : (t >>= f) = (t >>= g) := by
  refine bind_congr_sat fun b hb => ?_
  rcases ht b hb with rfl | rfl
  · exact h false
  · exact h true

theorem Test.bits {t : Circ Fr} {P : Prop} (h : Test t P) : ∀ b, t.sat b → b = 0 ∨ b = 1 := by
  intro b hb
  rcases h.sat b hb with e | e
  · exact Or.inr e
  · exact Or.inl e.1

/-- the Boolean of a bit variable -/
def unbit (b : Fr) : Bool := decide (b = 1)
@[simp] theorem unbit_bit (b : Bool) : unbit (bit b) = b := by
  cases b <;> simp [unbit]
@[simp] theorem unbit_one : unbit 1 = true := by simp [unbit]
@[simp] theorem unbit_zero : unbit 0 = false := by simp [unbit]

/-- `(tv3, tv4)` before the flag is computed -/
def sqrtInit (u v : E2 Fp) : E2 Fp × E2 Fp :=
  ((u * v ^ 15) ^ c3 * v ^ 7 * u, (u * v ^ 15) ^ c2)

/-- the part of `g2SqrtRatio` after the exponentiations, for arbitrary constants -/
def sqrtTail (c t : E2 Fp) (s : E2 Fp × E2 Fp) : Circ (E2 Fp × Fr) := do
  let isQNr ← e2NotOne (s.2 ^ 4)
  let tv2 := Ext2.mul s.1 c
  let tv5 := Ext2.mul s.2 t
  let tv3 ← Ext2.select isQNr tv2 s.1
  let tv4 ← Ext2.select isQNr tv5 s.2
  let s ← [3, 2].foldlM sqrtStep ⟨t, tv3, tv4, 2⟩
  pure (s.tv3, isQNr)

theorem g2SqrtRatio_tail (u v : E2 Fp) :
    g2SqrtRatio u v = sqrtTail sqrtC7 sqrtTv1 (sqrtInit u v) := by
  have e1 : u * (v ^ 7 * v ^ 7 * v) = u * v ^ 15 := by ring
  have e2' : (u * v ^ 15) ^ c3 * v ^ 7 * u * ((u * v ^ 15) ^ c3 * v ^ 7 * v) = (u * v ^ 15) ^ c2 := by
    rw [c2_eq]; ring
  rw [g2SqrtRatio, e2Exp_seven, pure_bind]
  dsimp only
  rw [Ext2.square_eq, Ext2.mul_eq, Ext2.mul_eq, e1, e2Exp_c3, pure_bind]
  dsimp only
  rw [Ext2.mul_eq, Ext2.mul_eq, Ext2.mul_eq, Ext2.mul_eq, e2', e2Exp_four, pure_bind]
  rw [sqrtTail, sqrtInit]

theorem select1 (f : Bool) (s : E2 Fp × E2 Fp) (a b : E2 Fp) :
    Ext2.select (bit f) (Ext2.mul s.1 a) s.1 = pure (adj f s a b).1 := by
  rw [Ext2.select_eq, Ext2.mul_eq]
  cases f <;> rfl
theorem select2 (f : Bool) (s : E2 Fp × E2 Fp) (a b : E2 Fp) :
    Ext2.select (bit f) (Ext2.mul s.2 b) s.2 = pure (adj f s a b).2 := by
  rw [Ext2.select_eq, Ext2.mul_eq]
  cases f <;> rfl

theorem sqrtStep_eq (t : E2 Fp) (s : E2 Fp × E2 Fp) (e i : ℕ) :
    sqrtStep ⟨t, s.1, s.2, e⟩ i = (e2NotOne (s.2 ^ e) >>= fun f =>
      let s := adj (unbit f) s t (t ^ 2)
      pure ⟨t ^ 2, s.1, s.2, if i > 2 then (e : ℤ) / 2 else e⟩) := by
  rw [sqrtStep]
  dsimp only
  rw [e2Exp_nat, pure_bind]
  dsimp only
  refine bind_bit_congr (e2NotOne_test _).bits fun f => ?_
  rw [Ext2.mul_eq t t, ← pow_two, select1 f s t (t ^ 2), pure_bind, select2 f s t (t ^ 2), pure_bind,
    unbit_bit]

theorem sqrtTail_eq (c t : E2 Fp) (s : E2 Fp × E2 Fp) :
    sqrtTail c t s = (do
      let f1 ← e2NotOne (s.2 ^ 4)
      let s := adj (unbit f1) s c t
      let f2 ← e2NotOne (s.2 ^ 2)
      let s := adj (unbit f2) s t (t ^ 2)
      let f3 ← e2NotOne (s.2 ^ 1)
      let s := adj (unbit f3) s (t ^ 2) (t ^ 4)
      pure (s.1, f1)) := by
  rw [sqrtTail]
  refine bind_bit_congr (e2NotOne_test _).bits fun f1 => ?_
  dsimp only
  rw [select1 f1 s c t, pure_bind, select2 f1 s c t, pure_bind, unbit_bit]
  generalize adj f1 s c t = s1
  simp only [List.foldlM_cons, List.foldlM_nil]
  have h1 := sqrtStep_eq t s1 2 3
  rw [Nat.cast_ofNat] at h1
  rw [h1]
  simp only [bind_assoc, pure_bind]
  refine bind_bit_congr (e2NotOne_test _).bits fun f2 => ?_
  rw [unbit_bit]
  generalize adj f2 s1 t (t ^ 2) = s2
  rw [show (if 3 > 2 then (2 : ℤ) / 2 else 2) = ((1 : ℕ) : ℤ) by decide]
  rw [sqrtStep_eq, bind_assoc]
  refine bind_bit_congr (e2NotOne_test _).bits fun f3 => ?_
  dsimp only
  rw [pure_bind, ← pow_mul]

theorem g2SqrtRatio_eq (u v : E2 Fp) :
    g2SqrtRatio u v = (do
      let f1 ← e2NotOne ((sqrtInit u v).2 ^ 4)
      let s := adj (unbit f1) (sqrtInit u v) sqrtC7 sqrtTv1
      let f2 ← e2NotOne (s.2 ^ 2)
      let s := adj (unbit f2) s sqrtTv1 (sqrtTv1 ^ 2)
      let f3 ← e2NotOne (s.2 ^ 1)
      let s := adj (unbit f3) s (sqrtTv1 ^ 2) (sqrtTv1 ^ 4)
      pure (s.1, f1)) :=
  (g2SqrtRatio_tail u v).trans (sqrtTail_eq _ _ _)

/-- `z²·v = U·tv4` -/
def SqrtInv (v U : E2 Fp) (s : E2 Fp × E2 Fp) : Prop := s.1 ^ 2 * v = U * s.2

theorem sqrtInit_inv (u v : E2 Fp) : SqrtInv v u (sqrtInit u v) := by
  simp only [SqrtInv, sqrtInit]
  rw [c2_eq]; ring

/-- `Z·u` if the flag is set, `u` otherwise -/
def target (f : Bool) (u : E2 Fp) : E2 Fp := if f then Rfc.Z * u else u

theorem adj1_inv {u v : E2 Fp} {s : E2 Fp × E2 Fp} (h : SqrtInv v u s) (f : Bool) :
    SqrtInv v (target f u) (adj f s sqrtC7 sqrtTv1) := by
  cases f
  · exact h
  · simp only [SqrtInv, adj, target, if_true] at *
    have := sqrtC7_sq
    linear_combination sqrtC7 ^ 2 * h + u * s.2 * this

theorem adj2_inv {U v : E2 Fp} {s : E2 Fp × E2 Fp} (h : SqrtInv v U s) (f : Bool) (t : E2 Fp) :
    SqrtInv v U (adj f s t (t ^ 2)) := by
  cases f
  · exact h
  · simp only [SqrtInv, adj, if_true] at *
    linear_combination t ^ 2 * h

/-- `w^c2` with `w = u·v^15` -/
theorem w_ne {u v : E2 Fp} (hu : u ≠ 0) (hv : v ≠ 0) : u * v ^ 15 ≠ 0 :=
  mul_ne_zero hu (pow_ne_zero _ hv)

theorem w_square {u v : E2 Fp} (hv : v ≠ 0) : IsSquare (u * v ^ 15) ↔ IsSquare (u / v) := by
  constructor
  · rintro ⟨s, hs⟩
    refine ⟨s / v ^ 8, ?_⟩
    field_simp
    linear_combination hs
  · rintro ⟨s, hs⟩
    refine ⟨s * v ^ 8, ?_⟩
    field_simp at hs
    rw [hs]; ring

/-- the sequence of states in an assignment with flags `f1, f2, f3` -/
structure SqrtTrace (u v : E2 Fp) (f1 f2 f3 : Bool) (z : E2 Fp) : Prop where
  h1 : (sqrtInit u v).2 ^ 4 ≠ 1 → f1 = true
  h2 : (adj f1 (sqrtInit u v) sqrtC7 sqrtTv1).2 ^ 2 ≠ 1 → f2 = true
  h3 : (adj f2 (adj f1 (sqrtInit u v) sqrtC7 sqrtTv1) sqrtTv1 (sqrtTv1 ^ 2)).2 ^ 1 ≠ 1 → f3 = true
  hz : z = (adj f3 (adj f2 (adj f1 (sqrtInit u v) sqrtC7 sqrtTv1) sqrtTv1 (sqrtTv1 ^ 2))
    (sqrtTv1 ^ 2) (sqrtTv1 ^ 4)).1

theorem notOne_sat {x : E2 Fp} {b : Fr} (h : (e2NotOne x).sat b) : ∃ f, b = bit f ∧ (x ≠ 1 → f = true) := by
  rcases (e2NotOne_test x).sat b h with e | ⟨e, e'⟩
  · exact ⟨true, e, fun _ => rfl⟩
  · exact ⟨false, e, fun h => absurd h e'⟩

theorem notOne_sat_iff {x : E2 Fp} {f : Bool} : (e2NotOne x).sat (bit f) ↔ (x ≠ 1 → f = true) := by
  constructor
  · intro h
    obtain ⟨f', e, h'⟩ := notOne_sat h
    obtain rfl := bit_injective e
    exact h'
  · intro h
    by_cases hx : x = 1
    · cases f
      · have := (e2NotOne x).ok _ ((e2NotOne_test x).run_false (not_not.2 hx))
        exact this
      · rw [hx]; exact e2NotOne_cheat
    · rw [h hx]
      exact (e2NotOne x).ok _ ((e2NotOne_test x).run_true hx)

theorem g2SqrtRatio_sat (u v z : E2 Fp) (b : Fr) :
    (g2SqrtRatio u v).sat (z, b) ↔ ∃ f1 f2 f3, b = bit f1 ∧ SqrtTrace u v f1 f2 f3 z := by
  rw [g2SqrtRatio_eq]
  simp only [sat_bind, sat_pure, Prod.mk.injEq]
  constructor
  · rintro ⟨b1, hb1, b2, hb2, b3, hb3, hz, rfl⟩
    obtain ⟨f1, rfl, h1⟩ := notOne_sat hb1
    obtain ⟨f2, rfl, h2⟩ := notOne_sat hb2
    obtain ⟨f3, rfl, h3⟩ := notOne_sat hb3
    simp only [unbit_bit] at *
    exact ⟨f1, f2, f3, rfl, h1, h2, h3, hz⟩
  · rintro ⟨f1, f2, f3, rfl, h1, h2, h3, hz⟩
    refine ⟨bit f1, notOne_sat_iff.2 h1, bit f2, ?_, bit f3, ?_, ?_, rfl⟩
    · rw [unbit_bit]; exact notOne_sat_iff.2 h2
    · rw [unbit_bit, unbit_bit]; exact notOne_sat_iff.2 h3
    · rw [unbit_bit, unbit_bit, unbit_bit]; exact hz

open Classical in
theorem g2SqrtRatio_run (u v : E2 Fp) : ∃ f1 f2 f3 z,
    (g2SqrtRatio u v).run = some (z, bit f1) ∧ SqrtTrace u v f1 f2 f3 z ∧
    (f1 = true → (sqrtInit u v).2 ^ 4 ≠ 1) ∧
    (f2 = true → (adj f1 (sqrtInit u v) sqrtC7 sqrtTv1).2 ^ 2 ≠ 1) ∧
    (f3 = true → (adj f2 (adj f1 (sqrtInit u v) sqrtC7 sqrtTv1) sqrtTv1 (sqrtTv1 ^ 2)).2 ^ 1 ≠ 1) := by
  rw [g2SqrtRatio_eq]
  simp only [run_bind, (e2NotOne_test _).run_eq, Option.bind_some, unbit_bit, run_pure]
  refine ⟨_, _, _, _, rfl, ⟨?_, ?_, ?_, rfl⟩, ?_, ?_, ?_⟩ <;> simp

end Spark.G2
