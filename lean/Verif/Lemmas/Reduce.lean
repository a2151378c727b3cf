import Verif.Model.G2
import Verif.Lemmas.Tower

/-! Facts about `Reduce` and the zero/equality tests of g2.go. -/

namespace Spark.G2

open Circ

theorem fpReduce_run (x : Fp) : (fpReduce x).run = some x.val := by
  have h1 : x.val < 2 ^ 381 := lt_trans (ZMod.val_lt x) (by decide +kernel)
  have h2 : (x.val : Fp) = x := ZMod.natCast_zmod_val x
  simp [fpReduce, h1, h2]

theorem fpReduce_sat (x : Fp) (v : ℕ) : (fpReduce x).sat v ↔ v < 2 ^ 381 ∧ (v : Fp) = x := by
  simp only [fpReduce, sat_bind, sat_hint, true_and, sat_assert, sat_pure]
  constructor
  · rintro ⟨w, -, h, rfl⟩; exact h
  · intro h; exact ⟨v, (), h, rfl⟩

/-- the two representatives -/
theorem rep_cases {x : Fp} {v : ℕ} (h : v < 2 ^ 381) (hx : (v : Fp) = x) :
    v = x.val ∨ v = x.val + fpOrder := by
  have h1 : x.val = v % fpOrder := by rw [← hx, ZMod.val_natCast]
  have h2 : v < 2 * fpOrder := lt_trans h (by decide +kernel)
  rw [h1]
  by_cases h3 : v < fpOrder
  · left; exact (Nat.mod_eq_of_lt h3).symm
  · right
    rw [Nat.mod_eq_sub_mod (by omega), Nat.mod_eq_of_lt (by omega)]
    omega

theorem rep_add {x : Fp} : ((x.val + fpOrder : ℕ) : Fp) = x := by
  rw [Nat.cast_add, ZMod.natCast_zmod_val]
  have : ((fpOrder : ℕ) : Fp) = 0 := ZMod.natCast_self _
  rw [this, add_zero]

theorem fpReduce_bind_congr {α : Type} {x : Fp} {f g : ℕ → Circ α}
    (h : ∀ v : ℕ, v < 2 ^ 381 → (v : Fp) = x → f v = g v) : (fpReduce x >>= f) = (fpReduce x >>= g) := by
  refine ext' ?_ fun a => ?_
  · rw [run_bind, run_bind, fpReduce_run, Option.bind_some, Option.bind_some,
      h _ ((fpReduce_sat x _).1 ((fpReduce x).ok _ (fpReduce_run x))).1
        ((fpReduce_sat x _).1 ((fpReduce x).ok _ (fpReduce_run x))).2]
  · simp only [sat_bind, fpReduce_sat]
    constructor <;>
    · rintro ⟨v, ⟨h1, h2⟩, h3⟩
      refine ⟨v, ⟨h1, h2⟩, ?_⟩
      have := h v h1 h2
      first | rwa [← this] | rwa [this]

theorem foldOr (l : List Bool) (b : Bool) :
    (l.map bit).foldlM (fun r c => apiOr r c) (bit b) = pure (bit (b || l.any id)) := by
  induction l generalizing b with
  | nil => simp
  | cons c l ih =>
    rw [List.map_cons, List.foldlM_cons, apiOr_bit, pure_bind, ih]
    simp [Bool.or_assoc]

theorem foldXor (l : List (Bool × Bool)) (b : Bool) :
    (l.map fun c => (bit c.1, bit c.2)).foldlM
      (fun notEqual b => do apiOr notEqual (← apiXor b.1 b.2)) (bit b) =
      pure (bit (b || l.any fun c => c.1 ^^ c.2)) := by
  induction l generalizing b with
  | nil => simp
  | cons c l ih =>
    rw [List.map_cons, List.foldlM_cons, apiXor_bit, pure_bind, apiOr_bit, pure_bind, ih]
    simp [Bool.or_assoc]

theorem any_testBit {v : ℕ} (h : v < 2 ^ 384) :
    ((List.range 384).map fun i => v.testBit i).any id = decide (v ≠ 0) := by
  rw [Bool.eq_iff_iff]
  simp only [List.any_map, List.any_eq_true, List.mem_range, Function.comp, id, decide_eq_true_eq]
  constructor
  · rintro ⟨i, -, hi⟩ rfl
    simp at hi
  · intro hv
    by_contra hc
    push Not at hc
    apply hv
    apply Nat.eq_of_testBit_eq
    intro i
    rw [Nat.zero_testBit]
    by_cases hi : i < 384
    · simpa using hc i hi
    · exact Nat.testBit_lt_two_pow (lt_of_lt_of_le h (Nat.pow_le_pow_right (by norm_num) (by omega)))

theorem any_xor {v w : ℕ} (hv : v < 2 ^ 384) (hw : w < 2 ^ 384) :
    ((List.range 384).map fun i => (v.testBit i, w.testBit i)).any (fun c => c.1 ^^ c.2) =
      decide (v ≠ w) := by
  rw [Bool.eq_iff_iff]
  simp only [List.any_map, List.any_eq_true, List.mem_range, Function.comp, decide_eq_true_eq,
    bne_iff_ne]
  constructor
  · rintro ⟨i, -, hi⟩ rfl
    simp at hi
  · intro hvw
    by_contra hc
    push Not at hc
    apply hvw
    apply Nat.eq_of_testBit_eq
    intro i
    by_cases hi : i < 384
    · exact by simpa using hc i hi
    · rw [Nat.testBit_lt_two_pow (lt_of_lt_of_le hv (Nat.pow_le_pow_right (by norm_num) (by omega))),
        Nat.testBit_lt_two_pow (lt_of_lt_of_le hw (Nat.pow_le_pow_right (by norm_num) (by omega)))]

theorem toBits_or {v : ℕ} (h : v < 2 ^ 384) :
    (toBits v).foldlM (fun isNotZero b => apiOr isNotZero b) 0 = pure (bit (decide (v ≠ 0))) := by
  rw [toBits, bitsOf_toList]
  have := foldOr ((List.range 384).map fun i => v.testBit i) false
  rw [any_testBit h] at this
  simpa using this

theorem notEqualLoop_eq {v w : ℕ} (hv : v < 2 ^ 384) (hw : w < 2 ^ 384) :
    notEqualLoop (toBits v) (toBits w) = pure (bit (decide (v ≠ w))) := by
  have hz : (toBits v).zip (toBits w) =
      ((List.range 384).map fun i => (v.testBit i, w.testBit i)).map fun c => (bit c.1, bit c.2) := by
    rw [toBits, toBits, bitsOf_toList, bitsOf_toList]
    simp only [List.map_map]
    rw [List.zip_map']
    rfl
  have := foldXor ((List.range 384).map fun i => (v.testBit i, w.testBit i)) false
  rw [any_xor hv hw] at this
  rw [notEqualLoop, hz]
  simpa using this

theorem lt384 {v : ℕ} (h : v < 2 ^ 381) : v < 2 ^ 384 :=
  lt_of_lt_of_le h (Nat.pow_le_pow_right (by norm_num) (by norm_num))

theorem g1NotZero_eq (x : Fp) :
    g1NotZero x = (fpReduce x >>= fun v => pure (bit (decide (v ≠ 0)))) := by
  rw [g1NotZero]
  exact fpReduce_bind_congr fun v h _ => toBits_or (lt384 h)

theorem g1NotEqual_eq (x y : Fp) :
    g1NotEqual x y =
      (fpReduce x >>= fun v => fpReduce y >>= fun w => pure (bit (decide (v ≠ w)))) := by
  rw [g1NotEqual]
  refine fpReduce_bind_congr fun v h _ => fpReduce_bind_congr fun w h' _ => ?_
  exact notEqualLoop_eq (lt384 h) (lt384 h')

theorem g1NotEqualOne_eq (x : Fp) :
    g1NotEqualOne x = (fpReduce x >>= fun v => pure (bit (decide (v ≠ 1)))) := by
  rw [g1NotEqualOne]
  exact fpReduce_bind_congr fun v h _ => notEqualLoop_eq (lt384 h) (by norm_num)

/-- A one-sided test of `P`: the honest solver answers correctly, and no prover can answer `0` when
`P` holds (but the prover may be able to answer `1` when it does not). -/
structure Test (t : Circ Fr) (P : Prop) : Prop where
  run_true : P → t.run = some 1
  run_false : ¬ P → t.run = some 0
  sat : ∀ b, t.sat b → b = 1 ∨ (b = 0 ∧ ¬ P)

theorem Test.eq_one {t : Circ Fr} {P : Prop} (h : Test t P) (hP : P) : t = pure 1 := by
  refine exact_iff_pure.1 ⟨h.run_true hP, fun b hb => ?_⟩
  rcases h.sat b hb with e | ⟨-, e⟩
  · exact e
  · exact absurd hP e

theorem Test.run_eq {t : Circ Fr} {P : Prop} [Decidable P] (h : Test t P) :
    t.run = some (bit (decide P)) := by
  by_cases hP : P
  · rw [h.run_true hP]; simp [hP]
  · rw [h.run_false hP]; simp [hP]

theorem or_11 : apiOr (1 : Fr) 1 = pure 1 := by
  simpa using apiOr_bit true true
theorem or_10 : apiOr (1 : Fr) 0 = pure 1 := by
  simpa using apiOr_bit true false
theorem or_01 : apiOr (0 : Fr) 1 = pure 1 := by
  simpa using apiOr_bit false true
theorem or_00 : apiOr (0 : Fr) 0 = pure 0 := by
  simpa using apiOr_bit false false

theorem Test.or {s t : Circ Fr} {P Q : Prop} (hs : Test s P) (ht : Test t Q) :
    Test (s >>= fun a => t >>= fun b => apiOr a b) (P ∨ Q) where
  run_true h := by
    by_cases hP : P
    · by_cases hQ : Q
      · rw [run_bind, hs.run_true hP, Option.bind_some, run_bind, ht.run_true hQ, Option.bind_some,
          or_11]; rfl
      · rw [run_bind, hs.run_true hP, Option.bind_some, run_bind, ht.run_false hQ, Option.bind_some,
          or_10]; rfl
    · have hQ : Q := h.resolve_left hP
      rw [run_bind, hs.run_false hP, Option.bind_some, run_bind, ht.run_true hQ, Option.bind_some,
          or_01]; rfl
  run_false h := by
    push Not at h
    rw [run_bind, hs.run_false h.1, Option.bind_some, run_bind, ht.run_false h.2, Option.bind_some,
          or_00]; rfl
  sat b := by
    rintro ⟨a, ha, c, hc, hb⟩
    change (apiOr a c).sat b at hb
    rcases hs.sat a ha with rfl | ⟨rfl, hP⟩ <;> rcases ht.sat c hc with rfl | ⟨rfl, hQ⟩
    · rw [or_11] at hb; exact Or.inl hb
    · rw [or_10] at hb; exact Or.inl hb
    · rw [or_01] at hb; exact Or.inl hb
    · rw [or_00] at hb; exact Or.inr ⟨hb, by tauto⟩

theorem Test.congr {t : Circ Fr} {P Q : Prop} (h : Test t P) (e : P ↔ Q) : Test t Q := by
  rwa [propext e] at h

theorem g1NotZero_test (x : Fp) : Test (g1NotZero x) (x ≠ 0) := by
  rw [g1NotZero_eq]
  refine ⟨fun h => ?_, fun h => ?_, fun b => ?_⟩
  · rw [run_bind, fpReduce_run, Option.bind_some, run_pure]
    simp [h]
  · rw [run_bind, fpReduce_run, Option.bind_some, run_pure]
    simp [not_not.1 h]
  · rintro ⟨v, hv, rfl⟩
    rw [fpReduce_sat] at hv
    by_cases h0 : v = 0
    · right
      subst h0
      refine ⟨by simp, not_not.2 ?_⟩
      rw [← hv.2, Nat.cast_zero]
    · left; simp [h0]

theorem g1NotEqual_test (x y : Fp) : Test (g1NotEqual x y) (x ≠ y) := by
  rw [g1NotEqual_eq]
  refine ⟨fun h => ?_, fun h => ?_, fun b => ?_⟩
  · rw [run_bind, fpReduce_run, Option.bind_some, run_bind, fpReduce_run, Option.bind_some, run_pure]
    have : x.val ≠ y.val := fun e => h (ZMod.val_injective _ e)
    simp [this]
  · rw [run_bind, fpReduce_run, Option.bind_some, run_bind, fpReduce_run, Option.bind_some, run_pure]
    simp [not_not.1 h]
  · rintro ⟨v, hv, w, hw, rfl⟩
    rw [fpReduce_sat] at hv hw
    by_cases h0 : v = w
    · right
      subst h0
      refine ⟨by simp, not_not.2 ?_⟩
      rw [← hv.2, ← hw.2]
    · left; simp [h0]

theorem g1NotEqualOne_test (x : Fp) : Test (g1NotEqualOne x) (x ≠ 1) := by
  rw [g1NotEqualOne_eq]
  have h1 : (1 : Fp).val = 1 := by decide +kernel
  refine ⟨fun h => ?_, fun h => ?_, fun b => ?_⟩
  · rw [run_bind, fpReduce_run, Option.bind_some, run_pure]
    have : x.val ≠ 1 := fun e => h (ZMod.val_injective _ (e.trans h1.symm))
    simp [this]
  · rw [run_bind, fpReduce_run, Option.bind_some, run_pure]
    simp [not_not.1 h, h1]
  · rintro ⟨v, hv, rfl⟩
    rw [fpReduce_sat] at hv
    by_cases h0 : v = 1
    · right
      subst h0
      refine ⟨by simp, not_not.2 ?_⟩
      rw [← hv.2, Nat.cast_one]
    · left; simp [h0]

theorem e2_ne_iff (x y : E2 Fp) : x ≠ y ↔ x.A0 ≠ y.A0 ∨ x.A1 ≠ y.A1 := by
  rw [← not_and_or, ne_eq, E2.ext_iff]

theorem e2NotZero_test (x : E2 Fp) : Test (e2NotZero x) (x ≠ 0) :=
  ((g1NotZero_test x.A0).or (g1NotZero_test x.A1)).congr (e2_ne_iff x 0).symm

theorem e2NotEqual_test (x y : E2 Fp) : Test (e2NotEqual x y) (x ≠ y) :=
  ((g1NotEqual_test x.A0 y.A0).or (g1NotEqual_test x.A1 y.A1)).congr (e2_ne_iff x y).symm

theorem e2NotOne_test (x : E2 Fp) : Test (e2NotOne x) (x ≠ 1) :=
  ((g1NotEqualOne_test x.A0).or (g1NotZero_test x.A1)).congr (e2_ne_iff x 1).symm

/-! ### what a cheating prover can reach -/

theorem g1NotZero_cheat : (g1NotZero 0).sat 1 := by
  rw [g1NotZero_eq]
  refine ⟨fpOrder, ?_, ?_⟩
  · rw [fpReduce_sat]
    exact ⟨by decide +kernel, ZMod.natCast_self _⟩
  · have : fpOrder ≠ 0 := by decide +kernel
    simp [this]

theorem g1NotEqual_cheat_iff (x : Fp) :
    (g1NotEqual x x).sat 1 ↔ x.val + fpOrder < 2 ^ 381 := by
  rw [g1NotEqual_eq]
  constructor
  · rintro ⟨v, hv, w, hw, h⟩
    rw [fpReduce_sat] at hv hw
    rcases rep_cases hv.1 hv.2 with e | e
    · rcases rep_cases hw.1 hw.2 with e' | e'
      · rw [e, e'] at h; simp at h
      · rw [← e']; exact hw.1
    · rw [← e]; exact hv.1
  · intro h
    refine ⟨x.val, (fpReduce x).ok _ (fpReduce_run x), x.val + fpOrder, ?_, ?_⟩
    · rw [fpReduce_sat]; exact ⟨h, rep_add⟩
    · have : fpOrder ≠ 0 := by decide +kernel
      simp [this]

theorem g1NotEqualOne_cheat : (g1NotEqualOne 1).sat 1 := by
  rw [g1NotEqualOne_eq]
  refine ⟨1 + fpOrder, ?_, ?_⟩
  · rw [fpReduce_sat]
    refine ⟨by decide +kernel, ?_⟩
    have h1 : (1 : Fp).val = 1 := by decide +kernel
    have := rep_add (x := 1)
    rwa [h1] at this
  · have : fpOrder ≠ 0 := by decide +kernel
    simp [this]

open Classical in
theorem Test.sat_run {t : Circ Fr} {P : Prop} (h : Test t P) : t.sat (bit (decide P)) :=
  t.ok _ h.run_eq

theorem Test.or_cheat {s t : Circ Fr} {P Q : Prop} (hs : Test s P) (ht : Test t Q)
    (h : s.sat 1 ∨ t.sat 1) : (s >>= fun a => t >>= fun b => apiOr a b).sat 1 := by
  classical
  rcases h with h | h
  · refine ⟨1, h, _, ht.sat_run, ?_⟩
    change (apiOr 1 (bit (decide Q))).sat 1
    rw [show (1 : Fr) = bit true from rfl, apiOr_bit]; exact rfl
  · refine ⟨_, hs.sat_run, 1, h, ?_⟩
    change (apiOr (bit (decide P)) 1).sat 1
    rw [show (1 : Fr) = bit true from rfl, apiOr_bit, Bool.or_true]; exact rfl

theorem e2NotZero_cheat : (e2NotZero 0).sat 1 :=
  (g1NotZero_test (0 : E2 Fp).A0).or_cheat (g1NotZero_test (0 : E2 Fp).A1) (Or.inl g1NotZero_cheat)

theorem e2NotOne_cheat : (e2NotOne 1).sat 1 :=
  (g1NotEqualOne_test (1 : E2 Fp).A0).or_cheat (g1NotZero_test (1 : E2 Fp).A1)
    (Or.inl g1NotEqualOne_cheat)

theorem e2NotEqual_cheat {x : E2 Fp} (h : x.A0.val + fpOrder < 2 ^ 381 ∨ x.A1.val + fpOrder < 2 ^ 381) :
    (e2NotEqual x x).sat 1 :=
  (g1NotEqual_test x.A0 x.A0).or_cheat (g1NotEqual_test x.A1 x.A1)
    (h.imp (g1NotEqual_cheat_iff _).2 (g1NotEqual_cheat_iff _).2)

theorem e2NotEqual_cheat_zero : (e2NotEqual 0 0).sat 1 :=
  e2NotEqual_cheat (Or.inl (by decide +kernel))

end Spark.G2
