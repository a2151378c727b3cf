import Verif.Lemmas.CircuitBasic
import Verif.Lemmas.PairFacts
import Verif.Spec.Validator

/-! Aggregation of the signers' keys: engine and compiled circuit. -/

namespace Spark.Circuit

open Circ Spec

theorem foldlM_inv {α β : Type} {n : ℕ} (f : Fin n → α) (step : β → α → Circ β) (I : ℕ → β → Prop)
    (h : ∀ (i : Fin n) (b : β), I i b → ∃ b', step b (f i) = pure b' ∧ I (i + 1) b') (b : β) (h0 : I 0 b) :
    ∃ b', (List.ofFn f).foldlM step b = pure b' ∧ I n b' := by
  induction n generalizing b I with
  | zero => exact ⟨b, rfl, h0⟩
  | succ n ih =>
    obtain ⟨b1, e1, h1⟩ := h 0 b h0
    obtain ⟨b2, e2, h2⟩ := ih (fun i => f i.succ) (fun k => I (k + 1))
      (fun i b hb => h i.succ b (by simpa using hb)) b1 (by simpa using h1)
    refine ⟨b2, ?_, h2⟩
    rw [List.ofFn_succ, List.foldlM_cons, e1, pure_bind, e2]

/-! ### one addition -/

theorem add_left_const {p q : G1Var} (h : p.isZeroConst = true) : addG1Points p q = pure q := by
  rw [addG1Points, if_pos h]

theorem add_right_const {p q : G1Var} (h : p.isZeroConst = false) (h' : q.isZeroConst = true) :
    addG1Points p q = pure p := by
  rw [addG1Points, if_neg (by simp [h]), if_pos h']

/-- the chord formula -/
def chord (p q : G1Var) (l : Fp) : G1Var :=
  ⟨l * l - p.X - q.X, l * (p.X - (l * l - p.X - q.X)) - p.Y, false⟩

theorem add_chord {p q : G1Var} (h : p.isZeroConst = false) (h' : q.isZeroConst = false) :
    addG1Points p q = (fpDiv (q.Y - p.Y) (q.X - p.X) >>= fun l => pure (chord p q l)) := by
  rw [addG1Points, if_neg (by simp [h]), if_neg (by simp [h'])]
  simp only [reduceFp_eq, pure_bind, chord]

theorem add_chord_ne {p q : G1Var} (h : p.isZeroConst = false) (h' : q.isZeroConst = false) (hx : q.X ≠ p.X) :
    addG1Points p q = pure (chord p q ((q.Y - p.Y) / (q.X - p.X))) := by
  rw [add_chord h h', fpDiv_ne (sub_ne_zero.2 hx), pure_bind]

theorem add_points {P Q : E1 Fp} {p q : G1Var} (hP : Pt P p.X p.Y) (hQ : Pt Q q.X q.Y)
    (h : p.isZeroConst = false) (h' : q.isZeroConst = false) (h1 : P ≠ Q) (h2 : P ≠ -Q) :
    ∃ s, addG1Points p q = pure s ∧ s.isZeroConst = false ∧ Pt (P + Q) s.X s.Y := by
  have hx : p.X ≠ q.X := hP.x_ne hQ h1 fun e => h2 (eq_neg_of_add_eq_zero_left e)
  refine ⟨_, add_chord_ne h h' hx.symm, rfl, ?_⟩
  have hd : q.X - p.X ≠ 0 := sub_ne_zero.2 hx.symm
  have hl : ((q.Y - p.Y) / (q.X - p.X)) * (p.X - q.X) = p.Y - q.Y := by
    rw [← neg_sub q.X, mul_neg, div_mul_cancel₀ _ hd]; ring
  exact (hP.add hQ hx hl).congr (by simp only [chord]; ring) (by simp only [chord]; ring)

/-! ### a key and its point -/

/-- the limbs of `k` denote the point `P` -/
def Denotes (k : G1In) (P : E1 Fp) : Prop := k.Fits ∧ Pt P k.X.val k.Y.val

/-! ### test engine -/

/-- `v` represents the sum `S`; `a`: somebody has signed -/
def Rep (v : G1Var) (S : E1 Fp) (a : Prop) : Prop :=
  (¬ a ∧ v = ⟨0, 0, true⟩ ∧ S = 0) ∨ (a ∧ v.isZeroConst = false ∧ Pt S v.X v.Y)

theorem engine_step {v : G1Var} {S K : E1 Fp} {a : Prop} {b : Bool} {key : G1In} (h : Rep v S a)
    (hk : Pt K key.X.val key.Y.val) (hg : a → b = true → S ≠ K ∧ S ≠ -K) :
    ∃ v', addG1Points v (selVal .engine b key) = pure v' ∧ Rep v' (S + if b then K else 0) (a ∨ b = true) := by
  rcases h with ⟨ha, hv, rfl⟩ | ⟨ha, hv, hS⟩
  · refine ⟨_, add_left_const (by rw [hv]), ?_⟩
    cases b
    · exact Or.inl ⟨by simpa using ha, by simp [selVal.eq_def], by simp⟩
    · exact Or.inr ⟨by simp, by simp [selVal.eq_def], by simpa [selVal.eq_def] using hk⟩
  · cases b
    · refine ⟨v, add_right_const hv (by simp [selVal.eq_def]), Or.inr ⟨Or.inl ha, hv, by simpa using hS⟩⟩
    · obtain ⟨s, e, h1, h2⟩ := add_points (q := selVal .engine true key) hS (by simpa [selVal.eq_def] using hk) hv
        (by simp [selVal.eq_def]) (hg ha rfl).1 (hg ha rfl).2
      exact ⟨s, e, Or.inr ⟨Or.inl ha, h1, by simpa using h2⟩⟩

open Classical in
/-- sum of the signers among the first `k + 1` validators -/
theorem signersSum_succ (K : Fin 10 → E1 Fp) (s : Fin 10 → Prop) (i : Fin 10) :
    signersSum K (fun j => j < i ∧ s j) + (if s i then K i else 0) = signersSum K (fun j => j ≤ i ∧ s j) := by
  have e : (if s i then K i else 0) = ∑ j, if j = i then (if s j then K j else 0) else 0 := by
    rw [Finset.sum_ite_eq' Finset.univ i]; simp
  rw [e, signersSum, signersSum, ← Finset.sum_add_distrib]
  refine Finset.sum_congr rfl fun j _ => ?_
  rcases lt_trichotomy j i with h | h | h
  · simp [h, h.le, h.ne]
  · subst h; simp
  · simp [h.not_gt, h.not_ge, h.ne']

theorem signersSum_congr {K : Fin 10 → E1 Fp} {s t : Fin 10 → Prop} (h : ∀ i, s i ↔ t i) :
    signersSum K s = signersSum K t := by
  rw [show s = t from funext fun i => propext (h i)]

theorem addAll_ofFn (f : Fin 10 → G1Var) :
    addAll (List.ofFn f) = (List.ofFn fun i : Fin 9 => f i.succ).foldlM addG1Points (f 0) := by
  rw [List.ofFn_succ, addAll]

theorem signersSum_first (K : Fin 10 → E1 Fp) (s : Fin 10 → Prop) [Decidable (s 0)] :
    signersSum K (fun j => j ≤ 0 ∧ s j) = if s 0 then K 0 else 0 := by
  classical
  rw [← signersSum_succ]
  have : signersSum K (fun j => j < 0 ∧ s j) = 0 := by
    rw [signersSum]
    exact Finset.sum_eq_zero fun j _ => if_neg fun h => absurd h.1 (by simp)
  rw [this, zero_add]
  congr

/-- In the test engine the aggregated key is the sum of the signers' keys. -/
theorem engine_sum {keys : Fin 10 → G1In} {K : Fin 10 → E1 Fp} (hk : ∀ i, Denotes (keys i) (K i))
    (bs : Fin 10 → Bool) (hg : GeneralPosition K fun i => bs i = true) :
    ∃ v, addAll (selected .engine keys bs) = pure v ∧
      Rep v (signersSum K fun i => bs i = true) (∃ i, bs i = true) := by
  have h0 : Rep (selVal .engine (bs 0) (keys 0)) (signersSum K fun j => j ≤ 0 ∧ bs j = true)
      (∃ j, j ≤ 0 ∧ bs j = true) := by
    rw [signersSum_first]
    have e : (∃ j : Fin 10, j ≤ 0 ∧ bs j = true) ↔ bs 0 = true :=
      ⟨fun ⟨j, h, hb⟩ => by rwa [← Fin.le_zero_iff.1 h], fun h => ⟨0, le_refl _, h⟩⟩
    rw [e]
    rcases hb : bs 0 with _ | _
    · exact Or.inl ⟨by simp, by simp [selVal.eq_def], by simp⟩
    · exact Or.inr ⟨rfl, by simp [selVal.eq_def], by simpa [selVal.eq_def] using (hk 0).2⟩
  obtain ⟨v, e, hv⟩ := foldlM_inv (fun i : Fin 9 => selVal .engine (bs i.succ) (keys i.succ)) addG1Points
    (fun k v => Rep v (signersSum K fun j => j.val ≤ k ∧ bs j = true) (∃ j : Fin 10, j.val ≤ k ∧ bs j = true))
    (fun i v h => by
      have hlt : ∀ j : Fin 10, j.val ≤ i.val ↔ j < i.succ := fun j => by
        rw [Fin.lt_def, Fin.val_succ]; omega
      have hle : ∀ j : Fin 10, j.val ≤ i.val + 1 ↔ j ≤ i.succ := fun j => by
        rw [Fin.le_def, Fin.val_succ]
      simp only [hlt] at h
      obtain ⟨v', e, h'⟩ := engine_step (K := K i.succ) (b := bs i.succ) h (hk i.succ).2
        (fun ha hb => hg i.succ hb ha)
      refine ⟨v', e, ?_⟩
      have e1 := signersSum_succ K (fun i => bs i = true) i.succ
      simp only [hle]
      rw [← e1]
      have e2 : (∃ j, j ≤ i.succ ∧ bs j = true) ↔ ((∃ j, j < i.succ ∧ bs j = true) ∨ bs i.succ = true) := by
        constructor
        · rintro ⟨j, h, hb⟩
          rcases h.lt_or_eq with h | rfl
          · exact Or.inl ⟨j, h, hb⟩
          · exact Or.inr hb
        · rintro (⟨j, h, hb⟩ | hb)
          · exact ⟨j, h.le, hb⟩
          · exact ⟨_, le_refl _, hb⟩
      rw [e2]
      convert h' using 2
      split_ifs <;> rfl) _ (by simpa [Fin.le_def] using h0)
  refine ⟨v, ?_, ?_⟩
  · rw [selected, addAll_ofFn]; exact e
  · have h9 : ∀ j : Fin 10, j.val ≤ 9 := fun j => by omega
    simpa [h9] using hv

/-! ### compiled circuit -/

/-- what the chord formula makes of a point of the curve and (0,0) -/
def phi (x y : Fp) : G1Var := ⟨4 / x ^ 2, -(4 * y) / x ^ 3, false⟩

theorem four_ne_Fp : (4 : Fp) ≠ 0 := by decide +kernel

theorem phi_X {x y l : Fp} (h : y ^ 2 = x ^ 3 + 4) (hx : x ≠ 0) (hl : l * x = y) : l * l - x = 4 / x ^ 2 := by
  rw [eq_div_iff (pow_ne_zero 2 hx)]
  linear_combination (l * x + y) * hl + h

theorem phi_Y {x y l : Fp} (hx : x ≠ 0) (hl : l * x = y) : -(l * (4 / x ^ 2)) = -(4 * y) / x ^ 3 := by
  rw [eq_div_iff (pow_ne_zero 3 hx)]
  have hd : 4 / x ^ 2 * x ^ 2 = 4 := div_mul_cancel₀ _ (pow_ne_zero 2 hx)
  linear_combination (-4 : Fp) * hl - l * x * hd

theorem add_zero_chord {x y : Fp} (h : y ^ 2 = x ^ 3 + 4) (hx : x ≠ 0) :
    addG1Points ⟨x, y, false⟩ ⟨0, 0, false⟩ = pure (phi x y) := by
  rw [add_chord_ne rfl rfl hx.symm, chord]
  simp only [zero_sub, neg_div_neg_eq, sub_zero]
  have hl : y / x * x = y := div_mul_cancel₀ _ hx
  rw [phi_X h hx hl, phi]
  congr 2
  rw [← phi_Y hx hl]
  linear_combination hl

theorem zero_add_chord {x y : Fp} (h : y ^ 2 = x ^ 3 + 4) (hx : x ≠ 0) :
    addG1Points ⟨0, 0, false⟩ ⟨x, y, false⟩ = pure (phi x y) := by
  rw [add_chord_ne rfl rfl hx, chord]
  simp only [sub_zero]
  have hl : y / x * x = y := div_mul_cancel₀ _ hx
  rw [phi_X h hx hl, phi]
  congr 2
  rw [← phi_Y hx hl]
  ring

theorem phi_zero_chord {x y : Fp} (h : y ^ 2 = x ^ 3 + 4) (hx : x ≠ 0) :
    addG1Points (phi x y) ⟨0, 0, false⟩ = pure ⟨x, y, false⟩ := by
  have h4 := four_ne_Fp
  have hd0 : 4 / x ^ 2 ≠ 0 := div_ne_zero h4 (pow_ne_zero 2 hx)
  rw [add_chord_ne rfl rfl hd0.symm, chord]
  simp only [phi, zero_sub, neg_div_neg_eq, sub_zero]
  have hd : 4 / x ^ 2 * x ^ 2 = 4 := div_mul_cancel₀ _ (pow_ne_zero 2 hx)
  have he : -(4 * y) / x ^ 3 * x ^ 3 = -(4 * y) := div_mul_cancel₀ _ (pow_ne_zero 3 hx)
  have hl : -(4 * y) / x ^ 3 / (4 / x ^ 2) * (4 / x ^ 2) = -(4 * y) / x ^ 3 := div_mul_cancel₀ _ hd0
  generalize -(4 * y) / x ^ 3 / (4 / x ^ 2) = l at hl ⊢
  generalize 4 / x ^ 2 = d at *
  generalize -(4 * y) / x ^ 3 = e at *
  have hlx : l * x = -y := by
    apply mul_left_cancel₀ h4
    linear_combination -l * x * hd + x ^ 3 * hl + he
  have hX : l * l - d = x := by
    apply mul_right_cancel₀ (pow_ne_zero 2 hx)
    linear_combination (l * x - y) * hlx + h - hd
  rw [hX]
  congr 2
  linear_combination hl - hlx

/-- (0,0) and a point with `x = 0`: the division has no solution -/
theorem add_zero_fail {y : Fp} (h : y ≠ 0) : addG1Points ⟨0, y, false⟩ ⟨0, 0, false⟩ = fail := by
  rw [add_chord rfl rfl]
  simp only [sub_self]
  rw [fpDiv_zero (by simpa using h), fail_bind]

/-- (0,0) twice: the prover chooses the slope -/
theorem zero_zero_free (l : Fp) :
    (addG1Points ⟨0, 0, false⟩ ⟨0, 0, false⟩).sat ⟨l ^ 2, -l ^ 3, false⟩ := by
  rw [add_chord rfl rfl, sat_bind]
  refine ⟨l, ⟨l, by simp, (), by simp, rfl⟩, ?_⟩
  rw [sat_pure, chord]
  congr 1 <;> ring

/-- equal keys: the prover chooses the slope -/
theorem double_free (x y l : Fp) : (addG1Points ⟨x, y, false⟩ ⟨x, y, false⟩).sat
    ⟨l ^ 2 - 2 * x, l * (3 * x - l ^ 2) - y, false⟩ := by
  rw [add_chord rfl rfl, sat_bind]
  refine ⟨l, ⟨l, by simp, (), by simp, rfl⟩, ?_⟩
  rw [sat_pure, chord]
  congr 1 <;> ring

/-- the value after `k` additions of (0,0) to a point of the curve -/
def phiIter (x y : Fp) (k : ℕ) : G1Var := if k % 2 = 0 then ⟨x, y, false⟩ else phi x y

theorem phiIter_step {x y : Fp} (h : y ^ 2 = x ^ 3 + 4) (hx : x ≠ 0) (k : ℕ) :
    addG1Points (phiIter x y k) ⟨0, 0, false⟩ = pure (phiIter x y (k + 1)) := by
  rcases Nat.mod_two_eq_zero_or_one k with e | e
  · rw [phiIter, if_pos e, add_zero_chord h hx, phiIter, if_neg (by omega)]
  · rw [phiIter, if_neg (by omega), phi_zero_chord h hx, phiIter, if_pos (by omega)]

/-- In both modes the keys of the first `m` validators are added correctly when all of them sign. -/
theorem compiled_prefix {keys : Fin 10 → G1In} {K : Fin 10 → E1 Fp} (hk : ∀ i, Denotes (keys i) (K i))
    (m : ℕ) (hm1 : 1 ≤ m) (hm : m ≤ 10) (hg : GeneralPosition K fun i => i.val < m) :
    ∃ x y, Pt (signersSum K fun i => i.val < m) x y ∧
      (m = 10 ∨ x ≠ 0 → addAll (selected .compiled keys fun i => decide (i.val < m)) =
        pure (phiIter x y (10 - m))) := by
  have hsel : ∀ i : Fin 10, i.val < m → selVal .compiled (decide (i.val < m)) (keys i) =
      ⟨(keys i).X.val, (keys i).Y.val, false⟩ := fun i h => by simp [selVal.eq_def, h]
  have hsel' : ∀ i : Fin 10, ¬ i.val < m → selVal .compiled (decide (i.val < m)) (keys i) =
      ⟨0, 0, false⟩ := fun i h => by simp [selVal.eq_def, h]
  -- the sum of the first `k + 1` keys is a finite point
  have hfin : ∀ k, k < m → ∃ v : G1Var, v.isZeroConst = false ∧
      Pt (signersSum K fun j => j.val ≤ k ∧ j.val < m) v.X v.Y ∧
      ((List.ofFn fun i : Fin 9 => selVal .compiled (decide (i.succ.val < m)) (keys i.succ)).take k).foldlM
        addG1Points (selVal .compiled (decide ((0 : Fin 10).val < m)) (keys 0)) = pure v := by
    intro k
    induction k with
    | zero =>
      intro hk0
      have h0 := signersSum_first K (fun i => i.val < m)
      rw [if_pos (show (0 : Fin 10).val < m from hk0)] at h0
      refine ⟨_, rfl, ?_, by rw [List.take_zero, List.foldlM_nil, hsel 0 hk0]⟩
      have : signersSum K (fun j => j.val ≤ 0 ∧ j.val < m) = K 0 := by
        rw [← h0]; exact signersSum_congr fun i => by rw [Fin.le_def]; rfl
      rw [this]
      exact (hk 0).2
    | succ k ih =>
      intro hk1
      obtain ⟨v, hv, hP, e⟩ := ih (by omega)
      have hk9 : k < 9 := by omega
      set i : Fin 10 := (⟨k, hk9⟩ : Fin 9).succ with hi
      have hiv : i.val = k + 1 := rfl
      have hs : signersSum K (fun j => j.val ≤ k ∧ j.val < m) = signersSum K (fun j => j < i ∧ j.val < m) :=
        signersSum_congr fun j => by rw [Fin.lt_def, hiv]; omega
      have hgi := hg i (by omega) ⟨0, by rw [Fin.lt_def, hiv]; simp, by show 0 < m; omega⟩
      rw [hs] at hP
      obtain ⟨s, e', h1, h2⟩ := add_points (q := ⟨(keys i).X.val, (keys i).Y.val, false⟩) hP (hk i).2 hv rfl hgi.1 hgi.2
      refine ⟨s, h1, ?_, ?_⟩
      · have := signersSum_succ K (fun i => i.val < m) i
        rw [if_pos (show i.val < m by omega)] at this
        rw [this] at h2
        have h3 : signersSum K (fun j => j.val ≤ k + 1 ∧ j.val < m) = signersSum K (fun j => j ≤ i ∧ j.val < m) :=
          signersSum_congr fun j => by rw [Fin.le_def, hiv]
        rw [h3]
        exact h2
      · rw [List.take_succ, List.foldlM_append, e, pure_bind, List.getElem?_ofFn]
        simp only [hk9, dite_true, Option.toList_some, List.foldlM_cons, List.foldlM_nil]
        rw [hsel _ (by rw [← hi]; omega), ← hi, e', pure_bind]
  obtain ⟨v, hv, hP, e⟩ := hfin (m - 1) (by omega)
  have hsum : signersSum K (fun j => j.val ≤ m - 1 ∧ j.val < m) = signersSum K fun j => j.val < m :=
    signersSum_congr fun j => by omega
  rw [hsum] at hP
  refine ⟨v.X, v.Y, hP, fun hx => ?_⟩
  rw [selected, addAll_ofFn]
  have hsplit := List.take_append_drop (m - 1)
    (List.ofFn fun i : Fin 9 => selVal .compiled (decide (i.succ.val < m)) (keys i.succ))
  rw [← hsplit, List.foldlM_append, e, pure_bind]
  have hdrop : (List.ofFn fun i : Fin 9 => selVal .compiled (decide (i.succ.val < m)) (keys i.succ)).drop (m - 1) =
      List.replicate (10 - m) ⟨0, 0, false⟩ := by
    apply List.ext_getElem
    · simp; omega
    · intro j h1 h2
      simp only [List.length_drop, List.length_ofFn] at h1
      rw [List.getElem_drop, List.getElem_ofFn, List.getElem_replicate]
      exact hsel' _ (by simp; omega)
  rw [hdrop]
  have hve : v = phiIter v.X v.Y 0 := by rw [phiIter, if_pos rfl, ← hv]
  rcases hx with rfl | hx
  · exact congrArg pure hve
  · have : ∀ n k, (List.replicate n (⟨0, 0, false⟩ : G1Var)).foldlM addG1Points (phiIter v.X v.Y k) =
        pure (phiIter v.X v.Y (k + n)) := by
      intro n
      induction n with
      | zero => intro k; rfl
      | succ n ih =>
        intro k
        rw [List.replicate_succ, List.foldlM_cons, phiIter_step hP.eqn hx, pure_bind, ih]
        congr 2; omega
    conv_lhs => rw [hve]
    rw [this, zero_add]

/-- (0,0) added to a point of the curve leaves the curve, unless `x³ = 4` -/
theorem phi_off_curve {x y : Fp} (h : y ^ 2 = x ^ 3 + 4) (hx : x ≠ 0) :
    (phi x y).Y ^ 2 = (phi x y).X ^ 3 + 4 ↔ x ^ 3 = 4 := by
  have h4 := four_ne_Fp
  simp only [phi]
  have hx6 := pow_ne_zero 6 hx
  have hx3 := pow_ne_zero 3 hx
  constructor
  · intro e
    have e' : 4 * y ^ 2 = 16 + x ^ 6 := by
      field_simp at e
      linear_combination e
    have : x ^ 3 * (x ^ 3 - 4) = 0 := by linear_combination 4 * h - e'
    rcases mul_eq_zero.1 this with h' | h'
    · exact absurd h' hx3
    · exact sub_eq_zero.1 h'
  · intro e
    field_simp
    linear_combination 4 * h - x ^ 3 * e

/-- (0,0) and a point of the singular curve `y² = x³`: the chord passes through the cusp -/
theorem cusp_zero (l : Fp) (h : l ≠ 0) : addG1Points ⟨l ^ 2, -l ^ 3, false⟩ ⟨0, 0, false⟩ = pure ⟨0, 0, false⟩ := by
  have h2 : l ^ 2 ≠ 0 := pow_ne_zero 2 h
  rw [add_chord_ne rfl rfl h2.symm, chord]
  have e : (0 - -l ^ 3) / (0 - l ^ 2) = -l := by
    rw [div_eq_iff (by rw [zero_sub]; exact neg_ne_zero.2 h2)]; ring
  rw [e]
  congr 2 <;> ring

/-- nobody signs: every point `(λ², -λ³)` is a possible aggregated key -/
theorem compiled_none (keys : Fin 10 → G1In) (l : Fp) :
    (addAll (selected .compiled keys fun _ => false)).sat ⟨l ^ 2, -l ^ 3, false⟩ := by
  have hsel : selected .compiled keys (fun _ => false) = ⟨0, 0, false⟩ :: List.replicate 9 ⟨0, 0, false⟩ := by
    rw [selected, List.ofFn_succ]
    rfl
  rw [hsel, addAll]
  have h2 : ∀ n (a : G1Var), ((List.replicate n (⟨0, 0, false⟩ : G1Var)).foldlM addG1Points ⟨0, 0, false⟩).sat a →
      ((List.replicate (n + 2) (⟨0, 0, false⟩ : G1Var)).foldlM addG1Points ⟨0, 0, false⟩).sat a := by
    intro n a ha
    rw [List.replicate_succ, List.replicate_succ, List.foldlM_cons, sat_bind]
    refine ⟨⟨1 ^ 2, -1 ^ 3, false⟩, zero_zero_free 1, ?_⟩
    rw [List.foldlM_cons, cusp_zero 1 one_ne_zero, pure_bind]
    exact ha
  refine h2 7 _ (h2 5 _ (h2 3 _ (h2 1 _ ?_)))
  rw [List.replicate_succ, List.replicate_zero, List.foldlM_cons, sat_bind]
  exact ⟨_, zero_zero_free l, rfl⟩

end Spark.Circuit
