import Verif.Lemmas.CircuitAgg

/-! Aggregation in the compiled circuit for general sets of signers. -/

namespace Spark.Circuit
open Circ Spec

/-- a finite point of order `r` has `x ≠ 0` (the points with `x = 0` have order 3) -/
theorem x_ne_of_order {P : E1 Fp} {x y : Fp} (h : Pt P x y) (hr : rOrder • P = 0) : x ≠ 0 := by
  rintro rfl
  have hy := e1_y_ne h
  have h2 : (2 : Fp) * y ≠ 0 := mul_ne_zero (by decide +kernel) hy
  have hd := h.double h2 (l := 0) (by ring)
  have e : P + P = -P := (hd.congr (by ring) (by ring)).ext h.neg
  refine small_smul_ne h.ne_zero hr (m := 3) (by norm_num) (by decide +kernel) ?_
  rw [show (3 : ℕ) = 2 + 1 from rfl, add_nsmul, two_nsmul, one_nsmul, e, neg_add_cancel]

/-- the number of validators up to and including position `k` that do not sign -/
def absent (bs : Fin 10 → Bool) (k : ℕ) : ℕ := (Finset.univ.filter fun j : Fin 10 => j.val ≤ k ∧ bs j = false).card

theorem absent_succ (bs : Fin 10 → Bool) (i : Fin 9) :
    absent bs (i.val + 1) = absent bs i.val + if bs i.succ then 0 else 1 := by
  rw [absent, absent]
  have e : (Finset.univ.filter fun j : Fin 10 => j.val ≤ i.val + 1 ∧ bs j = false) =
      (Finset.univ.filter fun j : Fin 10 => j.val ≤ i.val ∧ bs j = false) ∪
        (if bs i.succ then ∅ else {i.succ}) := by
    ext j
    by_cases hj : j = i.succ
    · subst hj
      cases h : bs i.succ <;> simp [h]
    · have : j.val ≠ i.val + 1 := fun h => hj (Fin.ext (by simpa using h))
      have h2 : j.val ≤ i.val + 1 ↔ j.val ≤ i.val := by omega
      cases h : bs i.succ <;> simp [h2, hj]
  rw [e, Finset.card_union_of_disjoint]
  · cases bs i.succ <;> simp
  · cases h : bs i.succ
    · simp
    · simp

theorem absent_zero (bs : Fin 10 → Bool) : absent bs 0 = if bs 0 then 0 else 1 := by
  rw [absent]
  have e : (Finset.univ.filter fun j : Fin 10 => j.val ≤ 0 ∧ bs j = false) = if bs 0 then ∅ else {0} := by
    ext j
    by_cases hj : j = 0
    · subst hj
      cases h : bs 0 <;> simp [h]
    · cases h : bs 0 <;> simp [hj]
  rw [e]
  cases bs 0 <;> simp

/-- the value after the positions up to `k`: either (0,0), position 0 alone, not signing; or the sum with `(0,0)`
added as often as there were non-signers -/
def CRep (K : Fin 10 → E1 Fp) (bs : Fin 10 → Bool) (k : ℕ) (v : G1Var) : Prop :=
  (k = 0 ∧ bs 0 = false ∧ v = ⟨0, 0, false⟩) ∨
  ((∃ j : Fin 10, j.val ≤ k ∧ bs j = true) ∧ ∃ x y, Pt (signersSum K fun j => j.val ≤ k ∧ bs j = true) x y ∧ x ≠ 0 ∧
    v = phiIter x y (absent bs k))

/-- One of the first two validators signs, and every later signer has an even number of non-signers before it. -/
def GoodPattern (bs : Fin 10 → Bool) : Prop :=
  (bs 0 = true ∨ bs 1 = true) ∧
    ∀ i : Fin 10, bs i = true → (∃ j, j < i ∧ bs j = true) →
      Even (Finset.univ.filter fun j : Fin 10 => j < i ∧ bs j = false).card

theorem selVal_true (key : G1In) : selVal .compiled true key = ⟨key.X.val, key.Y.val, false⟩ := by
  simp [selVal.eq_def]
theorem selVal_false (key : G1In) : selVal .compiled false key = ⟨0, 0, false⟩ := by
  simp [selVal.eq_def]

theorem crep_step {keys : Fin 10 → G1In} {K : Fin 10 → E1 Fp} (hk : ∀ i, Denotes (keys i) (K i))
    {bs : Fin 10 → Bool} (hp : GoodPattern bs) (hg : GeneralPosition K fun i => bs i = true)
    (hr : ∀ i, rOrder • K i = 0) (i : Fin 9) {v : G1Var} (h : CRep K bs i.val v) :
    ∃ v', addG1Points v (selVal .compiled (bs i.succ) (keys i.succ)) = pure v' ∧ CRep K bs (i.val + 1) v' := by
  have hord : ∀ s : Fin 10 → Prop, rOrder • signersSum K s = 0 := fun s => by
    classical
    rw [signersSum, Finset.smul_sum]
    exact Finset.sum_eq_zero fun j _ => by split_ifs <;> simp [hr]
  have hle : ∀ j : Fin 10, j.val ≤ i.val + 1 ↔ j ≤ i.succ := fun j => by rw [Fin.le_def, Fin.val_succ]
  have hlt : ∀ j : Fin 10, j.val ≤ i.val ↔ j < i.succ := fun j => by rw [Fin.lt_def, Fin.val_succ]; omega
  have hsum : signersSum K (fun j => j.val ≤ i.val ∧ bs j = true) + (if bs i.succ = true then K i.succ else 0) =
      signersSum K (fun j => j.val ≤ i.val + 1 ∧ bs j = true) := by
    have := signersSum_succ K (fun i => bs i = true) i.succ
    simp only [hle, hlt]
    rw [← this]
    congr
  have habs := absent_succ bs i
  rcases h with ⟨h0, hb0, rfl⟩ | ⟨⟨j0, hj0, hj0'⟩, x, y, hP, hx, rfl⟩
  · have hi : i = 0 := Fin.ext h0
    subst hi
    have hb1 : bs 1 = true := hp.1.resolve_left (by simp [hb0])
    have hs : (0 : Fin 9).succ = (1 : Fin 10) := rfl
    have hPt := (hk 1).2
    have hxk := x_ne_of_order hPt (hr 1)
    rw [hs, hb1, selVal_true, zero_add_chord hPt.eqn hxk]
    refine ⟨_, rfl, Or.inr ⟨⟨1, by simp, hb1⟩, _, (keys 1).Y.val, ?_, hxk, ?_⟩⟩
    · rw [← hsum, hs, if_pos hb1]
      have : signersSum K (fun j => j.val ≤ (0 : Fin 9).val ∧ bs j = true) = 0 := by
        classical
        rw [signersSum]
        refine Finset.sum_eq_zero fun j _ => if_neg fun h => ?_
        have : j = 0 := Fin.ext (by simpa using h.1)
        rw [this, hb0] at h
        simp at h
      rw [this, zero_add]; exact hPt
    · rw [habs, hs, hb1, show (0 : Fin 9).val = 0 from rfl, absent_zero, hb0, phiIter]; rfl
  · cases hb : bs i.succ
    · rw [hb] at habs hsum
      rw [selVal_false, phiIter_step hP.eqn hx]
      refine ⟨_, rfl, Or.inr ⟨⟨j0, by omega, hj0'⟩, x, y, ?_, hx, ?_⟩⟩
      · rw [← hsum]; simpa using hP
      · rw [habs]; rfl
    · rw [hb] at habs hsum
      have hex : ∃ j, j < i.succ ∧ bs j = true := ⟨j0, (hlt j0).1 hj0, hj0'⟩
      have hev := hp.2 i.succ hb hex
      have hcard : absent bs i.val % 2 = 0 := by
        rw [absent]; simp only [hlt]
        exact Nat.even_iff.1 hev
      have hgi := hg i.succ hb hex
      simp only [hlt] at hP
      obtain ⟨s, e, h1, h2⟩ := add_points (p := ⟨x, y, false⟩) (q := ⟨(keys i.succ).X.val, (keys i.succ).Y.val, false⟩)
        hP (hk i.succ).2 rfl rfl hgi.1 hgi.2
      rw [phiIter, if_pos hcard, selVal_true, e]
      simp only [hlt, if_true] at hsum
      rw [hsum] at h2
      refine ⟨s, rfl, Or.inr ⟨⟨j0, by omega, hj0'⟩, s.X, s.Y, h2, x_ne_of_order h2 (hord _), ?_⟩⟩
      rw [habs, if_pos rfl, add_zero, phiIter, if_pos hcard, ← h1]

/-- The compiled circuit on a good pattern: the sum, to which (0,0) has been added once for every non-signer. -/
theorem compiled_pattern {keys : Fin 10 → G1In} {K : Fin 10 → E1 Fp} (hk : ∀ i, Denotes (keys i) (K i))
    {bs : Fin 10 → Bool} (hp : GoodPattern bs) (hg : GeneralPosition K fun i => bs i = true)
    (hr : ∀ i, rOrder • K i = 0) :
    ∃ x y, Pt (signersSum K fun j => bs j = true) x y ∧ x ≠ 0 ∧
      addAll (selected .compiled keys bs) = pure (phiIter x y (absent bs 9)) := by
  have h0 : CRep K bs 0 (selVal .compiled (bs 0) (keys 0)) := by
    cases hb : bs 0
    · exact Or.inl ⟨rfl, hb, selVal_false _⟩
    · refine Or.inr ⟨⟨0, le_rfl, hb⟩, _, (keys 0).Y.val, ?_, x_ne_of_order (hk 0).2 (hr 0), ?_⟩
      · have := signersSum_first K (fun i => bs i = true)
        rw [if_pos hb] at this
        have h2 : signersSum K (fun j => j.val ≤ 0 ∧ bs j = true) = K 0 := by
          rw [← this]; exact signersSum_congr fun j => by rw [Fin.le_def]; rfl
        rw [h2]; exact (hk 0).2
      · rw [selVal_true, absent_zero, hb]; rfl
  obtain ⟨v, e, hv⟩ := foldlM_inv (fun i : Fin 9 => selVal .compiled (bs i.succ) (keys i.succ)) addG1Points
    (CRep K bs) (fun i v h => crep_step hk hp hg hr i h) _ h0
  rcases hv with ⟨h9, -⟩ | ⟨-, x, y, hP, hx, rfl⟩
  · omega
  · have h9 : ∀ j : Fin 10, j.val ≤ 9 := fun j => by omega
    simp only [h9, true_and] at hP
    exact ⟨x, y, hP, hx, by rw [selected, addAll_ofFn]; exact e⟩

/-- (0,0) twice: no honest run -/
theorem zero_zero_none : (addG1Points ⟨0, 0, false⟩ ⟨0, 0, false⟩).run = none := by
  rw [add_chord rfl rfl, run_bind]
  simp [fpDiv]

/-- the first two validators do not sign: no honest run -/
theorem compiled_two_absent (keys : Fin 10 → G1In) {bs : Fin 10 → Bool} (h0 : bs 0 = false) (h1 : bs 1 = false) :
    (addAll (selected .compiled keys bs)).run = none := by
  rw [selected, addAll_ofFn, List.ofFn_succ, List.foldlM_cons, run_bind, h0, show (0 : Fin 9).succ = (1 : Fin 10) from rfl,
    h1, selVal_false, selVal_false, zero_zero_none]
  rfl

/-- a key added to a sum that has been moved off by an odd number of (0,0) -/
theorem phi_add_wrong {S K : E1 Fp} {x y a b : Fp} (hS : Pt S x y) (hK : Pt K a b) (hx : x ≠ 0) (h4 : x ^ 3 ≠ 4)
    (hXa : 4 / x ^ 2 ≠ a) (h1 : S ≠ K) (h2 : S ≠ -K) (h3 : S + K ≠ -K) :
    ∃ v, addG1Points (phi x y) ⟨a, b, false⟩ = pure v ∧ ¬ Pt (S + K) v.X v.Y := by
  refine ⟨_, add_chord_ne rfl rfl hXa.symm, fun hv => ?_⟩
  have hxa : x ≠ a := hS.x_ne hK h1 fun e => h2 (eq_neg_of_add_eq_zero_left e)
  obtain ⟨m, hm⟩ : ∃ m : Fp, m * (x - a) = y - b := ⟨(y - b) / (x - a), div_mul_cancel₀ _ (sub_ne_zero.2 hxa)⟩
  have hR := hS.add hK hxa hm
  obtain ⟨eX, eY⟩ := hv.unique hR
  have hl : (b - (phi x y).Y) / (a - (phi x y).X) * (a - (phi x y).X) = b - (phi x y).Y :=
    div_mul_cancel₀ _ (sub_ne_zero.2 hXa.symm)
  simp only [chord] at eX eY
  generalize (b - (phi x y).Y) / (a - (phi x y).X) = l at hl eX eY
  have hne : m ^ 2 - x - a ≠ a := hR.x_ne hK (fun e => hS.ne_zero (add_eq_right.1 e))
    fun e => h3 (eq_neg_of_add_eq_zero_left e)
  have key : (l - m) * (a - (m ^ 2 - x - a)) = 0 := by
    linear_combination eY + hl + hm + l * eX
  rcases mul_eq_zero.1 key with e | e
  · have hlm : l = m := sub_eq_zero.1 e
    have hXx : (phi x y).X = x := by rw [hlm] at eX; linear_combination -eX
    apply h4
    have : 4 / x ^ 2 = x := hXx
    rw [div_eq_iff (pow_ne_zero 2 hx)] at this
    linear_combination -this
  · exact hne (sub_eq_zero.1 e).symm

/-- all but the last validator -/
def dropLast (bs : Fin 10 → Bool) (i : Fin 10) : Bool := bs i && decide (i ≠ 9)

theorem dropLast_of {bs : Fin 10 → Bool} {i : Fin 10} (h : i ≠ 9) : dropLast bs i = bs i := by simp [dropLast, h]

/-- The last validator signs after an odd number of non-signers. -/
theorem compiled_odd_gap {keys : Fin 10 → G1In} {K : Fin 10 → E1 Fp} (hk : ∀ i, Denotes (keys i) (K i))
    {bs : Fin 10 → Bool} (h9 : bs 9 = true) (hp : GoodPattern (dropLast bs)) (hg : GeneralPosition K fun i => bs i = true)
    (hr : ∀ i, rOrder • K i = 0) (ho : absent bs 9 % 2 = 1)
    (hx : ∀ x y, Pt (signersSum K fun i => i < 9 ∧ bs i = true) x y → x ^ 3 ≠ 4 ∧ 4 / x ^ 2 ≠ (keys 9).X.val)
    (h3 : signersSum K (fun i => bs i = true) ≠ -K 9) :
    ∃ v, addAll (selected .compiled keys bs) = pure v ∧ ¬ Pt (signersSum K fun i => bs i = true) v.X v.Y := by
  have hlt : ∀ j : Fin 10, (j.val ≤ 8 ∧ dropLast bs j = true) ↔ (j < 9 ∧ bs j = true) := fun j => by
    rw [Fin.lt_def, show (9 : Fin 10).val = 9 from rfl, Nat.lt_succ_iff]
    refine and_congr_right fun h => ?_
    rw [dropLast_of]
    rintro rfl
    exact absurd h (by decide)
  have hg' : GeneralPosition K fun i => dropLast bs i = true := by
    intro i hi ⟨j, hj, hj'⟩
    have e : ∀ l : Fin 10, (l < i ∧ dropLast bs l = true) ↔ (l < i ∧ bs l = true) := fun l =>
      and_congr_right fun h => by
        rw [dropLast_of]
        rintro rfl
        have := Fin.lt_def.1 h
        rw [show (9 : Fin 10).val = 9 from rfl] at this
        omega
    have hi' : bs i = true := by simp only [dropLast, Bool.and_eq_true] at hi; exact hi.1
    simp only [e]
    exact hg i hi' ⟨j, (e j).1 ⟨hj, hj'⟩⟩
  have h0 : CRep K (dropLast bs) 0 (selVal .compiled (bs 0) (keys 0)) := by
    have d0 : dropLast bs 0 = bs 0 := dropLast_of (by decide)
    cases hb : bs 0
    · exact Or.inl ⟨rfl, d0.trans hb, selVal_false _⟩
    · refine Or.inr ⟨⟨0, le_rfl, d0.trans hb⟩, _, (keys 0).Y.val, ?_, x_ne_of_order (hk 0).2 (hr 0), ?_⟩
      · have := signersSum_first K (fun i => dropLast bs i = true)
        rw [if_pos (d0.trans hb)] at this
        have h2 : signersSum K (fun j => j.val ≤ 0 ∧ dropLast bs j = true) = K 0 := by
          rw [← this]; exact signersSum_congr fun j => by rw [Fin.le_def]; rfl
        rw [h2]; exact (hk 0).2
      · rw [selVal_true, absent_zero, d0, hb]; rfl
  obtain ⟨v, e, hv⟩ := foldlM_inv (fun i : Fin 8 => selVal .compiled (bs i.castSucc.succ) (keys i.castSucc.succ))
    addG1Points (CRep K (dropLast bs)) (fun i v h => by
      have hd : dropLast bs i.castSucc.succ = bs i.castSucc.succ := dropLast_of fun h => by
        have := congrArg Fin.val h
        rw [Fin.val_succ, Fin.val_castSucc, show (9 : Fin 10).val = 9 from rfl] at this
        omega
      have := crep_step hk hp hg' hr i.castSucc h
      rw [hd] at this
      exact this) _ h0
  have habs : absent (dropLast bs) 8 = absent bs 9 := by
    have := absent_succ bs 8
    rw [show (8 : Fin 9).succ = (9 : Fin 10) from rfl, h9, if_pos rfl, add_zero] at this
    rw [show (9 : ℕ) = (8 : Fin 9).val + 1 from rfl, this, absent, absent]
    congr 1
    ext j
    simp only [Finset.mem_filter, Finset.mem_univ, true_and]
    refine and_congr_right fun h => ?_
    rw [dropLast_of]
    rintro rfl
    exact absurd h (by decide)
  rcases hv with ⟨h8, -⟩ | ⟨⟨j, hj⟩, x, y, hP, hx0, rfl⟩
  · omega
  rw [signersSum_congr hlt] at hP
  rw [habs, phiIter, if_neg (by omega)] at e
  have hgi := hg 9 h9 ⟨j, (hlt j).1 hj⟩
  have hsum := signersSum_succ K (fun i => bs i = true) 9
  rw [if_pos h9, signersSum_congr (s := fun j => j ≤ 9 ∧ bs j = true) (t := fun i => bs i = true) fun j =>
    and_iff_right (Fin.le_last j)] at hsum
  obtain ⟨v, e', hv⟩ := phi_add_wrong hP (hk 9).2 hx0 (hx x y hP).1 (hx x y hP).2 hgi.1 hgi.2 (by rw [hsum]; exact h3)
  rw [hsum] at hv
  refine ⟨v, ?_, hv⟩
  rw [selected, addAll_ofFn, List.ofFn_succ_last, List.foldlM_append, e, pure_bind,
    show (Fin.last 8).succ = (9 : Fin 10) from rfl, h9, selVal_true, List.foldlM_cons, e', pure_bind]
  rfl

end Spark.Circuit
