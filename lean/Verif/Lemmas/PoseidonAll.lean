import Verif.Lemmas.PoseidonInst

/-! Poseidon for all supported widths: definedness and agreement with the textbook permutation. -/

namespace Spark.Poseidon

open Matrix PosSpec

theorem single_of_length {C : List ℕ} (h : C.length = 1) : C = [nth C 0] := by
  match C, h with
  | [a], _ => rfl

/-- what the checks establish for one width -/
theorem width_facts (n : ℕ) (h1 : 1 ≤ n) (h2 : n ≤ 16) : ∃ (rp m : ℕ) (C S M P R : List ℕ) (xy : ℕ),
    partialRounds n = some rp ∧ PosSpec.partialRounds[n - 1]? = some rp ∧
    tableC (n + 1) = some (C.flatMap (unpack (8 * (n + 1) + rp))) ∧
    tableS (n + 1) = some (S.flatMap (unpack (2 * n + 1))) ∧
    tableM (n + 1) = some (M.map (unpack (n + 1))) ∧ tableP (n + 1) = some (P.map (unpack (n + 1))) ∧
    C.length = 1 ∧ S.length = rp ∧ M.length = n + 1 ∧ P.length = n + 1 ∧
    chk n rp (nth C 0) S M P R = true ∧ chkMds n M xy = true ∧
    reference (n + 1) rp (6000 * m) = some (R.flatMap (unpack (n + 1)), unpack (2 * (n + 1)) xy) := by
  obtain ⟨rp, k, m, nrc, C, S, M, P, R, xy, a1, a2, a3, a4, a5, a6, h⟩ := params n h1 h2
  rw [fullChk] at h
  obtain ⟨b1, h⟩ := andB_spec h
  obtain ⟨b2, h⟩ := andB_spec h
  obtain ⟨b3, h⟩ := andB_spec h
  obtain ⟨b4, h⟩ := andB_spec h
  obtain ⟨b5, h⟩ := andB_spec h
  obtain ⟨b6, b7⟩ := andB_spec h
  refine ⟨rp, m, C, S, M, P, R, xy, a1, a2, ?_, ?_, ?_, ?_, Nat.eq_of_beq_eq_true b1,
    Nat.eq_of_beq_eq_true b2, Nat.eq_of_beq_eq_true b3, Nat.eq_of_beq_eq_true b4, b5, b6, grain_sound b7⟩
  · rw [tableC, a3]; rfl
  · rw [tableS, a4]; rfl
  · rw [tableM, a5]; rfl
  · rw [tableP, a6]; rfl

theorem textF_eq {n : ℕ} (M : Matrix (Fin (n + 1)) (Fin (n + 1)) Fr) (consts : List ℕ) (rp : ℕ)
    (x : Fin (n + 1) → Fr) (k : ℕ) :
    textF M (rc consts) rp x k = (List.range k).foldl (round M consts rp) x := by
  induction k with
  | zero => rfl
  | succ k ih =>
    rw [List.range_succ, List.foldl_append, List.foldl_cons, List.foldl_nil, ← ih, textF]
    rfl

theorem partF_eq {n rp : ℕ} {c s : List ℕ} {C S : ℕ → Fr} (hc : ∀ i, cF c i = C i)
    (hs : ∀ r < rp, ∀ j < 2 * n + 1, cF s ((2 * n + 1) * r + j) = S ((2 * n + 1) * r + j))
    (x : Fin (n + 1) → Fr) (r : ℕ) (hr : r < rp) : partF c s n x r = partG C S n x r := by
  have h0 := hs r hr 0 (by omega)
  rw [add_zero] at h0
  simp only [partF, partG, hc, h0]
  congr 1
  · congr 1
    refine Finset.sum_congr rfl fun j _ => ?_
    rw [hs r hr _ (by omega)]
  · funext k
    rw [hs r hr _ (by omega)]

theorem foldl_congr' {α : Type} (l : List ℕ) (f g : α → ℕ → α) (a : α)
    (h : ∀ b, ∀ i ∈ l, f b i = g b i) : l.foldl f a = l.foldl g a := by
  induction l generalizing a with
  | nil => rfl
  | cons i l ih => rw [List.foldl_cons, List.foldl_cons, h a i (by simp), ih _ fun b j hj => h b j (by simp [hj])]

theorem optF_eq {n rp : ℕ} {c s : List ℕ} {m p : List (List ℕ)} {C S : ℕ → Fr} (hc : ∀ i, cF c i = C i)
    (hs : ∀ r < rp, ∀ j < 2 * n + 1, cF s ((2 * n + 1) * r + j) = S ((2 * n + 1) * r + j))
    (x : Fin (n + 1) → Fr) : optF c s m p n rp x = optG C S (matF m) (matF p) rp x := by
  have hf : ∀ (m : List (List ℕ)) (off : ℕ) (y : Fin (n + 1) → Fr), fullF c m off y = fullG C (matF m) off y := by
    intro m off y
    simp only [fullF, fullG, hc]
  have hp : ∀ y, (List.range rp).foldl (partF c s n) y = (List.range rp).foldl (partG C S n) y :=
    fun y => foldl_congr' _ _ _ _ fun b r hr => partF_eq hc hs b r (List.mem_range.1 hr)
  rw [optF, optG]
  simp only [hf, hp, hc]

/-- one width: the code computes the textbook permutation with the generator's constants -/
theorem poseidonEx_text (n : ℕ) (h1 : 1 ≤ n) (h2 : n ≤ 16) : ∃ (rp N : ℕ) (consts points : List ℕ),
    PosSpec.partialRounds[n - 1]? = some rp ∧ reference (n + 1) rp N = some (consts, points) ∧
    ∀ (x : Fin n → Fr) (init : Fr) (k : ℕ) (hk : k ≤ n + 1),
      poseidonEx (List.ofFn x) init k = some (List.ofFn fun i : Fin k =>
        permutation consts points rp (Fin.cons init x : Fin (n + 1) → Fr) (Fin.castLE hk i)) := by
  obtain ⟨rp, m, C, S, M, P, R, xy, a1, a2, tc, ts, tm, tp, l1, l2, l3, l4, hk, hm, hg⟩ := width_facts n h1 h2
  refine ⟨rp, 6000 * m, _, _, a2, hg, ?_⟩
  intro x init k hk'
  obtain ⟨hc, hcond⟩ := chk_sound hk
  have lC : (C.flatMap (unpack (8 * (n + 1) + rp))).length = 8 * (n + 1) + rp := by
    rw [length_flat, l1, one_mul]
  have lS : (S.flatMap (unpack (2 * n + 1))).length = (2 * n + 1) * rp := by
    rw [length_flat, l2, mul_comm]
  rw [poseidonEx_ofFn x init k hk' a1 tc ts tm tp lC lS (square_rows n M l3) (square_rows n P l4)]
  have hC : ∀ i, cF (C.flatMap (unpack (8 * (n + 1) + rp))) i = ((ent (nth C 0) i : ℕ) : Fr) := by
    intro i
    conv_lhs => rw [single_of_length l1]
    exact cF_single _ _ hc i
  have hS : ∀ r < rp, ∀ j < 2 * n + 1, cF (S.flatMap (unpack (2 * n + 1))) ((2 * n + 1) * r + j) =
      (fun i : ℕ => ((cell S (i / (2 * n + 1)) (i % (2 * n + 1)) : ℕ) : Fr)) ((2 * n + 1) * r + j) := by
    intro r hr j hj
    rw [cF, getD_flat _ _ _ _ hj]
    simp only
    rw [Nat.mul_add_div (by omega), Nat.div_eq_of_lt hj, add_zero, Nat.mul_add_mod, Nat.mod_eq_of_lt hj]
  have hM : (matF (M.map (unpack (n + 1))) : Matrix (Fin (n + 1)) (Fin (n + 1)) Fr) = mM n M := by
    funext i j
    exact matF_rows n M l3 i j
  have hP : (matF (P.map (unpack (n + 1))) : Matrix (Fin (n + 1)) (Fin (n + 1)) Fr) = mM n P := by
    funext i j
    exact matF_rows n P l4 i j
  have hcau : (cauchy (unpack (2 * (n + 1)) xy) : Matrix (Fin (n + 1)) (Fin (n + 1)) Fr) = mM n M := by
    funext i j
    have := eqm_spec (allN_spec (allN_spec hm i i.2) j j.2)
    change ((cell M j i * (ent xy i + ent xy (n + 1 + j)) : ℕ) : Fr) = ((1 : ℕ) : Fr) at this
    rw [Nat.cast_mul, Nat.cast_add, Nat.cast_one] at this
    rw [cauchy, getD_unpack _ _ _ (by omega), getD_unpack _ _ _ (by omega)]
    exact (eq_inv_of_mul_eq_one_left this).symm
  have hR : (fun (k : ℕ) (i : Fin (n + 1)) => ((cell R k i : ℕ) : Fr)) = rc (R.flatMap (unpack (n + 1))) := by
    funext k i
    rw [rc, getD_flat _ _ _ _ i.2]
  rw [hR] at hcond
  have hopt : optF (C.flatMap (unpack (8 * (n + 1) + rp))) (S.flatMap (unpack (2 * n + 1)))
      (M.map (unpack (n + 1))) (P.map (unpack (n + 1))) n rp (Fin.cons init x) =
      permutation (R.flatMap (unpack (n + 1))) (unpack (2 * (n + 1)) xy) rp (Fin.cons init x) := by
    rw [permutation, hcau, ← textF_eq, ← opt_eq_text hcond, optF_eq (C := fun i => ((ent (nth C 0) i : ℕ) : Fr))
      (S := fun i : ℕ => ((cell S (i / (2 * n + 1)) (i % (2 * n + 1)) : ℕ) : Fr)) hC hS, hM, hP]
  rw [hopt]

/-! ### unsupported lengths -/

theorem partialRounds_none (n : ℕ) (h : n = 0 ∨ 16 < n) : partialRounds n = none := by
  rw [partialRounds]
  rcases h with rfl | h
  · rfl
  · rw [if_neg (by omega)]
    apply List.getElem?_eq_none
    simp only [nRoundsPC, List.length_cons, List.length_nil]
    omega

theorem poseidonEx_none (inputs : List Fr) (init : Fr) (k : ℕ)
    (h : inputs.length = 0 ∨ 16 < inputs.length) : poseidonEx inputs init k = none := by
  simp only [poseidonEx, partialRounds_none _ h]; rfl

theorem ofFn_get (l : List Fr) : l = List.ofFn fun i : Fin l.length => l[i] := by
  apply List.ext_getElem <;> simp

/-! ### the generator's output is unique -/

theorem output_prefix (t rp a b : ℕ) : ∃ e, output t rp (a + b) = output t rp a ++ e := by
  rw [output, List.range_add, List.filterMap_append]
  exact ⟨_, rfl⟩

theorem blocks_append (l e : List Bool) : ∃ e', blocks (l ++ e) = blocks l ++ e' := by
  refine ⟨(blocks (l ++ e)).drop (l.length / 254), ?_⟩
  conv_lhs => rw [← List.take_append_drop (l.length / 254) (blocks (l ++ e))]
  congr 1
  apply List.ext_getElem?
  intro j
  have hle : l.length / 254 ≤ (l ++ e).length / 254 := Nat.div_le_div_right (by simp)
  by_cases hj : j < l.length / 254
  · have h254 : 254 * (j + 1) ≤ l.length := by
      have := Nat.mul_le_mul_left 254 (Nat.succ_le_of_lt hj)
      have := Nat.mul_div_le l.length 254
      omega
    rw [List.getElem?_take_of_lt hj, blocks, blocks, List.getElem?_map, List.getElem?_map,
      List.getElem?_range hj, List.getElem?_range (by omega)]
    simp only [Option.map_some]
    congr 2
    rw [List.drop_append_of_le_length (by omega), List.take_append_of_le_length
      (by rw [List.length_drop]; omega)]
  · rw [List.getElem?_eq_none (by rw [List.length_take]; omega),
      List.getElem?_eq_none (by simp [blocks]; omega)]

theorem accept_append (q k : ℕ) (bs e a r : List ℕ) (h : accept q k bs = some (a, r)) :
    accept q k (bs ++ e) = some (a, r ++ e) := by
  induction bs generalizing k a with
  | nil =>
    cases k with
    | zero => rw [accept] at h ⊢; simp only [Option.some.injEq, Prod.mk.injEq] at h ⊢; simp [← h.1, ← h.2]
    | succ k => rw [accept] at h; exact absurd h (by simp)
  | cons b bs ih =>
    cases k with
    | zero => rw [accept] at h ⊢; simp only [Option.some.injEq, Prod.mk.injEq] at h ⊢; simp [← h.1, ← h.2]
    | succ k =>
      rw [List.cons_append, accept]
      rw [accept] at h
      split at h
      · next hb =>
        rw [if_pos hb]
        obtain ⟨⟨a', r'⟩, h1, h2⟩ := Option.map_eq_some_iff.1 h
        simp only [Prod.mk.injEq] at h2
        obtain ⟨rfl, rfl⟩ := h2
        rw [ih k a' h1]; rfl
      · next hb => rw [if_neg hb]; exact ih (k + 1) a h

theorem reference_mono {t rp a b : ℕ} {x : List ℕ × List ℕ} (h : reference t rp a = some x) :
    reference t rp (a + b) = some x := by
  obtain ⟨e, he⟩ := output_prefix t rp a b
  obtain ⟨e', he'⟩ := blocks_append (output t rp a) e
  rw [reference] at h ⊢
  rw [he, he']
  obtain ⟨⟨p, r⟩, h1, h2⟩ := Option.bind_eq_some_iff.1 h
  rw [accept_append _ _ _ e' _ _ h1]
  simp only [Option.bind_some]
  simp only at h2
  split at h2
  · next hl =>
    rw [if_pos (by rw [List.length_append]; omega), List.take_append_of_le_length hl]
    exact h2
  · exact absurd h2 (by simp)

theorem reference_unique {t rp a b : ℕ} {x y : List ℕ × List ℕ} (h : reference t rp a = some x)
    (h' : reference t rp b = some y) : x = y := by
  have h1 := reference_mono (b := b) h
  have h2 := reference_mono (b := a) h'
  rw [add_comm b a, h1] at h2
  exact Option.some.inj h2

end Spark.Poseidon
