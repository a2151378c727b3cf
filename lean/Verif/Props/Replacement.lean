import Verif.Props.Helpers

/-!
# C102: what `generateNew` can produce, and when it stops

C69 says what a result of `generateNew` looks like.  Here: every such key set is a result for suitable random numbers, no
sequence of random numbers leads to a panic, and the loop stops exactly when enough different positions were drawn.
-/

namespace Spark.HelperProps
open Spark Circ Spec Circuit Pairing PairingProps CircuitProps GroupProps Helpers
open scoped BigOperators
set_option maxRecDepth 100000

/-- the random numbers that put the entries of `sk', w', b'` at the positions in `l` -/
def drawsFor (sk' w' b' : Fin 10 → ℕ) (l : List (Fin 10)) : List ℕ := l.flatMap fun i => [i.val, sk' i, w' i, b' i]

theorem replaceLoop_fresh (count : ℕ) (m : List ℕ) (sk w b : Fin 10 → ℕ) (d dsk dw db : ℕ) (ds : List ℕ)
    (h : d % 2 ^ 4 % 10 ∉ m) : ∃ i : Fin 10, i.val = d % 2 ^ 4 % 10 ∧
      replaceLoop (count + 1) m (slices sk w b) (d :: dsk :: dw :: db :: ds) =
        replaceLoop count (i.val :: m) (slices (Function.update sk i (dsk % 2 ^ 230)) (Function.update w i (dw % 2 ^ 10))
          (Function.update b i (db % 2))) ds := by
  refine ⟨⟨d % 2 ^ 4 % 10, Nat.mod_lt _ (by norm_num)⟩, rfl, ?_⟩
  conv_lhs => rw [replaceLoop.eq_def]
  dsimp only
  rw [if_neg h]
  have := replaceAt_slices sk w b ⟨d % 2 ^ 4 % 10, Nat.mod_lt _ (by norm_num)⟩ (dsk % 2 ^ 230) (dw % 2 ^ 10) (db % 2 ^ 1)
  dsimp only at this
  rw [this]
  simp only [bind, Option.bind_some, pow_one]

theorem replaceLoop_again (count : ℕ) (m : List ℕ) (s : Slices) (d : ℕ) (ds : List ℕ) (h : d % 2 ^ 4 % 10 ∈ m) :
    replaceLoop (count + 1) m s (d :: ds) = replaceLoop (count + 1) m s ds := by
  conv_lhs => rw [replaceLoop.eq_def]
  dsimp only
  rw [if_pos h]

theorem replaceLoop_list (sk' w' b' : Fin 10 → ℕ) (rest : List ℕ) (l : List (Fin 10)) :
    ∀ (m : List ℕ) (sk w b : Fin 10 → ℕ), l.Nodup → (∀ i ∈ l, i.val ∉ m) →
      (∀ i ∈ l, sk' i < 2 ^ 230 ∧ w' i < 2 ^ 10 ∧ b' i < 2) →
      replaceLoop l.length m (slices sk w b) (drawsFor sk' w' b' l ++ rest) =
        some (slices (fun i => if i ∈ l then sk' i else sk i) (fun i => if i ∈ l then w' i else w i)
          (fun i => if i ∈ l then b' i else b i), rest) := by
  induction l with
  | nil => intro m sk w b _ _ _; simp [drawsFor, replaceLoop]
  | cons a l ih =>
    intro m sk w b hn hm hl
    have ha : a.val % 2 ^ 4 % 10 = a.val := by have := a.2; omega
    obtain ⟨h1, h2, h3⟩ := hl a (by simp)
    obtain ⟨i, hi, e⟩ := replaceLoop_fresh l.length m sk w b a.val (sk' a) (w' a) (b' a) (drawsFor sk' w' b' l ++ rest)
      (by rw [ha]; exact hm a (by simp))
    obtain rfl : i = a := Fin.ext (hi.trans ha)
    rw [Nat.mod_eq_of_lt h1, Nat.mod_eq_of_lt h2, Nat.mod_eq_of_lt h3] at e
    obtain ⟨hnl, hnd⟩ := List.nodup_cons.1 hn
    change replaceLoop (l.length + 1) m _ (i.val :: sk' i :: w' i :: b' i :: (drawsFor sk' w' b' l ++ rest)) = _
    rw [e, ih _ _ _ _ hnd (fun j hj => by
      rw [List.mem_cons, not_or]
      exact ⟨fun h => hnl (Fin.ext h ▸ hj), hm j (by simp [hj])⟩) fun j hj => hl j (by simp [hj])]
    have key : ∀ f f' : Fin 10 → ℕ, (fun j => if j ∈ l then f' j else Function.update f i (f' i) j) =
        fun j => if j ∈ i :: l then f' j else f j := fun f f' => funext fun j => by
      by_cases hj : j ∈ l
      · rw [if_pos hj, if_pos (by simp [hj])]
      · rw [if_neg hj]
        by_cases hji : j = i
        · subst hji; rw [Function.update_self, if_pos (by simp)]
        · rw [Function.update_of_ne hji, if_neg (by simp [hj, hji])]
    rw [key, key, key]

/-- a position not yet drawn -/
theorem fresh_list (count : ℕ) (m : List ℕ) (h : count + m.length ≤ 10) :
    ∃ l : List (Fin 10), l.length = count ∧ l.Nodup ∧ ∀ i ∈ l, i.val ∉ m := by
  classical
  have hc : count ≤ (Finset.univ.filter fun i : Fin 10 => i.val ∉ m).card := by
    have h1 : (Finset.univ.filter fun i : Fin 10 => i.val ∈ m).card ≤ m.length := by
      rw [← Finset.card_map Fin.valEmbedding]
      refine (Finset.card_le_card (t := m.toFinset) fun x hx => ?_).trans (List.toFinset_card_le m)
      obtain ⟨i, hi, rfl⟩ := Finset.mem_map.1 hx
      exact List.mem_toFinset.2 (Finset.mem_filter.1 hi).2
    have h2 := Finset.card_filter_add_card_filter_not (s := (Finset.univ : Finset (Fin 10))) fun i => i.val ∈ m
    rw [Finset.card_univ, Fintype.card_fin] at h2
    omega
  obtain ⟨t, ht, htc⟩ := Finset.exists_subset_card_eq hc
  exact ⟨t.toList, by rw [Finset.length_toList, htc], t.nodup_toList, fun i hi =>
    (Finset.mem_filter.1 (ht (Finset.mem_toList.1 hi))).2⟩

theorem replaceLoop_progress (n : ℕ) : ∀ (count : ℕ) (m : List ℕ) (sk w b : Fin 10 → ℕ) (draws : List ℕ),
    draws.length ≤ n → count + m.length ≤ 10 → ∃ more out, replaceLoop count m (slices sk w b) (draws ++ more) = some out := by
  induction n using Nat.strong_induction_on with
  | _ n ih =>
    intro count m sk w b draws hn hc
    rcases count with _ | count
    · exact ⟨[], _, by rw [replaceLoop]⟩
    rcases draws with _ | ⟨d, ds⟩
    · obtain ⟨l, h1, h2, h3⟩ := fresh_list (count + 1) m hc
      have := replaceLoop_list (fun _ => 0) (fun _ => 0) (fun _ => 0) [] l m sk w b h2 h3 (fun _ _ => by norm_num)
      rw [h1] at this
      exact ⟨_, _, this⟩
    by_cases hd : d % 2 ^ 4 % 10 ∈ m
    · obtain ⟨more, out, h⟩ := ih ds.length (by simp at hn; omega) (count + 1) m sk w b ds le_rfl hc
      exact ⟨more, out, by rw [List.cons_append, replaceLoop_again _ _ _ _ _ hd, h]⟩
    · have step : ∀ (x y z : ℕ) (tl : List ℕ), tl.length < n → ∃ more out,
          replaceLoop (count + 1) m (slices sk w b) (d :: x :: y :: z :: (tl ++ more)) = some out := by
        intro x y z tl htl
        have hf := fun more => replaceLoop_fresh count m sk w b d x y z (tl ++ more) hd
        choose i hi hf using hf
        obtain ⟨i0, h0⟩ : ∃ i0, ∀ mm, i mm = i0 := ⟨i [], fun mm => Fin.ext ((hi mm).trans (hi []).symm)⟩
        simp only [h0] at hf
        obtain ⟨more, out, h⟩ := ih tl.length htl count (i0.val :: m) _ _ _ tl le_rfl (by
          rw [List.length_cons]; omega)
        exact ⟨more, out, (hf more).trans h⟩
      simp only [List.length_cons] at hn
      rcases ds with _ | ⟨x, _ | ⟨y, _ | ⟨z, tl⟩⟩⟩
      · obtain ⟨more, out, h⟩ := step 0 0 0 [] (by simp; omega)
        exact ⟨0 :: 0 :: 0 :: more, out, h⟩
      · obtain ⟨more, out, h⟩ := step x 0 0 [] (by simp; omega)
        exact ⟨0 :: 0 :: more, out, h⟩
      · obtain ⟨more, out, h⟩ := step x y 0 [] (by simp; omega)
        exact ⟨0 :: more, out, h⟩
      · simp only [List.length_cons] at hn
        obtain ⟨more, out, h⟩ := step x y z tl (by omega)
        exact ⟨more, out, h⟩

theorem replaceLoop_append (more : List ℕ) (n : ℕ) : ∀ (count : ℕ) (m : List ℕ) (s : Slices) (draws : List ℕ)
    (out : Slices) (rest : List ℕ), draws.length ≤ n → replaceLoop count m s draws = some (out, rest) →
    replaceLoop count m s (draws ++ more) = some (out, rest ++ more) := by
  induction n using Nat.strong_induction_on with
  | _ n ih =>
    intro count m s draws out rest hn h
    rcases count with _ | count
    · rw [replaceLoop] at h ⊢
      obtain ⟨rfl, rfl⟩ := Prod.mk.inj (Option.some.inj h)
      rfl
    rcases draws with _ | ⟨d, ds⟩
    · rw [replaceLoop] at h; cases h
    by_cases hd : d % 2 ^ 4 % 10 ∈ m
    · rw [replaceLoop_again _ _ _ _ _ hd] at h
      rw [List.cons_append, replaceLoop_again _ _ _ _ _ hd]
      exact ih ds.length (by simp at hn; omega) _ _ _ _ _ _ le_rfl h
    · rw [replaceLoop.eq_def] at h ⊢
      dsimp only [List.cons_append] at h ⊢
      rw [if_neg hd] at h ⊢
      rcases ds with _ | ⟨x, _ | ⟨y, _ | ⟨z, tl⟩⟩⟩
      · cases h
      · cases h
      · cases h
      · dsimp only [List.cons_append] at h ⊢
        rcases hr : replaceAt s (d % 2 ^ 4 % 10) (x % 2 ^ 230) (y % 2 ^ 10) (z % 2 ^ 1) with _ | s'
        · rw [hr] at h; cases h
        · rw [hr] at h
          simp only [bind, Option.bind_some] at h ⊢
          exact ih tl.length (by simp at hn; omega) _ _ _ _ _ _ le_rfl h

theorem count_of (n : ℕ) (h1 : 1 ≤ n) (h3 : n ≤ 3) : (if n % 2 ^ 2 = 0 then 2 else n % 2 ^ 2) = n := by
  rw [if_neg (by omega)]; omega

open Classical in
/-- **C102.** The results of `generateNew` are exactly: the key set with one to three validators replaced by arbitrary
secret keys below `2^230`, weights below `2^10` and bits; its commitment; the hash of the commitment's bytes; the signature
of the signers on it; and the weight of the signers whose key has the abscissa of an old one. -/
theorem c102_results {H : List ℕ → Option ℕ} (hH : IsIden3Hash H) (hashG2 : List Fips.Byte → ETwist Fp)
    (sk w b : Fin 10 → ℕ) (hb : ∀ i, b i < 2) (hw : ∀ i, w i < frOrder) (out : NewSet) :
    (∃ draws rest, generateNew H hashG2 (List.ofFn sk) (List.ofFn fun i => sk i • G1gen) (List.ofFn w) (List.ofFn b) draws =
      some (out, rest)) ↔
    ∃ (R : Finset (Fin 10)) (sk' w' b' : Fin 10 → ℕ), (1 ≤ R.card ∧ R.card ≤ 3) ∧ Replaced R sk w b sk' w' b' ∧
      out.publicKeys = List.ofFn (fun i => sk' i • G1gen) ∧ out.weights = List.ofFn w' ∧ out.bitlist = List.ofFn b' ∧
      out.commitment < frOrder ∧ CommitmentOf sk' w' out.commitment ∧ out.msg = hashG2 (bigBytes out.commitment) ∧
      out.signature = aggregateSignature sk' (fun i => b' i = 1) out.msg ∧
      out.trustedWeight = ∑ i, if b' i = 1 ∧ ∃ j, (enc1 (sk' i • G1gen)).X = (enc1 (sk j • G1gen)).X
        then int64 (w' i) else 0 := by
  constructor
  · rintro ⟨draws, rest, h⟩
    exact c69_generate_new hH hashG2 sk w b hb hw draws rest out h
  · rintro ⟨R, sk', w', b', ⟨h1, h3⟩, hr, e1, e2, e3, hlt, hcom, e4, e5, e6⟩
    have hl := replaceLoop_list sk' w' b' [] R.toList [] sk w b R.nodup_toList (fun _ _ => List.not_mem_nil)
      fun i hi => hr.fresh i (Finset.mem_toList.1 hi)
    have hf : ∀ f f' : Fin 10 → ℕ, (∀ i, i ∉ R → f' i = f i) → (fun i => if i ∈ R.toList then f' i else f i) = f' :=
      fun f f' h => funext fun i => by
        by_cases hi : i ∈ R
        · rw [if_pos (Finset.mem_toList.2 hi)]
        · rw [if_neg fun hh => hi (Finset.mem_toList.1 hh), h i hi]
    rw [hf sk sk' fun i hi => (hr.same i hi).1, hf w w' fun i hi => (hr.same i hi).2.1,
      hf b b' fun i hi => (hr.same i hi).2.2, Finset.length_toList] at hl
    have hb' : ∀ i, b' i < 2 := fun i => by
      by_cases hi : i ∈ R
      · exact (hr.fresh i hi).2.2
      · rw [(hr.same i hi).2.2]; exact hb i
    have hw' : ∀ i, w' i < frOrder := fun i => by
      by_cases hi : i ∈ R
      · exact (hr.fresh i hi).2.1.trans (by decide +kernel)
      · rw [(hr.same i hi).2.1]; exact hw i
    obtain ⟨c, hc, hcc, h⟩ := generateNew_of hH hashG2 sk w b sk' w' b' hb' hw' R.card _ []
      (by rw [count_of _ h1 h3]; exact hl)
    have hcN : c = out.commitment := by
      have := (ZMod.natCast_eq_natCast_iff' c out.commitment frOrder).1 (isCommitment_unique hcc hcom)
      rwa [Nat.mod_eq_of_lt hc, Nat.mod_eq_of_lt hlt] at this
    refine ⟨_, [], h.trans ?_⟩
    rw [hcN, ← e4, ← e1, ← e2, ← e3, ← e5, ← e6]

/-- **C102, no panic.** Whatever numbers were drawn so far, further ones let the helper return. -/
theorem c102_progress {H : List ℕ → Option ℕ} (hH : IsIden3Hash H) (hashG2 : List Fips.Byte → ETwist Fp)
    (sk w b : Fin 10 → ℕ) (hb : ∀ i, b i < 2) (hw : ∀ i, w i < frOrder) (draws : List ℕ) :
    ∃ more out rest, generateNew H hashG2 (List.ofFn sk) (List.ofFn fun i => sk i • G1gen) (List.ofFn w) (List.ofFn b)
      (draws ++ more) = some (out, rest) := by
  have key : ∀ (dc : ℕ) (ds : List ℕ), ∃ more out rest, generateNew H hashG2 (List.ofFn sk) (List.ofFn fun i => sk i • G1gen)
      (List.ofFn w) (List.ofFn b) (dc :: (ds ++ more)) = some (out, rest) := by
    intro dc ds
    have hc : (if dc % 2 ^ 2 = 0 then 2 else dc % 2 ^ 2) + ([] : List ℕ).length ≤ 10 := by
      have := Nat.mod_lt dc (show 2 ^ 2 > 0 by norm_num)
      rw [List.length_nil]
      split <;> omega
    obtain ⟨more, ⟨s, rest⟩, h⟩ := replaceLoop_progress _ _ [] sk w b ds le_rfl hc
    obtain ⟨R, sk', w', b', -, -, hr, rfl⟩ := replaceLoop_spec _ _ _ _ _ _ _ _ le_rfl h
    obtain ⟨c, -, -, h⟩ := generateNew_of hH hashG2 sk w b sk' w' b' (fun i => by
      by_cases hi : i ∈ R
      · exact (hr.fresh i hi).2.2
      · rw [(hr.same i hi).2.2]; exact hb i) (fun i => by
      by_cases hi : i ∈ R
      · exact (hr.fresh i hi).2.1.trans (by decide +kernel)
      · rw [(hr.same i hi).2.1]; exact hw i) dc _ rest h
    exact ⟨more, _, rest, h⟩
  rcases draws with _ | ⟨dc, ds⟩
  · obtain ⟨more, out, rest, h⟩ := key 1 []
    exact ⟨_, out, rest, h⟩
  · exact key dc ds

theorem setIdx_none {α : Type} {l : List α} {i : ℕ} (h : l.length ≤ i) (x : α) : setIdx l i x = none := if_neg (not_lt.2 h)

theorem replaceAt_short {s : Slices} {i : ℕ} (h : s.privateKeys.length ≤ i ∨ s.weights.length ≤ i ∨ s.bitlist.length ≤ i)
    (x y z : ℕ) : replaceAt s i x y z = none := by
  unfold replaceAt
  simp only [bind]
  rcases h with h | h | h
  · rw [setIdx_none h]; rfl
  · rw [setIdx_none h]; cases setIdx s.privateKeys i x <;> cases setIdx s.publicKeys i (genPublickey x) <;> rfl
  · rw [setIdx_none h]
    cases setIdx s.privateKeys i x <;> cases setIdx s.publicKeys i (genPublickey x) <;> cases setIdx s.weights i y <;> rfl

/-- **C102, short slices.** With other than ten public keys the helper panics, and also if the first position it draws is beyond the
end of the private keys, the weights or the bits. -/
theorem c102_short (H : List ℕ → Option ℕ) (hashG2 : List Fips.Byte → ETwist Fp) (sk : List ℕ) (K : List (E1 Fp))
    (w b draws : List ℕ) (dc d : ℕ) (h : K.length ≠ 10 ∨ sk.length ≤ d % 2 ^ 4 % 10 ∨ w.length ≤ d % 2 ^ 4 % 10 ∨
      b.length ≤ d % 2 ^ 4 % 10) : generateNew H hashG2 sk K w b (dc :: d :: draws) = none := by
  rw [generateNew]
  split
  · rfl
  rename_i hl
  have h := h.resolve_left hl
  simp only [genRandom, bind, Option.bind_some]
  have hc : ∃ n, (if dc % 2 ^ 2 = 0 then 2 else dc % 2 ^ 2) = n + 1 := by
    split
    · exact ⟨1, rfl⟩
    · rename_i h0; exact ⟨_, (Nat.succ_pred_eq_of_ne_zero h0).symm⟩
  obtain ⟨n, hn⟩ := hc
  rw [hn]
  have : replaceLoop (n + 1) [] ⟨w, K, b, sk⟩ (d :: draws) = none := by
    rcases draws with _ | ⟨x, _ | ⟨y, _ | ⟨z, ds⟩⟩⟩
    · rw [replaceLoop] <;> simp
    · rw [replaceLoop] <;> simp
    · rw [replaceLoop] <;> simp
    · rw [replaceLoop, if_neg List.not_mem_nil]
      rw [replaceAt_short h]; rfl
  rw [this]; rfl

/-- **C102, unused draws.** Random numbers that were not drawn do not matter. -/
theorem c102_unused (H : List ℕ → Option ℕ) (hashG2 : List Fips.Byte → ETwist Fp) (sk : List ℕ) (K : List (E1 Fp))
    (w b draws rest more : List ℕ) (out : NewSet) (h : generateNew H hashG2 sk K w b draws = some (out, rest)) :
    generateNew H hashG2 sk K w b (draws ++ more) = some (out, rest ++ more) := by
  rw [generateNew] at h ⊢
  split at h
  · cases h
  rename_i hl
  rw [if_neg hl]
  rcases draws with _ | ⟨dc, draws⟩
  · cases h
  simp only [genRandom, bind, Option.bind_some, List.cons_append] at h ⊢
  rcases hr : replaceLoop (if dc % 2 ^ 2 = 0 then 2 else dc % 2 ^ 2) [] ⟨w, K, b, sk⟩ draws with _ | ⟨s, ds⟩
  · rw [hr] at h; cases h
  · rw [hr, Option.bind_some] at h
    rw [replaceLoop_append more _ _ _ _ _ _ _ le_rfl hr, Option.bind_some]
    dsimp only at h ⊢
    rcases hc : genCommitment H (s.publicKeys.map coords) s.weights with _ | c
    · rw [hc] at h; cases h
    rw [hc, Option.bind_some] at h
    rw [Option.bind_some]
    rcases hf : (List.range 10).foldlM (signRound s (K.map fun pk => (coords pk).X) (hashG2 (bigBytes c))) (0, 0) with _ | ⟨sig, tw⟩
    · rw [hf] at h; cases h
    rw [hf, Option.bind_some] at h
    rw [Option.bind_some]
    obtain ⟨rfl, rfl⟩ := Prod.mk.inj (Option.some.inj h)
    rfl

/-- **C102, no bound.** There is no bound on the number of draws: while the same position comes up again, the helper goes
on drawing. -/
theorem c102_unbounded (H : List ℕ → Option ℕ) (hashG2 : List Fips.Byte → ETwist Fp) (sk w b : Fin 10 → ℕ)
    (i : Fin 10) (s x y n : ℕ) :
    generateNew H hashG2 (List.ofFn sk) (List.ofFn fun i => sk i • G1gen) (List.ofFn w) (List.ofFn b)
      (2 :: i.val :: s :: x :: y :: List.replicate n i.val) = none := by
  have hi : i.val % 2 ^ 4 % 10 = i.val := by have := i.2; omega
  rw [generateNew, if_neg (by simp)]
  simp only [genRandom, bind, Option.bind_some]
  change (replaceLoop (1 + 1) [] (slices sk w b) _).bind _ = _
  obtain ⟨j, hj, e⟩ := replaceLoop_fresh 1 [] sk w b i.val s x y (List.replicate n i.val) List.not_mem_nil
  rw [e]
  have key : ∀ n s, replaceLoop 1 [j.val] s (List.replicate n i.val) = none := fun n s => by
    induction n with
    | zero => rw [List.replicate_zero, replaceLoop]
    | succ n ih =>
      rw [List.replicate_succ, replaceLoop_again 0 _ _ _ _ (by rw [hi, hj, hi]; simp)]
      exact ih
  rw [key]; rfl

end Spark.HelperProps
