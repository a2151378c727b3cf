import Verif.Model.Circuit
import Verif.Lemmas.PoseidonAll
import Verif.Lemmas.Reduce
import Mathlib.Algebra.BigOperators.Fin

/-! Exact behaviour of the building blocks of the transaction and rotation circuits. -/

namespace Spark.Circuit

open Circ

theorem reduceFp_eq (x : Fp) : reduceFp x = pure x := by
  refine exact_iff_pure.1 ⟨?_, ?_⟩
  · rw [reduceFp, run_bind, G2.fpReduce_run, Option.bind_some, run_pure, ZMod.natCast_zmod_val]
  · rintro b ⟨a, h, rfl⟩
    rw [G2.fpReduce_sat] at h
    exact h.2

/-! ### booleans -/

theorem apiAssertBool_not {s : Fr} (h : ∀ b, s ≠ bit b) : apiAssertBool s = fail :=
  assert_false fun h' => by
    obtain ⟨b, hb⟩ := (bool_iff_bit s).1 h'
    exact h b hb

theorem apiSelect_not {s : Fr} (h : ∀ b, s ≠ bit b) (x y : Fr) : apiSelect s x y = fail := by
  rw [apiSelect, apiAssertBool_not h, fail_bind]

theorem apiSelect_bit' (b : Bool) (x y : Fr) : apiSelect (bit b) x y = pure (if b then x else y) := by
  cases b <;> simp [apiSelect, apiAssertBool, assert]
  all_goals
    refine exact_iff_pure.1 ⟨by simp, ?_⟩
    intro c hc
    simpa using hc

theorem apiOr_bit' (a b : Bool) : apiOr (bit a) (bit b) = pure (bit (a || b)) := by
  rw [apiOr, apiAssertBool_bit, pure_bind, apiAssertBool_bit, pure_bind]
  cases a <;> cases b <;> simp

/-! ### selection of a key -/

/-- the value of `selectKey` -/
def selVal (mode : Mode) (b : Bool) (key : G1In) : G1Var :=
  ⟨if b then key.X.val else 0, if b then key.Y.val else 0, match mode with
    | .compiled => false
    | .engine => !b⟩

/-- the limb widths of a key -/
def G1In.Fits (k : G1In) : Prop := k.X.Fits ∧ k.Y.Fits

theorem useElement_fits {l : Limbs} (h : l.Fits) : useElement l = pure l.val := by
  rw [useElement, assert_true h, pure_bind]

theorem useElement_not {l : Limbs} (h : ¬ l.Fits) : useElement l = fail := by
  rw [useElement, assert_false h, fail_bind]

theorem selectKey_eq (mode : Mode) (b : Bool) {key : G1In} (h : key.Fits) :
    selectKey mode (bit b) key = pure (selVal mode b key) := by
  rw [selectKey.eq_def, useElement_fits h.1, pure_bind, fpSelect_bit, pure_bind, useElement_fits h.2, pure_bind,
    fpSelect_bit, pure_bind, selVal.eq_def]
  cases mode <;> cases b <;> simp

theorem selectKey_not (mode : Mode) {s : Fr} (h : ∀ b, s ≠ bit b) (key : G1In) : selectKey mode s key = fail := by
  rw [selectKey.eq_def]
  by_cases hx : key.X.Fits
  · rw [useElement_fits hx, pure_bind, fpSelect_nonbool _ h, fail_bind]
  · rw [useElement_not hx, fail_bind]

theorem selectKey_unfit (mode : Mode) (s : Fr) {key : G1In} (h : ¬ key.Fits) : selectKey mode s key = fail := by
  by_cases hb : ∃ b, s = bit b
  · obtain ⟨b, rfl⟩ := hb
    rw [selectKey.eq_def]
    by_cases hx : key.X.Fits
    · rw [useElement_fits hx, pure_bind, fpSelect_bit, pure_bind, useElement_not fun hy => h ⟨hx, hy⟩, fail_bind]
    · rw [useElement_not hx, fail_bind]
  · exact selectKey_not mode (fun b hb' => hb ⟨b, hb'⟩) key

/-! ### aggregation -/

theorem bind_fail {α β : Type} (m : Circ α) : (m >>= fun _ => (fail : Circ β)) = fail :=
  eq_fail fun b => by simp

theorem aggregateLoop_eq (mode : Mode) (L : List (G1In × Bool × Fr)) (h : ∀ x ∈ L, x.1.Fits) (t : Fr) :
    aggregateLoop mode (L.map fun x => (x.1, bit x.2.1, x.2.2)) t =
      pure (t + (L.map fun x => if x.2.1 then x.2.2 else 0).sum, L.map fun x => selVal mode x.2.1 x.1) := by
  induction L generalizing t with
  | nil => simp [aggregateLoop]
  | cons x L ih =>
    obtain ⟨k, b, w⟩ := x
    rw [List.map_cons, aggregateLoop, selectKey_eq mode b (h _ List.mem_cons_self), pure_bind,
      apiSelect_bit', pure_bind, ih fun y hy => h y (List.mem_cons_of_mem _ hy), pure_bind]
    simp only [List.map_cons, List.sum_cons]
    congr 2
    cases b <;> simp [add_assoc]

theorem aggregateLoop_fail (mode : Mode) (L : List (G1In × Fr × Fr)) (t : Fr)
    (h : ∃ x ∈ L, ¬ (x.1.Fits ∧ ∃ b, x.2.1 = bit b)) : aggregateLoop mode L t = fail := by
  induction L generalizing t with
  | nil => simp at h
  | cons x L ih =>
    obtain ⟨k, s, w⟩ := x
    rw [aggregateLoop]
    by_cases hx : k.Fits ∧ ∃ b, s = bit b
    · obtain ⟨hf, b, rfl⟩ := hx
      have h' : ∃ x ∈ L, ¬ (x.1.Fits ∧ ∃ b, x.2.1 = bit b) := by
        obtain ⟨y, hy, hn⟩ := h
        rcases List.mem_cons.1 hy with rfl | hy
        · exact absurd ⟨hf, b, rfl⟩ hn
        · exact ⟨y, hy, hn⟩
      rw [selectKey_eq mode b hf, pure_bind, apiSelect_bit', pure_bind, ih _ h', fail_bind]
    · have : selectKey mode s k = fail := by
        by_cases hf : k.Fits
        · exact selectKey_not mode (fun b e => hx ⟨hf, b, e⟩) k
        · exact selectKey_unfit mode s hf
      rw [this, fail_bind]

/-- the list handed to the additions -/
def selected (mode : Mode) (keys : Fin 10 → G1In) (bs : Fin 10 → Bool) : List G1Var :=
  List.ofFn fun i => selVal mode (bs i) (keys i)

theorem aggregate_eq (mode : Mode) {keys : Fin 10 → G1In} (bs : Fin 10 → Bool) (weights : Fin 10 → Fr) (t : Fr)
    (hf : ∀ i, (keys i).Fits) :
    aggregatePublicKeys mode keys (fun i => bit (bs i)) weights t =
      (assert ((∑ i, if bs i then weights i else 0) = t) >>= fun _ => addAll (selected mode keys bs)) := by
  have e : (List.ofFn fun i => (keys i, bit (bs i), weights i)) =
      (List.ofFn fun i => (keys i, bs i, weights i)).map fun x => (x.1, bit x.2.1, x.2.2) := by
    rw [List.map_ofFn]; rfl
  rw [aggregatePublicKeys, e, aggregateLoop_eq, pure_bind]
  · simp only [List.map_ofFn, Function.comp_def, List.sum_ofFn, zero_add]
    rfl
  · intro x hx
    obtain ⟨i, rfl⟩ := (List.mem_ofFn' _ _).1 hx
    exact hf i

theorem aggregate_fail (mode : Mode) {keys : Fin 10 → G1In} {bits : Fin 10 → Fr} (weights : Fin 10 → Fr) (t : Fr)
    (h : ¬ ((∀ i, (keys i).Fits) ∧ ∃ bs : Fin 10 → Bool, bits = fun i => bit (bs i))) :
    aggregatePublicKeys mode keys bits weights t = fail := by
  rw [aggregatePublicKeys, aggregateLoop_fail, fail_bind]
  by_contra hc
  push Not at hc
  have hc' : ∀ i, (keys i).Fits ∧ ∃ b, bits i = bit b := fun i =>
    hc (keys i, bits i, weights i) ((List.mem_ofFn' _ _).2 ⟨i, rfl⟩)
  choose h1 bs h2 using hc'
  exact h ⟨h1, bs, funext h2⟩

theorem mapM_pure {α β : Type} (l : List α) (f : α → Circ β) (g : α → β) (h : ∀ x ∈ l, f x = pure (g x)) :
    l.mapM f = pure (l.map g) := by
  induction l with
  | nil => rfl
  | cons a l ih =>
    rw [List.mapM_cons, h a List.mem_cons_self, pure_bind, ih fun x hx => h x (List.mem_cons_of_mem _ hx), pure_bind]
    rfl

theorem mapM_fail {α β : Type} (l : List α) (f : α → Circ β) (h : ∃ x ∈ l, f x = fail) : l.mapM f = fail := by
  induction l with
  | nil => simp at h
  | cons a l ih =>
    rw [List.mapM_cons]
    by_cases ha : f a = fail
    · rw [ha, fail_bind]
    · have : ∃ x ∈ l, f x = fail := by
        obtain ⟨x, hx, e⟩ := h
        rcases List.mem_cons.1 hx with rfl | hx
        · exact absurd e ha
        · exact ⟨x, hx, e⟩
      rw [ih this]
      simp only [fail_bind]
      exact bind_fail _

theorem aggregateRotate_eq (mode : Mode) {keys : Fin 10 → G1In} (bs : Fin 10 → Bool) (hf : ∀ i, (keys i).Fits) :
    aggregatePublicKeysRotate mode keys (fun i => bit (bs i)) = addAll (selected mode keys bs) := by
  have e : (List.ofFn fun i => (keys i, bit (bs i))) =
      (List.ofFn fun i => (keys i, bs i)).map fun x => (x.1, bit x.2) := by
    rw [List.map_ofFn]; rfl
  rw [aggregatePublicKeysRotate, e, List.mapM_map,
    mapM_pure _ _ (fun x : G1In × Bool => selVal mode x.2 x.1), pure_bind, List.map_ofFn]
  · rfl
  · intro x hx
    obtain ⟨i, rfl⟩ := (List.mem_ofFn' _ _).1 hx
    exact selectKey_eq mode (bs i) (hf i)

theorem aggregateRotate_fail (mode : Mode) {keys : Fin 10 → G1In} {bits : Fin 10 → Fr}
    (h : ¬ ((∀ i, (keys i).Fits) ∧ ∃ bs : Fin 10 → Bool, bits = fun i => bit (bs i))) :
    aggregatePublicKeysRotate mode keys bits = fail := by
  rw [aggregatePublicKeysRotate, mapM_fail, fail_bind]
  by_contra hc
  have hc' : ∀ i, (keys i).Fits ∧ ∃ b, bits i = bit b := fun i => by
    by_contra hx
    refine hc ⟨(keys i, bits i), (List.mem_ofFn' _ _).2 ⟨i, rfl⟩, ?_⟩
    by_cases hf : (keys i).Fits
    · exact selectKey_not mode (fun b e => hx ⟨hf, b, e⟩) _
    · exact selectKey_unfit mode _ hf
  choose h1 bs h2 using hc'
  exact h ⟨h1, bs, funext h2⟩

/-! ### commitments -/

/-- Poseidon of a list of a supported length -/
def pos (xs : List Fr) : Fr := (Poseidon.poseidon xs).getD 0

theorem poseidon_pos {xs : List Fr} (h1 : 1 ≤ xs.length) (h2 : xs.length ≤ 16) :
    Poseidon.poseidon xs = some (pos xs) := by
  obtain ⟨rp, N, consts, points, -, -, h⟩ := Poseidon.poseidonEx_text xs.length h1 h2
  have := h (fun i => xs[i]) 0 1 (by omega)
  rw [← Poseidon.ofFn_get] at this
  rw [pos, Poseidon.poseidon, this]
  simp

theorem poseidonC_pos {xs : List Fr} (h1 : 1 ≤ xs.length) (h2 : xs.length ≤ 16) :
    Poseidon.poseidonC xs = pure (pos xs) := by
  rw [Poseidon.poseidonC, poseidon_pos h1 h2]

/-- hash of one validator -/
def valHash (key : G1In) (w : Fr) : Fr := pos [pos (List.ofFn key.X), pos (List.ofFn key.Y), w]

/-- the commitment to a validator set -/
def commit (keys : Fin 10 → G1In) (weights : Fin 10 → Fr) : Fr :=
  pos (List.ofFn fun i => valHash (keys i) (weights i))

theorem computeAPKCommitment_eq (keys : Fin 10 → G1In) (weights : Fin 10 → Fr) :
    computeAPKCommitment keys weights = pure (commit keys weights) := by
  rw [computeAPKCommitment, mapM_pure _ _ (fun i => valHash (keys i) (weights i)), pure_bind, poseidonC_pos]
  · rw [commit, List.ofFn_eq_map]
  · simp
  · simp
  · intro i _
    rw [poseidonC_pos (by simp) (by simp), pure_bind, poseidonC_pos (by simp) (by simp), pure_bind,
      poseidonC_pos (by simp) (by simp)]
    rfl

/-! ### trusted weight -/

theorem apiCmp_cases (a b : Fr) : (a = b ∧ apiCmp a b = 0) ∨ (a ≠ b ∧ (apiCmp a b = 1 ∨ apiCmp a b = -1)) := by
  have hinj : a.val = b.val ↔ a = b := (ZMod.val_injective frOrder).eq_iff
  rw [apiCmp]
  by_cases h : a = b
  · left; subst h; simp
  · right
    refine ⟨h, ?_⟩
    by_cases hl : a.val < b.val
    · right; rw [if_pos hl]
    · left; rw [if_neg hl, if_neg fun e => h (hinj.1 e)]

theorem one_ne_neg_one_Fr : (1 : Fr) ≠ -1 := by decide +kernel

theorem apiCmp_zero_right {a : Fr} (h : a ≠ 0) : apiCmp a 0 = 1 := by
  have hv : a.val ≠ 0 := fun e => h ((ZMod.val_eq_zero a).1 e)
  rw [apiCmp, ZMod.val_zero, if_neg (by omega), if_neg hv]

/-- the double comparison of the code is the inequality test -/
theorem apiCmp_twice (a b : Fr) : apiCmp (apiCmp a b) 0 = bit (decide (a ≠ b)) := by
  rcases apiCmp_cases a b with ⟨h, e⟩ | ⟨h, e | e⟩
  · rw [e, decide_eq_false (by simpa using h), apiCmp]; simp
  · rw [e, decide_eq_true h, apiCmp_zero_right one_ne_zero]; rfl
  · rw [e, decide_eq_true h, apiCmp_zero_right (neg_ne_zero.2 one_ne_zero)]; rfl

theorem compareLimbs_eq (xs ys : List (Fr × Fr)) (h : xs.length = ys.length) (b : Bool) :
    compareLimbs xs ys (bit b) = pure (bit (b || decide (∃ p ∈ xs ++ ys, p.1 ≠ p.2))) := by
  induction xs generalizing ys b with
  | nil =>
    rw [List.length_nil] at h
    rw [List.eq_nil_of_length_eq_zero h.symm]
    simp [compareLimbs]
  | cons x xs ih =>
    cases ys with
    | nil => simp at h
    | cons y ys =>
      obtain ⟨sx, ox⟩ := x
      obtain ⟨sy, oy⟩ := y
      rw [compareLimbs, apiCmp_twice, apiCmp_twice, apiOr_bit', pure_bind, apiOr_bit', pure_bind, ih ys (by simpa using h)]
      congr 2
      rw [Bool.eq_iff_iff]
      simp only [Bool.or_eq_true, decide_eq_true_eq, List.mem_append, List.mem_cons]
      constructor
      · rintro ((h | h | h) | ⟨p, h, hp⟩)
        · exact Or.inl h
        · exact Or.inr ⟨_, Or.inl (Or.inl rfl), h⟩
        · exact Or.inr ⟨_, Or.inr (Or.inl rfl), h⟩
        · exact Or.inr ⟨p, by tauto, hp⟩
      · rintro (h | ⟨p, ((rfl | h) | (rfl | h)), hp⟩)
        · tauto
        · tauto
        · exact Or.inr ⟨p, by tauto, hp⟩
        · tauto
        · exact Or.inr ⟨p, by tauto, hp⟩

/-- does the circuit count this position? -/
def counts (old new : G1In) (b : Bool) : Prop :=
  if b then new = old else old = ⟨fun _ => 0, fun _ => 0⟩

noncomputable instance (old new : G1In) (b : Bool) : Decidable (counts old new b) := Classical.propDecidable _

theorem findSigner_eq (b : Bool) (l : Limbs) :
    findSigner (bit b) l = pure (List.ofFn fun j => if b then l j else 0) := by
  rw [findSigner, mapM_pure _ _ (fun x => if b then x else 0) (fun x _ => apiSelect_bit' b x 0), List.map_ofFn]
  rfl

theorem findSigner_not {s : Fr} (h : ∀ b, s ≠ bit b) (l : Limbs) : findSigner s l = fail :=
  mapM_fail _ _ ⟨l 0, (List.mem_ofFn' _ _).2 ⟨0, rfl⟩, apiSelect_not h _ _⟩

theorem zip_ofFn {α β : Type} {n : ℕ} (f : Fin n → α) (g : Fin n → β) :
    (List.ofFn f).zip (List.ofFn g) = List.ofFn fun i => (f i, g i) := by
  apply List.ext_getElem <;> simp

theorem counted (old new : G1In) (b : Bool) :
    decide (∃ p ∈ (List.ofFn fun j => ((if b then new.X j else 0), old.X j)) ++
      (List.ofFn fun j => ((if b then new.Y j else 0), old.Y j)), p.1 ≠ p.2) = !decide (counts old new b) := by
  rw [Bool.eq_iff_iff, Bool.not_eq_true', decide_eq_true_eq, decide_eq_false_iff_not, ← not_iff_not, not_not]
  simp only [List.mem_append, List.mem_ofFn', Set.mem_range, not_exists, not_and, not_not]
  have hX : (∀ x : Fr × Fr, (∃ j, ((if b then new.X j else 0), old.X j) = x) ∨
      (∃ j, ((if b then new.Y j else 0), old.Y j) = x) → x.1 = x.2) ↔
      ((fun j => if b then new.X j else 0) = old.X ∧ (fun j => if b then new.Y j else 0) = old.Y) := by
    constructor
    · intro h
      exact ⟨funext fun j => h _ (Or.inl ⟨j, rfl⟩), funext fun j => h _ (Or.inr ⟨j, rfl⟩)⟩
    · rintro ⟨h1, h2⟩ x (⟨j, rfl⟩ | ⟨j, rfl⟩)
      · exact congrFun h1 j
      · exact congrFun h2 j
  rw [hX]
  cases b
  · simp only [counts, Bool.false_eq_true, if_false, G1In.ext_iff]
    exact ⟨fun h => ⟨h.1.symm, h.2.symm⟩, fun h => ⟨h.1.symm, h.2.symm⟩⟩
  · simp only [counts, if_true, G1In.ext_iff]

theorem foldlM_pure {α β : Type} (l : List α) (f : β → α → Circ β) (g : β → α → β)
    (h : ∀ b, ∀ x ∈ l, f b x = pure (g b x)) (b : β) : l.foldlM f b = pure (l.foldl g b) := by
  induction l generalizing b with
  | nil => rfl
  | cons a l ih =>
    rw [List.foldlM_cons, h b a List.mem_cons_self, pure_bind, ih (fun b x hx => h b x (List.mem_cons_of_mem _ hx))]
    rfl

theorem foldlM_fail {α β : Type} (l : List α) (f : β → α → Circ β) (h : ∃ x ∈ l, ∀ b, f b x = fail) (b : β) :
    l.foldlM f b = fail := by
  induction l generalizing b with
  | nil => simp at h
  | cons a l ih =>
    rw [List.foldlM_cons]
    obtain ⟨x, hx, hf⟩ := h
    rcases List.mem_cons.1 hx with rfl | hx
    · rw [hf, fail_bind]
    · simp only [ih ⟨x, hx, hf⟩]
      exact bind_fail _

theorem foldl_add (l : List (Fin 10)) (g : Fin 10 → Fr) (a : Fr) :
    l.foldl (fun s i => s + g i) a = a + (l.map g).sum := by
  induction l generalizing a with
  | nil => simp
  | cons i l ih => rw [List.foldl_cons, ih, List.map_cons, List.sum_cons, add_assoc]

theorem trustedWeight_eq (old new : Fin 10 → G1In) (bs : Fin 10 → Bool) (w : Fin 10 → Fr) :
    calculateTrustedWeight old new (fun i => bit (bs i)) w =
      pure (∑ i, if counts (old i) (new i) (bs i) then w i else 0) := by
  rw [calculateTrustedWeight, foldlM_pure _ _ (fun s i => s + if counts (old i) (new i) (bs i) then w i else 0),
    foldl_add, zero_add, ← List.ofFn_eq_map, List.sum_ofFn]
  intro s i _
  rw [findSigner_eq, pure_bind, findSigner_eq, pure_bind, zip_ofFn, zip_ofFn,
    show (0 : Fr) = bit false from rfl, compareLimbs_eq _ _ (by simp), pure_bind, bit_false, counted, Bool.false_or,
    apiSelect_bit', pure_bind]
  by_cases h : counts (old i) (new i) (bs i) <;> simp [h]

theorem trustedWeight_fail (old new : Fin 10 → G1In) {bits : Fin 10 → Fr} (w : Fin 10 → Fr)
    (h : ¬ ∃ bs : Fin 10 → Bool, bits = fun i => bit (bs i)) : calculateTrustedWeight old new bits w = fail := by
  have : ∃ i, ∀ b, bits i ≠ bit b := by
    by_contra hc
    push Not at hc
    choose bs hbs using hc
    exact h ⟨bs, funext hbs⟩
  obtain ⟨i, hi⟩ := this
  refine foldlM_fail _ _ ⟨i, List.mem_finRange i, fun s => ?_⟩ _
  rw [findSigner_not hi, fail_bind]

end Spark.Circuit
