import Verif.Model.Poseidon
import Mathlib.Data.Matrix.Mul
import Mathlib.Data.List.GetD
import Mathlib.Algebra.BigOperators.Fin

/-! The list-and-panic model of Poseidon as functions on vectors. -/

namespace Spark.Poseidon

open Matrix

theorem mapM_some {α β : Type} (l : List α) (f : α → Option β) (g : α → β)
    (h : ∀ a ∈ l, f a = some (g a)) : l.mapM f = some (l.map g) := by
  induction l with
  | nil => rfl
  | cons a l ih =>
    rw [List.mapM_cons, h a (by simp), ih (fun b hb => h b (by simp [hb]))]; rfl

theorem mapM_range {β : Type} (t : ℕ) (f : ℕ → Option β) (g : Fin t → β)
    (h : ∀ i : Fin t, f i = some (g i)) : (List.range t).mapM f = some (List.ofFn g) := by
  rcases Nat.eq_zero_or_pos t with rfl | ht
  · simp
  rw [mapM_some _ f (fun i => if hi : i < t then g ⟨i, hi⟩ else g ⟨0, ht⟩)]
  · congr 1
    apply List.ext_getElem
    · simp
    · intro i h1 h2
      simp only [List.length_ofFn] at h2
      simp [h2]
  · intro i hi
    have hi' := List.mem_range.1 hi
    rw [dif_pos hi']; exact h ⟨i, hi'⟩

theorem foldlM_sum (t : ℕ) (f : Fr → ℕ → Option Fr) (g : ℕ → Fr) (a : Fr)
    (h : ∀ b, ∀ i < t, f b i = some (b + g i)) :
    (List.range t).foldlM f a = some (a + ∑ i ∈ Finset.range t, g i) := by
  induction t with
  | zero => simp
  | succ t ih =>
    rw [List.range_succ, List.foldlM_append, ih (fun b i hi => h b i (by omega))]
    simp only [Option.bind_eq_bind, Option.bind_some, List.foldlM_cons, List.foldlM_nil]
    rw [h _ t (by omega), Finset.sum_range_succ, add_assoc]; rfl

theorem foldlM_fin (t : ℕ) (f : Fr → ℕ → Option Fr) (g : Fin t → Fr)
    (h : ∀ b, ∀ i : Fin t, f b i = some (b + g i)) :
    (List.range t).foldlM f 0 = some (∑ i, g i) := by
  rw [foldlM_sum t f (fun i => if hi : i < t then g ⟨i, hi⟩ else 0)]
  · rw [zero_add, Finset.sum_range]
    congr 1
    refine Finset.sum_congr rfl fun i _ => ?_
    simp
  · intro b i hi
    rw [dif_pos hi]; exact h b ⟨i, hi⟩

theorem foldlM_state {α : Type} (l : List ℕ) (f : α → ℕ → Option α) (g : α → ℕ → α) (P : α → Prop)
    (a : α) (ha : P a) (h : ∀ b, P b → ∀ i ∈ l, f b i = some (g b i) ∧ P (g b i)) :
    l.foldlM f a = some (l.foldl g a) := by
  induction l generalizing a with
  | nil => rfl
  | cons i l ih =>
    rw [List.foldlM_cons, (h a ha i (by simp)).1]
    exact ih _ (h a ha i (by simp)).2 (fun b hb j hj => h b hb j (by simp [hj]))

variable {t : ℕ}

/-- one table entry -/
def cF (c : List ℕ) (i : ℕ) : Fr := ((c.getD i 0 : ℕ) : Fr)

/-- the matrix applied by `mix` (the code stores the transpose) -/
def matF (m : List (List ℕ)) : Matrix (Fin t) (Fin t) Fr := fun i j =>
  (((m.getD j []).getD i 0 : ℕ) : Fr)

/-- a `t` by `t` table -/
def Square (t : ℕ) (m : List (List ℕ)) : Prop := m.length = t ∧ ∀ row ∈ m, row.length = t

theorem getD_some {α : Type} (l : List α) (i : ℕ) (d : α) (h : i < l.length) :
    l[i]? = some (l.getD i d) := by
  simp [List.getD, h]

theorem ark_ofFn (x : Fin t → Fr) (c : List ℕ) (r : ℕ) (h : r + t ≤ c.length) :
    ark (List.ofFn x) c r = some (List.ofFn fun i => x i + cF c (i + r)) := by
  rw [ark, List.length_ofFn]
  refine mapM_range t _ _ fun i => ?_
  rw [getD_some c _ 0 (by omega)]
  simp [cF]

theorem mixLast_ofFn (x : Fin t → Fr) (m : List (List ℕ)) (hm : Square t m) (s : Fin t) :
    mixLast (List.ofFn x) m s = some ((matF m *ᵥ x) s) := by
  rw [mixLast, List.length_ofFn]
  refine foldlM_fin t _ (fun j => matF m s j * x j) fun b j => ?_
  have hj : (j : ℕ) < m.length := by rw [hm.1]; exact j.2
  rw [getD_some m _ [] hj]
  have hr : (m.getD j []).length = t := hm.2 _ (by rw [List.getD_eq_getElem _ _ hj]; exact List.getElem_mem hj)
  have e := getD_some (m.getD j []) s 0 (by rw [hr]; exact s.2)
  simp only [Option.bind_eq_bind, Option.bind_some, e]
  simp [matF]

theorem mix_ofFn (x : Fin t → Fr) (m : List (List ℕ)) (hm : Square t m) :
    mix (List.ofFn x) m = some (List.ofFn (matF m *ᵥ x)) := by
  rw [mix, List.length_ofFn]
  exact mapM_range t _ _ fun i => mixLast_ofFn x m hm i

theorem sigma_eq (x : Fr) : sigma x = x ^ 5 := by simp only [sigma]; ring

theorem sigmaAll_ofFn (x : Fin t → Fr) : sigmaAll (List.ofFn x) = List.ofFn fun i => x i ^ 5 := by
  rw [sigmaAll, List.map_ofFn]
  congr 1
  funext i
  exact sigma_eq _

/-- S-box, constants, matrix -/
def fullF (c : List ℕ) (m : List (List ℕ)) (off : ℕ) (x : Fin t → Fr) : Fin t → Fr :=
  matF m *ᵥ fun i => x i ^ 5 + cF c (i + off)

theorem fullRound_ofFn (x : Fin t → Fr) (c : List ℕ) (m : List (List ℕ)) (off : ℕ)
    (hc : off + t ≤ c.length) (hm : Square t m) :
    fullRound c m off (List.ofFn x) = some (List.ofFn (fullF c m off x)) := by
  rw [fullRound, sigmaAll_ofFn, ark_ofFn _ _ _ hc]
  exact mix_ofFn _ _ hm

variable {n : ℕ}

/-- one optimised partial round -/
def partF (c s : List ℕ) (n : ℕ) (x : Fin (n + 1) → Fr) (r : ℕ) : Fin (n + 1) → Fr :=
  let y := x 0 ^ 5 + cF c (5 * (n + 1) + r)
  Fin.cons (cF s ((2 * n + 1) * r) * y + ∑ j : Fin n, cF s ((2 * n + 1) * r + (j + 1)) * x j.succ)
    fun k => x k.succ + y * cF s ((2 * n + 1) * r + (n + 1 + k))

theorem set_zero_ofFn (x : Fin (n + 1) → Fr) (v : Fr) :
    (List.ofFn x).set 0 v = List.ofFn (Fin.cons v (fun i => x i.succ) : Fin (n + 1) → Fr) := by
  simp [List.ofFn_succ]

theorem foldlM_set (x : Fin (n + 1) → Fr) (e : ℕ → Fr) (f : List Fr → ℕ → Option (List Fr))
    (hf : ∀ st : List Fr, ∀ k < n, st.length = n + 1 →
      f st k = some (st.set (k + 1) (st.getD (k + 1) 0 + st.getD 0 0 * e k))) :
    (List.range n).foldlM f (List.ofFn x) =
      some (List.ofFn (Fin.cons (x 0) fun k => x k.succ + x 0 * e k : Fin (n + 1) → Fr)) := by
  have key : ∀ m ≤ n, (List.range m).foldlM f (List.ofFn x) =
      some (List.ofFn fun i : Fin (n + 1) => if (i : ℕ) = 0 ∨ m < i then x i else x i + x 0 * e (i - 1)) := by
    intro m hm
    induction m with
    | zero =>
      simp only [List.range_zero, List.foldlM_nil]
      congr 1
      congr 1
      funext i
      rw [if_pos (by omega)]
    | succ m ih =>
      rw [List.range_succ, List.foldlM_append, ih (by omega)]
      simp only [Option.bind_eq_bind, Option.bind_some, List.foldlM_cons, List.foldlM_nil]
      rw [hf _ m (by omega) (by simp)]
      simp only [Option.bind_some]
      congr 1
      apply List.ext_getElem
      · simp
      · intro i h1 h2
        simp only [List.length_ofFn] at h2
        rw [List.getElem_set]
        simp only [List.getElem_ofFn]
        split
        · next h =>
          subst h
          rw [List.getD_eq_getElem _ _ (by simp; omega), List.getD_eq_getElem _ _ (by simp)]
          simp only [List.getElem_ofFn]
          simp
        · next h =>
          by_cases h0 : i = 0
          · simp [h0]
          · by_cases h3 : m < i
            · rw [if_pos (by right; omega), if_pos (by right; omega)]
            · rw [if_neg (by omega), if_neg (by omega)]
  rw [key n le_rfl]
  congr 1
  congr 1
  funext i
  refine Fin.cases ?_ (fun k => ?_) i
  · simp
  · simp only [Fin.val_succ, Fin.cons_succ, Nat.add_sub_cancel]
    rw [if_neg (by omega)]

theorem partialRound_ofFn (x : Fin (n + 1) → Fr) (c s : List ℕ) (r : ℕ)
    (hc : 5 * (n + 1) + r < c.length) (hs : (2 * n + 1) * (r + 1) ≤ s.length) :
    partialRound c s (n + 1) (List.ofFn x) r = some (List.ofFn (partF c s n x r)) := by
  have ht : (n + 1) * 2 - 1 = 2 * n + 1 := by omega
  have hs' : (2 * n + 1) * r + (2 * n + 1) ≤ s.length := by rw [← Nat.mul_succ]; exact hs
  simp only [partialRound, ht]
  have h0 : (List.ofFn x)[0]? = some (x 0) := by simp
  rw [h0, show (8 / 2 + 1) * (n + 1) + r = 5 * (n + 1) + r from rfl,
    getD_some c _ 0 hc]
  simp only [Option.bind_eq_bind, Option.bind_some]
  rw [set_zero_ofFn, List.length_ofFn, sigma_eq]
  set y : Fr := x 0 ^ 5 + ((c.getD (5 * (n + 1) + r) 0 : ℕ) : Fr) with hy
  set z : Fin (n + 1) → Fr := Fin.cons y fun i => x i.succ with hz
  rw [foldlM_fin (n + 1) _ (fun j => cF s ((2 * n + 1) * r + j) * z j)]
  · simp only [Option.bind_some]
    rw [show n + 1 - 1 = n from rfl, foldlM_set z (fun k => cF s ((2 * n + 1) * r + (n + 1 + k)))]
    · simp only [Option.bind_some]
      rw [set_zero_ofFn]
      change some _ = some _
      congr 1
      congr 1
      rw [partF]
      congr 1
      · rw [Fin.sum_univ_succ]
        simp only [hz, Fin.cons_zero, Fin.cons_succ, Fin.val_zero, Fin.val_succ, add_zero]
        rfl
    · intro st k hk hl
      rw [getD_some st _ 0 (by omega), getD_some st 0 0 (by omega),
        getD_some s _ 0 (by omega)]
      simp only [Option.bind_some, cF]
      rw [show (2 * n + 1) * r + (n + 1) + (k + 1) - 1 = (2 * n + 1) * r + (n + 1 + k) by omega]
      rfl
  · intro b j
    have hj := j.2
    rw [getD_some s _ 0 (by omega)]
    simp only [Option.bind_some, List.getElem?_ofFn]
    rw [dif_pos hj]
    rfl

/-- the whole optimised permutation, up to the last matrix -/
def optF (c s : List ℕ) (m p : List (List ℕ)) (n rp : ℕ) (x : Fin (n + 1) → Fr) : Fin (n + 1) → Fr :=
  let x0 : Fin (n + 1) → Fr := fun i => x i + cF c i
  let x1 := (List.range 3).foldl (fun st r => fullF c m ((r + 1) * (n + 1)) st) x0
  let x2 := fullF c p (4 * (n + 1)) x1
  let x3 := (List.range rp).foldl (partF c s n) x2
  let x4 := (List.range 3).foldl (fun st r => fullF c m (5 * (n + 1) + rp + r * (n + 1)) st) x3
  matF m *ᵥ fun i => x4 i ^ 5

theorem foldlM_ofFn (l : List ℕ) (f : List Fr → ℕ → Option (List Fr))
    (g : (Fin t → Fr) → ℕ → Fin t → Fr) (x : Fin t → Fr)
    (h : ∀ x : Fin t → Fr, ∀ r ∈ l, f (List.ofFn x) r = some (List.ofFn (g x r))) :
    l.foldlM f (List.ofFn x) = some (List.ofFn (l.foldl g x)) := by
  induction l generalizing x with
  | nil => rfl
  | cons r l ih =>
    rw [List.foldlM_cons, h x r (by simp)]
    exact ih _ fun y k hk => h y k (by simp [hk])

theorem poseidonEx_ofFn {c s : List ℕ} {m p : List (List ℕ)} {rp : ℕ} (x : Fin n → Fr) (init : Fr)
    (k : ℕ) (hk : k ≤ n + 1) (hr : partialRounds n = some rp) (tc : tableC (n + 1) = some c)
    (ts : tableS (n + 1) = some s) (tm : tableM (n + 1) = some m) (tp : tableP (n + 1) = some p)
    (hc : c.length = 8 * (n + 1) + rp) (hs : s.length = (2 * n + 1) * rp) (hm : Square (n + 1) m)
    (hp : Square (n + 1) p) :
    poseidonEx (List.ofFn x) init k =
      some (List.ofFn fun i : Fin k => optF c s m p n rp (Fin.cons init x) (Fin.castLE hk i)) := by
  have hi : init :: List.ofFn x = List.ofFn (Fin.cons init x : Fin (n + 1) → Fr) := by
    rw [List.ofFn_succ]; simp
  simp only [poseidonEx, List.length_ofFn, hr, tc, ts, tm, tp, hi, Option.bind_eq_bind, Option.bind_some]
  rw [ark_ofFn _ _ _ (by omega)]
  simp only [Option.bind_some, add_zero]
  rw [foldlM_ofFn _ _ (fun st r => fullF c m ((r + 1) * (n + 1)) st)]
  · simp only [Option.bind_some]
    rw [fullRound_ofFn _ _ _ _ (by omega) hp]
    simp only [Option.bind_some]
    rw [foldlM_ofFn _ _ (partF c s n)]
    · simp only [Option.bind_some]
      rw [foldlM_ofFn _ _ (fun st r => fullF c m (5 * (n + 1) + rp + r * (n + 1)) st)]
      · simp only [Option.bind_some]
        rw [sigmaAll_ofFn]
        refine mapM_range k _ _ fun i => ?_
        have := mixLast_ofFn (t := n + 1) (fun i => (List.foldl (fun st r =>
          fullF c m (5 * (n + 1) + rp + r * (n + 1)) st) (List.foldl (partF c s n)
            (fullF c p (8 / 2 * (n + 1)) (List.foldl (fun st r => fullF c m ((r + 1) * (n + 1)) st)
              (fun i => (Fin.cons init x : Fin (n + 1) → Fr) i + cF c i) (List.range (8 / 2 - 1))))
            (List.range rp)) (List.range (8 / 2 - 1))) i ^ 5) m hm (Fin.castLE hk i)
        exact this
      · intro y r hr
        have := List.mem_range.1 hr
        refine fullRound_ofFn _ _ _ _ ?_ hm
        rw [hc]
        have : r * (n + 1) ≤ 2 * (n + 1) := Nat.mul_le_mul_right _ (by omega)
        omega
    · intro y r hr
      have := List.mem_range.1 hr
      refine partialRound_ofFn _ _ _ _ (by omega) ?_
      rw [hs]
      exact Nat.mul_le_mul_left _ (by omega)
  · intro y r hr
    have := List.mem_range.1 hr
    refine fullRound_ofFn _ _ _ _ ?_ hm
    rw [hc]
    have : (r + 1) * (n + 1) ≤ 3 * (n + 1) := Nat.mul_le_mul_right _ (by omega)
    omega

end Spark.Poseidon
