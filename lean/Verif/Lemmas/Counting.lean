import Verif.Props.RfcHash
import Mathlib.Data.Set.Card
import Mathlib.Algebra.Polynomial.Roots

/-! Counting lemmas for C98 and C99: unions, roots of polynomials, fibres of the map to the twist. -/

namespace Spark.Counting
open Polynomial

/-- a set covered by sets `R b`, `b ∈ I`, of at most `n` elements each -/
theorem ncard_cover {α β : Type} [Finite α] [Finite β] {S : Set α} (R : β → Set α) {I : Set β} {n : ℕ}
    (h : ∀ a ∈ S, ∃ b ∈ I, a ∈ R b) (hn : ∀ b ∈ I, (R b).ncard ≤ n) : S.ncard ≤ I.ncard * n := by
  classical
  cases nonempty_fintype α
  cases nonempty_fintype β
  have hsub : S.toFinset ⊆ I.toFinset.biUnion fun b => (R b).toFinset := by
    intro a ha
    obtain ⟨b, hb, hR⟩ := h a (Set.mem_toFinset.1 ha)
    exact Finset.mem_biUnion.2 ⟨b, Set.mem_toFinset.2 hb, Set.mem_toFinset.2 hR⟩
  rw [Set.ncard_eq_toFinset_card', Set.ncard_eq_toFinset_card']
  refine (Finset.card_le_card hsub).trans (Finset.card_biUnion_le_card_mul _ _ _ fun b hb => ?_)
  rw [← Set.ncard_eq_toFinset_card']
  exact hn b (Set.mem_toFinset.1 hb)

/-- the roots of a polynomial of degree at most `n` -/
theorem ncard_roots {F : Type} [Field F] {S : Set F} (P : F[X]) {n : ℕ} (h0 : P ≠ 0) (hd : P.natDegree ≤ n)
    (h : ∀ u ∈ S, P.eval u = 0) : S.ncard ≤ n := by
  classical
  have hsub : S ⊆ (P.roots.toFinset : Set F) := fun u hu => by
    rw [Finset.mem_coe, Multiset.mem_toFinset, mem_roots h0]
    exact h u hu
  calc S.ncard ≤ (P.roots.toFinset : Set F).ncard := Set.ncard_le_ncard hsub (Finset.finite_toSet _)
    _ = P.roots.toFinset.card := Set.ncard_coe_finset _
    _ ≤ P.roots.card := Multiset.toFinset_card_le _
    _ ≤ P.natDegree := card_roots' P
    _ ≤ n := hd

/-- roots of `a u⁴ + b u³ + c u² + d u + e` -/
theorem ncard_quartic {F : Type} [Field F] {S : Set F} (a b c d e : F) (h0 : a ≠ 0 ∨ b ≠ 0 ∨ c ≠ 0 ∨ d ≠ 0 ∨ e ≠ 0)
    (h : ∀ u ∈ S, a * u ^ 4 + b * u ^ 3 + c * u ^ 2 + d * u + e = 0) : S.ncard ≤ 4 := by
  refine ncard_roots (C a * X ^ 4 + C b * X ^ 3 + C c * X ^ 2 + C d * X + C e) ?_ (by compute_degree) fun u hu => ?_
  · intro hz
    have k : ∀ n, (C a * X ^ 4 + C b * X ^ 3 + C c * X ^ 2 + C d * X + C e : F[X]).coeff n = 0 := fun n => by
      rw [hz, coeff_zero]
    have k4 := k 4; have k3 := k 3; have k2 := k 2; have k1 := k 1; have k0 := k 0
    simp [coeff_X, coeff_C] at k4 k3 k2 k1 k0
    tauto
  · simpa using h u hu

theorem ncard_cubic {F : Type} [Field F] {S : Set F} (b c d e : F) (h0 : b ≠ 0)
    (h : ∀ u ∈ S, b * u ^ 3 + c * u ^ 2 + d * u + e = 0) : S.ncard ≤ 3 := by
  refine ncard_roots (C b * X ^ 3 + C c * X ^ 2 + C d * X + C e) ?_ (by compute_degree) fun u hu => ?_
  · intro hz
    have k3 : (C b * X ^ 3 + C c * X ^ 2 + C d * X + C e : F[X]).coeff 3 = 0 := by rw [hz, coeff_zero]
    simp at k3
    tauto
  · simpa using h u hu

/-- a set of tuples of which at most one has given entries outside place `i` -/
theorem ncard_tuple {n m : ℕ} (i : Fin (n + 1)) {S : Set (Fin (n + 1) → Fin m)}
    (h : ∀ s ∈ S, ∀ s' ∈ S, (∀ j, j ≠ i → s j = s' j) → s i = s' i) : S.ncard ≤ m ^ n := by
  have hi : Set.InjOn (fun (s : Fin (n + 1) → Fin m) (j : Fin n) => s (i.succAbove j)) S := by
    intro s hs s' hs' e
    have e : ∀ j, j ≠ i → s j = s' j := fun j hj => by
      obtain ⟨k, rfl⟩ := Fin.exists_succAbove_eq hj
      exact congrFun e k
    funext j
    by_cases hj : j = i
    · rw [hj]; exact h s hs s' hs' e
    · exact e j hj
  rw [← hi.ncard_image]
  refine (Set.ncard_le_card _).trans ?_
  rw [Nat.card_eq_fintype_card, Fintype.card_fun, Fintype.card_fin, Fintype.card_fin]

end Spark.Counting
