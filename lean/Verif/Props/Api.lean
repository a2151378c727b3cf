import Verif.Props.Utilities
import Verif.Props.Compiled
import Mathlib.FieldTheory.Finite.Basic

/-!
# C93, C94: exported building blocks called on their own

C93: the layers of Poseidon (`Sigma`, `Ark`, `Mix`, `MixLast`).  C94: the methods the circuits are made of
(`CalculateTrustedWeight`, `ComputeAPKCommitment`, `CommitmentCheck`, `ThresholdCheck`, `AggregatePublicKeys`).
-/

namespace Spark.UtilProps
open Spark Circ Spec Poseidon
open scoped BigOperators Matrix

/-! ## C93 -/

/-- **C93, S-box.** `Sigma` is the fifth power, and a permutation of the field. -/
theorem c93_sigma : (∀ x, sigma x = x ^ 5) ∧ Function.Bijective sigma := by
  refine ⟨sigma_eq, Finite.injective_iff_bijective.1 fun x y h => ?_⟩
  rw [sigma_eq, sigma_eq] at h
  by_cases hy : y = 0
  · subst hy
    rw [zero_pow (by norm_num)] at h
    exact pow_eq_zero_iff (by norm_num) |>.1 h
  · have hx : x ≠ 0 := fun e => by
      rw [e, zero_pow (by norm_num)] at h
      exact hy (pow_eq_zero_iff (by norm_num) |>.1 h.symm)
    have h5 : (x / y) ^ 5 = 1 := by rw [div_pow, h, div_self (pow_ne_zero _ hy)]
    have hf : (x / y) ^ (frOrder - 1) = 1 := ZMod.pow_card_sub_one_eq_one (div_ne_zero hx hy)
    have h1 : orderOf (x / y) ∣ 1 := by
      have := Nat.dvd_gcd (orderOf_dvd_of_pow_eq_one h5) (orderOf_dvd_of_pow_eq_one hf)
      rwa [show Nat.gcd 5 (frOrder - 1) = 1 by decide +kernel] at this
    exact eq_of_div_eq_one (orderOf_eq_one_iff.1 (Nat.dvd_one.1 h1))

/-- **C93, round constants.** `Ark` adds the constants from position `r` on; it panics exactly if the table ends before. -/
theorem c93_ark {t : ℕ} (x : Fin t → Fr) (c : List ℕ) (r : ℕ) :
    ((h : r + t ≤ c.length) → ark (List.ofFn x) c r = some (List.ofFn fun i => x i + (c[r + i]'(by omega) : Fr))) ∧
    (c.length < r + t → 0 < t → ark (List.ofFn x) c r = none) := by
  constructor
  · intro h
    rw [ark_ofFn x c r h]
    congr 2
    funext i
    rw [cF, List.getD_eq_getElem _ _ (by omega)]
    simp only [Nat.add_comm r]
  · intro h ht
    rw [ark, List.length_ofFn]
    refine mapM_none (a := t - 1) (List.mem_range.2 (by omega)) ?_
    rw [List.getElem?_eq_none (l := c) (by omega)]
    cases (List.ofFn x)[t - 1]? <;> rfl

/-- **C93, last matrix row.** `MixLast` is the scalar product of the state with column `s` of the table; it panics exactly
if one of the entries is missing. -/
theorem c93_mixLast {t : ℕ} (x : Fin t → Fr) (m : List (List ℕ)) (s : ℕ) :
    (∀ e : Fin t → ℕ, (∀ j : Fin t, ∃ row, m[(j : ℕ)]? = some row ∧ row[s]? = some (e j)) →
      mixLast (List.ofFn x) m s = some (∑ j, (e j : Fr) * x j)) ∧
    (∀ j : Fin t, (∀ row, m[(j : ℕ)]? = some row → row[s]? = none) → mixLast (List.ofFn x) m s = none) := by
  constructor
  · intro e h
    rw [mixLast, List.length_ofFn]
    refine foldlM_fin t _ (fun j => (e j : Fr) * x j) fun b j => ?_
    obtain ⟨row, h1, h2⟩ := h j
    simp [h1, h2]
  · intro j h
    rw [mixLast, List.length_ofFn]
    refine foldlM_none (a := (j : ℕ)) (List.mem_range.2 j.2) (fun b => ?_) _
    cases hm : m[(j : ℕ)]? with
    | none => rfl
    | some row =>
      simp only [Option.bind_eq_bind, Option.bind_some, h row hm, Option.bind_none]

/-- **C93, matrix.** `Mix` multiplies the state, from the left, by the transpose of the table `e`; it panics exactly if
one of the `t²` entries is missing. -/
theorem c93_mix {t : ℕ} (x : Fin t → Fr) (m : List (List ℕ)) :
    (∀ e : Matrix (Fin t) (Fin t) ℕ, (∀ i j : Fin t, ∃ row, m[(j : ℕ)]? = some row ∧ row[(i : ℕ)]? = some (e j i)) →
      mix (List.ofFn x) m = some (List.ofFn ((e.map (Nat.cast : ℕ → Fr))ᵀ *ᵥ x))) ∧
    (∀ i j : Fin t, (∀ row, m[(j : ℕ)]? = some row → row[(i : ℕ)]? = none) → mix (List.ofFn x) m = none) := by
  constructor
  · intro e h
    rw [mix, List.length_ofFn]
    exact mapM_range t _ _ fun i => (c93_mixLast x m i).1 (fun j => e j i) fun j => h i j
  · intro i j h
    rw [mix, List.length_ofFn]
    exact mapM_none (a := (i : ℕ)) (List.mem_range.2 i.2) ((c93_mixLast x m i).2 j h)

/-- a state of three elements and a table that is not symmetric -/
example : mix [2, 3, 5] [[1, 2, 3], [4, 5, 6], [7, 8, 9]] = some [49, 59, 69] := by
  have := (c93_mix (t := 3) ![2, 3, 5] [[1, 2, 3], [4, 5, 6], [7, 8, 9]]).1 !![1, 2, 3; 4, 5, 6; 7, 8, 9] (by decide)
  rw [show List.ofFn ![(2 : Fr), 3, 5] = [2, 3, 5] from rfl] at this
  rw [this]
  simp [Matrix.mulVec, dotProduct, Fin.sum_univ_succ, List.ofFn_succ]
  norm_num

end Spark.UtilProps

namespace Spark.CircuitProps
open Spark Circ Spec Circuit
open scoped BigOperators

/-! ## C94 -/

open Classical in
/-- **C94, trusted weight.** `CalculateTrustedWeight` on any keys and weights: with bits in {0, 1} exactly one result, the
sum of the old weights at the positions where the bit is 1 and the limbs of old and new key agree, or the bit is 0 and
the old key is all zero; with any other bit the constraints have no solution. -/
theorem c94_trusted_weight (old new : Fin 10 → G1In) (bits w : Fin 10 → Fr) :
    ((∀ i, bits i = 0 ∨ bits i = 1) → calculateTrustedWeight old new bits w =
      pure (∑ i, if (bits i = 1 ∧ new i = old i) ∨ (bits i = 0 ∧ old i = ⟨fun _ => 0, fun _ => 0⟩) then w i else 0)) ∧
    (¬ (∀ i, bits i = 0 ∨ bits i = 1) → ∀ v, ¬ (calculateTrustedWeight old new bits w).sat v) := by
  constructor
  · intro hb
    obtain ⟨bs, rfl⟩ := bits_exist hb
    rw [trustedWeight_eq]
    congr 1
    refine Finset.sum_congr rfl fun i _ => ?_
    have := counts_iff (old i) (new i) (bs i)
    by_cases h1 : counts (old i) (new i) (bs i)
    · rw [if_pos h1, if_pos (this.1 h1)]
    · rw [if_neg h1, if_neg fun h2 => h1 (this.2 h2)]
  · intro hb v hv
    rw [trustedWeight_fail old new w] at hv
    · exact hv
    · rintro ⟨bs, rfl⟩
      exact hb fun i => by show bit (bs i) = 0 ∨ bit (bs i) = 1; cases bs i <;> simp

/-- validator 3 has a new key, validator 5 does not sign, validator 7 signs for the first time in an empty slot, slot 8 is
empty before and after: the weights of the others and of slot 8 count -/
theorem c94_trusted_weight_example :
    calculateTrustedWeight
      (fun i => if i = 7 ∨ i = 8 then ⟨fun _ => 0, fun _ => 0⟩ else ⟨fun _ => (i : ℕ) + 1, fun _ => 1⟩)
      (fun i => if i = 3 then ⟨fun _ => 77, fun _ => 1⟩ else if i = 8 then ⟨fun _ => 0, fun _ => 0⟩ else
        ⟨fun _ => (i : ℕ) + 1, fun _ => 1⟩)
      (fun i => if i = 5 ∨ i = 8 then 0 else 1) (fun i => (i : ℕ) + 1) = pure (55 - 4 - 6 - 8) := by
  classical
  rw [(c94_trusted_weight _ _ _ _).1 fun i => by split <;> simp]
  congr 1
  simp only [Fin.sum_univ_succ, Fin.sum_univ_zero]
  simp [G1In.ext_iff, funext_iff, Fin.ext_iff]
  rw [if_neg (by decide +kernel)]
  norm_num

/-- **C94, commitment.** `ComputeAPKCommitment` has exactly one result, the commitment to the keys and weights. -/
theorem c94_commitment (keys : Fin 10 → G1In) (weights : Fin 10 → Fr) :
    ∃ c, computeAPKCommitment keys weights = pure c ∧
      IsCommitment (fun i => (keys i).X) (fun i => (keys i).Y) weights c :=
  ⟨_, computeAPKCommitment_eq keys weights, commit_isCommitment _ _⟩

/-- **C94, checks.** `CommitmentCheck` and `ThresholdCheck` hold for equal values and for no others. -/
theorem c94_checks (a b : Fr) :
    (a = b → commitmentCheck a b = pure () ∧ thresholdCheck a b = pure ()) ∧
    (a ≠ b → (∀ v, ¬ (commitmentCheck a b).sat v) ∧ ∀ v, ¬ (thresholdCheck a b).sat v) := by
  constructor
  · rintro rfl
    exact ⟨assert_true rfl, assert_true rfl⟩
  · intro h
    exact ⟨fun v hv => h hv, fun v hv => h hv⟩

/-- **C94, aggregation.** `AggregatePublicKeys` is the aggregation of the rotation circuit plus the check that the given
total is the weight of the signers. -/
theorem c94_aggregate (mode : Mode) (keys : Fin 10 → G1In) (hf : ∀ i, (keys i).Fits) (bits weights : Fin 10 → Fr)
    (hb : ∀ i, bits i = 0 ∨ bits i = 1) (total : Fr) :
    (total = (∑ i, if bits i = 1 then weights i else 0) →
      aggregatePublicKeys mode keys bits weights total = aggregatePublicKeysRotate mode keys bits) ∧
    (total ≠ (∑ i, if bits i = 1 then weights i else 0) →
      ∀ v, ¬ (aggregatePublicKeys mode keys bits weights total).sat v) := by
  obtain ⟨bs, rfl⟩ := bits_exist hb
  simp only [bits_eq]
  rw [aggregate_eq mode bs weights _ hf, aggregateRotate_eq _ _ hf]
  constructor
  · rintro rfl
    rw [assert_true rfl, pure_bind]
  · intro h v hv
    rw [sat_bind] at hv
    obtain ⟨u, hu, -⟩ := hv
    exact h hu.symm

end Spark.CircuitProps
