import Verif.Model.Table
import Verif.Props.Tower

/-!
# C76: the tables of powers of the non-residue
-/

namespace Spark.TowerProps
open Spark Circ Ext2

/-- the keys under which the tables hold powers of `1 + u` -/
def TableKey (k j : ℕ) : Prop := (k = 1 ∨ k = 2) ∧ 1 ≤ j ∧ j ≤ 5

/-- **C76, `NewExt2`.** The table holds `(1+u)^(j(p^k-1)/6)` under `k = 1, 2` and `j = 1, …, 5`, and nothing else. -/
theorem c76_table (k j : ℕ) :
    (TableKey k j → nonResidues k j = some ((1 + E2.u) ^ (j * (fpOrder ^ k - 1) / 6))) ∧
    (¬ TableKey k j → nonResidues k j = none) := by
  rw [← E2.xi_eq]
  constructor
  · rintro ⟨hk, h1, h5⟩
    rcases hk with rfl | rfl
    · obtain rfl | rfl | rfl | rfl | rfl : j = 1 ∨ j = 2 ∨ j = 3 ∨ j = 4 ∨ j = 5 := by omega
      · exact nonResidues_1_1
      · rw [xi_1_2]; rfl
      · exact nonResidues_1_3
      · rw [xi_1_4]; rfl
      · exact nonResidues_1_5
    · obtain rfl | rfl | rfl | rfl | rfl : j = 1 ∨ j = 2 ∨ j = 3 ∨ j = 4 ∨ j = 5 := by omega
      · rw [xi_2_1]; rfl
      · rw [xi_2_2]; rfl
      · rw [xi_2_3]; rfl
      · rw [xi_2_4]; rfl
      · rw [xi_2_5]; rfl
  · intro h
    unfold nonResidues
    split <;> first | rfl | exact absurd ⟨by omega, by omega, by omega⟩ h

/-- **C76, `NewExt2_`.** The second table holds the same powers under the same keys, and `1 + u` under `(0, 1)`. -/
theorem c76_table_lowercase (k j : ℕ) :
    (TableKey k j → nonResiduesLc k j = some ((1 + E2.u) ^ (j * (fpOrder ^ k - 1) / 6))) ∧
    nonResiduesLc 0 1 = some (1 + E2.u) := by
  constructor
  · intro h
    rw [← (c76_table k j).1 h]
    obtain ⟨hk, h1, h5⟩ := h
    rcases hk with rfl | rfl
    · obtain rfl | rfl | rfl | rfl | rfl : j = 1 ∨ j = 2 ∨ j = 3 ∨ j = 4 ∨ j = 5 := by omega
      all_goals rfl
    · obtain rfl | rfl | rfl | rfl | rfl : j = 1 ∨ j = 2 ∨ j = 3 ∨ j = 4 ∨ j = 5 := by omega
      all_goals rfl
  · rw [← E2.xi_eq]
    rfl

/-- The entry under `(0, -1)` is not the inverse of `1 + u`, as in gnark's table, but `1/2` (no method reads it). -/
theorem c76_wrong_entry : ∃ y, nonResiduesLc 0 (-1) = some y ∧ y * (1 + E2.u) ≠ 1 ∧ 2 * y = 1 := by
  refine ⟨_, rfl, ?_, ?_⟩
  · rw [← E2.xi_eq]
    decide +kernel
  · decide +kernel

end Spark.TowerProps
