import Verif.Math.Fp
import Verif.Math.GroupOrder
import Mathlib.RingTheory.IntegralDomain
import Mathlib.SetTheory.Cardinal.Finite
import Mathlib.Data.Nat.Prime.Basic

/-! The size of the tower fields and the existence of elements of every order dividing
`p¹² - 1`. -/

namespace Spark
set_option maxRecDepth 100000

def E2.equiv (K : Type) : E2 K ≃ K × K :=
  ⟨fun x => (x.A0, x.A1), fun x => ⟨x.1, x.2⟩, fun _ => rfl, fun _ => rfl⟩
def E6.equiv (K : Type) : E6 K ≃ E2 K × E2 K × E2 K :=
  ⟨fun x => (x.B0, x.B1, x.B2), fun x => ⟨x.1, x.2.1, x.2.2⟩, fun _ => rfl, fun _ => rfl⟩
def E12.equiv (K : Type) : E12 K ≃ E6 K × E6 K :=
  ⟨fun x => (x.C0, x.C1), fun x => ⟨x.1, x.2⟩, fun _ => rfl, fun _ => rfl⟩

instance : Fintype Fp := ZMod.fintype fpOrder
instance : Finite (E2 Fp) := Finite.of_equiv _ (E2.equiv Fp).symm
instance : Finite (E6 Fp) := Finite.of_equiv _ (E6.equiv Fp).symm
instance : Finite (E12 Fp) := Finite.of_equiv _ (E12.equiv Fp).symm

theorem card_E12 : Nat.card (E12 Fp) = fpOrder ^ 12 := by
  rw [Nat.card_congr (E12.equiv Fp), Nat.card_prod, Nat.card_congr (E6.equiv Fp), Nat.card_prod,
    Nat.card_prod, Nat.card_congr (E2.equiv Fp), Nat.card_prod]
  have : Nat.card Fp = fpOrder := Nat.card_zmod fpOrder
  rw [this]; ring

theorem card_units : Nat.card (E12 Fp)ˣ = fpOrder ^ 12 - 1 := by
  rw [Nat.card_units, card_E12]

/-- a generator of the multiplicative group -/
theorem exists_generator : ∃ e : E12 Fp, e ≠ 0 ∧ ∀ k : ℕ, e ^ k = 1 ↔ (fpOrder ^ 12 - 1) ∣ k := by
  obtain ⟨g, hg⟩ := IsCyclic.exists_ofOrder_eq_natCard (α := (E12 Fp)ˣ)
  refine ⟨g, g.ne_zero, fun k => ?_⟩
  rw [← card_units, ← hg, orderOf_dvd_iff_pow_eq_one, ← Units.val_pow_eq_pow_val, Units.val_eq_one]

theorem dvd_quot (N r : ℕ) (hN : 0 < N) (hr : 1 < r) (h : r ∣ N) : ¬ N ∣ N / r := fun h' => by
  have h1 : 0 < N / r := Nat.div_pos (Nat.le_of_dvd hN h) (by omega)
  have h2 := Nat.le_of_dvd h1 h'
  have h3 : N / r < N := Nat.div_lt_self hN hr
  omega

/-- there are elements whose order is divisible by the group order -/
theorem exists_full_order : ∃ e : E12 Fp, e ≠ 0 ∧ e ^ ((fpOrder ^ 12 - 1) / rOrder) ≠ 1 := by
  obtain ⟨e, h0, he⟩ := exists_generator
  refine ⟨e, h0, fun h => ?_⟩
  exact dvd_quot _ _ (by decide +kernel) (by decide +kernel) (by decide +kernel) ((he _).1 h)

end Spark
