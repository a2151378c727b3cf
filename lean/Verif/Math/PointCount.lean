import Verif.Math.Curve
import Mathlib.SetTheory.Cardinal.Finite
import Mathlib.GroupTheory.OrderOfElement
import Mathlib.GroupTheory.Index

/-! Counting: a curve `y² = x³ + b` over a finite field has at most `2q + 1` points; subgroups
generated by points of prime order. -/

namespace Spark
open WeierstrassCurve

section
variable {F : Type} [Field F] {b : F}

open Classical in
/-- a square root of `x³ + b` when there is one -/
noncomputable def rootOf (b x : F) : F := if h : ∃ y, y ^ 2 = x ^ 3 + b then h.choose else 0

theorem rootOf_spec {x y : F} (h : y ^ 2 = x ^ 3 + b) : y = rootOf b x ∨ y = -rootOf b x := by
  have hex : ∃ y, y ^ 2 = x ^ 3 + b := ⟨y, h⟩
  have : rootOf b x ^ 2 = x ^ 3 + b := by rw [rootOf, dif_pos hex]; exact hex.choose_spec
  exact sq_eq_sq_iff_eq_or_eq_neg.1 (h.trans this.symm)

open Classical in
/-- a point as its abscissa and one bit -/
noncomputable def ptCode (P : (sw b).Point) : Option (F × Bool) :=
  match P with
  | .zero => none
  | .some x y _ => some (x, decide (y = rootOf b x))

theorem ptCode_injective : Function.Injective (ptCode (b := b)) := by
  rintro (_ | ⟨x, y, h⟩) (_ | ⟨x', y', h'⟩) e
  · rfl
  · cases e
  · cases e
  · simp only [ptCode, Option.some.injEq, Prod.mk.injEq] at e
    obtain ⟨rfl, e⟩ := e
    have h1 := rootOf_spec ((sw_equation x y).1 h.1)
    have h2 := rootOf_spec ((sw_equation x y').1 h'.1)
    have : y = y' := by
      rw [decide_eq_decide] at e
      rcases h1 with h1 | h1
      · rw [e.1 h1, h1]
      · rcases h2 with h2 | h2
        · rw [e.2 h2, h2]
        · rw [h1, h2]
    subst this
    rfl

instance finite_points [Finite F] : Finite (sw b).Point := Finite.of_injective _ ptCode_injective

theorem card_points_le [Finite F] : Nat.card (sw b).Point ≤ 2 * Nat.card F + 1 := by
  have := Nat.card_le_card_of_injective _ (ptCode_injective (b := b))
  rw [Finite.card_option, Nat.card_prod, Nat.card_eq_fintype_card (α := Bool), Fintype.card_bool] at this
  omega
end

section
variable {A : Type} [AddCommGroup A] [Finite A] {K : AddSubgroup A} {q : ℕ} {X Y : A}

omit [Finite A] in
theorem card_zmultiples_prime (hq : q.Prime) (h : q • X = 0) (h0 : X ≠ 0) :
    Nat.card (AddSubgroup.zmultiples X) = q := by
  rw [Nat.card_zmultiples]
  have := Fact.mk hq
  exact addOrderOf_eq_prime h h0

theorem prime_dvd_card (hq : q.Prime) (h : q • X = 0) (h0 : X ≠ 0) (hX : X ∈ K) : q ∣ Nat.card K := by
  rw [← card_zmultiples_prime hq h h0]
  exact AddSubgroup.card_dvd_of_le (by rwa [AddSubgroup.zmultiples_le])

omit [Finite A] in
theorem zmul_mod {j k : ℤ} (h : (q : ℤ) ∣ j - k) (hX : q • X = 0) : j • X = k • X := by
  obtain ⟨c, hc⟩ := h
  rw [← sub_eq_zero, ← sub_smul, hc, mul_comm, mul_smul, natCast_zsmul, hX, smul_zero]

omit [Finite A] in
theorem mem_of_smul_mem (hq : q.Prime) (hY : q • Y = 0) {j : ℤ} (h : j • Y ∈ K) :
    j • Y = 0 ∨ Y ∈ K := by
  by_cases hd : (q : ℤ) ∣ j
  · left
    rw [zmul_mod (k := 0) (by simpa using hd) hY, zero_smul]
  · right
    have hc : IsCoprime (q : ℤ) j := (Nat.prime_iff_prime_int.1 hq).coprime_iff_not_dvd.2 hd
    obtain ⟨a, c, e⟩ := hc
    have : Y = c • j • Y := by
      rw [← mul_smul]
      conv_lhs => rw [← one_zsmul Y, ← e, add_smul, mul_smul, natCast_zsmul, hY, smul_zero, zero_add]
    rw [this]
    exact AddSubgroup.zsmul_mem _ h c

theorem prime_sq_dvd_card (hq : q.Prime) (h : q • X = 0) (h0 : X ≠ 0) (h' : q • Y = 0)
    (hn : Y ∉ AddSubgroup.zmultiples X) (hX : X ∈ K) (hY : Y ∈ K) : q * q ∣ Nat.card K := by
  have hY0 : Y ≠ 0 := fun e => hn (e ▸ AddSubgroup.zero_mem _)
  let f : AddSubgroup.zmultiples X × AddSubgroup.zmultiples Y →+ A :=
    AddMonoidHom.coprod (AddSubgroup.subtype _) (AddSubgroup.subtype _)
  have hf : Function.Injective f := by
    rw [injective_iff_map_eq_zero]
    rintro ⟨⟨a, ha⟩, ⟨c, hc⟩⟩ e
    have e : a + c = 0 := e
    obtain ⟨j, rfl⟩ := AddSubgroup.mem_zmultiples_iff.1 hc
    have hj : j • Y ∈ AddSubgroup.zmultiples X := by
      rw [show j • Y = -a from (neg_eq_of_add_eq_zero_right e).symm]
      exact AddSubgroup.neg_mem _ ha
    rcases mem_of_smul_mem hq h' hj with hj | hj
    · have : a = 0 := by rw [hj, add_zero] at e; exact e
      subst this
      ext
      · rfl
      · exact hj
    · exact absurd hj hn
  have hc : Nat.card f.range = q * q := by
    rw [← Nat.card_congr (AddMonoidHom.ofInjective hf).toEquiv, Nat.card_prod,
      card_zmultiples_prime hq h h0, card_zmultiples_prime hq h' hY0]
  rw [← hc]
  refine AddSubgroup.card_dvd_of_le ?_
  rintro _ ⟨⟨a, c⟩, rfl⟩
  exact AddSubgroup.add_mem _ ((AddSubgroup.zmultiples_le.2 hX) a.2) ((AddSubgroup.zmultiples_le.2 hY) c.2)

/-- a subgroup of more than half the points is everything -/
theorem eq_top_of_card {N B : ℕ} (h : N ∣ Nat.card K) (hB : Nat.card A ≤ B) (hN : B < 2 * N) : K = ⊤ := by
  rw [← AddSubgroup.index_eq_one]
  have h1 := K.card_mul_index
  have hpos : 0 < Nat.card K := Nat.card_pos
  have hle := Nat.le_of_dvd hpos h
  have hi : K.index ≠ 0 := AddSubgroup.index_ne_zero_of_finite
  by_contra hne
  have : 2 ≤ K.index := by omega
  have := Nat.mul_le_mul hle this
  omega
end

end Spark
