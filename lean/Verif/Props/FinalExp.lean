import Verif.Lemmas.FinalExp
import Verif.Math.Card

/-!
# Properties C35-C37: the final exponentiation

`Pairing.finalExp` / `Pairing.finalExpUnsafeExported` model `FinalExponentiation` /
`FinalExponentiationUnsafe`; their output is the pair (result, value of the caller's element after
the call).  Specification: powers in the field `E12` (proved to have `p¹²` elements, `card_E12`);
`fpOrder = p`, `rOrder = r`.
-/

namespace Spark.FinalExpProps
open Spark Circ Torus
set_option maxRecDepth 100000

theorem finalExp_eq (e : E12 Fp) : Pairing.finalExp e = Pairing.finalExpSafe e := rfl
theorem finalExpUnsafe_eq (e : E12 Fp) :
    Pairing.finalExpUnsafeExported e = Pairing.finalExpUnsafe e := rfl

theorem sat_chk {α : Type} {a : E12 Fp} {L : List ℤ} {z w : α} :
    (chk a L z).sat w ↔ (∀ k ∈ L, a ^ k ≠ 1) ∧ w = z := by
  by_cases h : ∀ k ∈ L, a ^ k ≠ 1
  · rw [chk_pure h, sat_pure]; exact ⟨fun e => ⟨h, e⟩, fun e => e.2⟩
  · have h' := h
    push Not at h'
    rw [chk_fail h', sat_fail]; exact ⟨False.elim, fun e => h e.1⟩

/-! ## C35 -/

/-- the exponent `3(p¹²-1)/r`; the division is exact -/
def fullExponent : ℕ := 3 * ((fpOrder ^ 12 - 1) / rOrder)

example : rOrder * ((fpOrder ^ 12 - 1) / rOrder) = fpOrder ^ 12 - 1 := by decide +kernel

theorem easy_full' {e : E12 Fp} (he : e ≠ 0) : easy e ^ (hardExp + 3) = e ^ fullExponent :=
  easy_full he

theorem subfield_pow {e : E12 Fp} (he : e ≠ 0) (h1 : e.C1 = 0) : e ^ fullExponent = 1 := by
  rw [← easy_full' he]
  have hc : E12.conj e = e := by ext1 <;> simp [h1]
  have : easy e = 1 := by
    rw [easy_def, easy1_def, hc, div_self he, map_one, mul_one]
  rw [this, one_zpow]

/-- Safe variant: whatever the prover does, the result is `e^(3(p¹²-1)/r)`. -/
theorem c35_safe_sound (e : E12 Fp) (he : e ≠ 0) (out e' : E12 Fp)
    (h : (Pairing.finalExp e).sat (out, e')) : out = e ^ fullExponent := by
  rw [finalExp_eq] at h
  by_cases h1 : e.C1 = 0
  · rw [safe_zero h1, sat_chk] at h
    rw [subfield_pow he h1]; exact (Prod.ext_iff.1 h.2).1
  · rw [safe_eq h1, sat_chk, easy_full' he] at h
    exact (Prod.ext_iff.1 h.2).1

/-- Unsafe variant: whatever the prover does, the result is `e^(3(p¹²-1)/r)`. -/
theorem c35_unsafe_sound (e : E12 Fp) (he : e ≠ 0) (out e' : E12 Fp)
    (h : (Pairing.finalExpUnsafeExported e).sat (out, e')) : out = e ^ fullExponent := by
  rw [finalExpUnsafe_eq] at h
  by_cases h1 : e.C1 = 0
  · rw [unsafe_fail h1 he] at h; exact h.elim
  · rw [unsafe_eq h1, sat_chk, easy_full' he] at h
    exact (Prod.ext_iff.1 h.2).1

theorem C1_ne {e : E12 Fp} (he : e ≠ 0) (h : e ^ ((fpOrder ^ 12 - 1) / rOrder) ≠ 1) : e.C1 ≠ 0 := by
  intro h1
  apply h
  rw [← easy_cofac he]
  have hc : E12.conj e = e := by ext1 <;> simp [h1]
  have : easy e = 1 := by
    rw [easy_def, easy1_def, hc, div_self he, map_one, mul_one]
  rw [this, one_zpow]

/-- Whenever the reduced value is not 1 (the generic case of a single pairing) both variants are
satisfiable, solved by the honest prover, have exactly one output and leave `e` alone. -/
theorem c35_exact (e : E12 Fp) (he : e ≠ 0) (h : e ^ ((fpOrder ^ 12 - 1) / rOrder) ≠ 1) :
    Pairing.finalExp e = pure (e ^ fullExponent, e) ∧
    Pairing.finalExpUnsafeExported e = pure (e ^ fullExponent, e) := by
  have h1 := C1_ne he h
  have hn := feExps_ne he h
  refine ⟨?_, ?_⟩
  · rw [finalExp_eq, safe_eq h1, easy_full' he, chk_pure]
    exact fun k hk => hn k (List.mem_append.2 (Or.inl hk))
  · rw [finalExpUnsafe_eq, unsafe_eq h1, easy_full' he, chk_pure hn]

/-- The hypotheses are met: a generator of the multiplicative group. -/
example : ∃ e : E12 Fp, e ≠ 0 ∧ e ^ ((fpOrder ^ 12 - 1) / rOrder) ≠ 1 := exists_full_order

/-- Complete description of the safe variant for `C1 ≠ 0`, including results equal to 1: with
`m = e^((p⁶-1)(p²+1))` it is satisfiable exactly when none of the powers `m^k` met along the
addition chain (`feExps`) is 1, and then its only output is `e^(3(p¹²-1)/r)`. -/
theorem c35_safe_satisfiable (e : E12 Fp) (h1 : e.C1 ≠ 0) :
    (Pairing.finalExp e).Satisfiable ↔
      ∀ k ∈ feExps, (e ^ ((fpOrder ^ 6 - 1) * (fpOrder ^ 2 + 1))) ^ k ≠ 1 := by
  have he : e ≠ 0 := fun h => h1 (by rw [h]; rfl)
  have hm : easy e = e ^ ((fpOrder ^ 6 - 1) * (fpOrder ^ 2 + 1)) := by
    have := easy_pow he 1 ((((fpOrder ^ 6 - 1) * (fpOrder ^ 2 + 1) : ℕ) : ℤ)) (by decide +kernel)
    rwa [zpow_one, zpow_natCast] at this
  rw [finalExp_eq, safe_eq h1, ← hm]
  constructor
  · rintro ⟨w, hw⟩; exact (sat_chk.1 hw).1
  · intro h; exact ⟨_, sat_chk.2 ⟨h, rfl⟩⟩

theorem c35_safe_exact_of_satisfiable (e : E12 Fp) (h1 : e.C1 ≠ 0)
    (h : (Pairing.finalExp e).Satisfiable) :
    Pairing.finalExp e = pure (e ^ fullExponent, e) := by
  have he : e ≠ 0 := fun h => h1 (by rw [h]; rfl)
  obtain ⟨w, hw⟩ := h
  rw [finalExp_eq, safe_eq h1] at *
  rw [chk_pure (sat_chk.1 hw).1, easy_full' he]

theorem easy_eq {e : E12 Fp} (he : e ≠ 0) : easy e = e ^ ((fpOrder ^ 6 - 1) * (fpOrder ^ 2 + 1)) := by
  have := easy_pow he 1 ((((fpOrder ^ 6 - 1) * (fpOrder ^ 2 + 1) : ℕ) : ℤ)) (by decide +kernel)
  rwa [zpow_one, zpow_natCast] at this

/-- The safe variant, all cases with `C1 ≠ 0`: the only exceptional inputs are those whose easy part is 1; every
other input has exactly one output, which the honest prover finds. -/
theorem c35_safe_all (e : E12 Fp) (h1 : e.C1 ≠ 0) :
    (e ^ ((fpOrder ^ 6 - 1) * (fpOrder ^ 2 + 1)) ≠ 1 → Pairing.finalExp e = pure (e ^ fullExponent, e)) ∧
    (e ^ ((fpOrder ^ 6 - 1) * (fpOrder ^ 2 + 1)) = 1 → Pairing.finalExp e = fail) := by
  have he : e ≠ 0 := fun h => h1 (by rw [h]; rfl)
  rw [← easy_eq he, finalExp_eq, safe_eq h1]
  refine ⟨fun h => ?_, fun h => chk_fail ⟨1, by simp [feExps], by rw [h, one_zpow]⟩ _⟩
  rw [chk_pure ((feExps_ne_iff he).2 h), easy_full' he]

/-- The unsafe variant, all non-zero inputs: exact when the reduced value is not 1, unsatisfiable when it is. -/
theorem c35_unsafe_all (e : E12 Fp) (he : e ≠ 0) :
    (e ^ ((fpOrder ^ 12 - 1) / rOrder) ≠ 1 →
      Pairing.finalExpUnsafeExported e = pure (e ^ fullExponent, e)) ∧
    (e ^ ((fpOrder ^ 12 - 1) / rOrder) = 1 → Pairing.finalExpUnsafeExported e = fail) := by
  refine ⟨fun h => (c35_exact e he h).2, fun h => ?_⟩
  by_cases h1 : e.C1 = 0
  · exact unsafe_fail h1 he
  · rw [finalExpUnsafe_eq, unsafe_eq h1]
    refine chk_fail ⟨hardExp + 3, by simp, ?_⟩ _
    rw [easy_full' he, fullExponent, mul_comm, pow_mul, h, one_pow]

/-! ## C36 -/

/-- Safe variant on the subfield `E6`: only the result 1 is possible. -/
theorem c36_safe_subfield (e : E12 Fp) (h1 : e.C1 = 0) (out e' : E12 Fp)
    (h : (Pairing.finalExp e).sat (out, e')) : out = 1 := by
  rw [finalExp_eq, safe_zero h1, sat_chk] at h
  exact (Prod.ext_iff.1 h.2).1

/-- Safe variant on the subfield, all cases: the code continues with `C0 + w`, whose easy part must not be 1; then
the honest prover succeeds, with result 1. -/
theorem c36_safe_subfield_all (e : E12 Fp) (h1 : e.C1 = 0) :
    ((⟨e.C0, 1⟩ : E12 Fp) ^ ((fpOrder ^ 6 - 1) * (fpOrder ^ 2 + 1)) ≠ 1 →
      Pairing.finalExp e = pure (1, ⟨e.C0, 1⟩)) ∧
    ((⟨e.C0, 1⟩ : E12 Fp) ^ ((fpOrder ^ 6 - 1) * (fpOrder ^ 2 + 1)) = 1 → Pairing.finalExp e = fail) := by
  have he : (⟨e.C0, 1⟩ : E12 Fp) ≠ 0 := fun h => one_ne_zero (congrArg E12.C1 h)
  rw [← easy_eq he, finalExp_eq, safe_zero h1]
  refine ⟨fun h => chk_pure ((feExps_ne_iff he).2 h) _, fun h => chk_fail ⟨1, by simp [feExps], by rw [h, one_zpow]⟩ _⟩

/-- Unsafe variant on non-zero elements of the subfield: unsatisfiable. -/
theorem c36_unsafe_subfield (e : E12 Fp) (h1 : e.C1 = 0) (he : e ≠ 0) :
    Pairing.finalExpUnsafeExported e = fail := unsafe_fail h1 he

theorem easy_of_C0 {e : E12 Fp} (h0 : e.C0 = 0) (h1 : e.C1 ≠ 0) : easy e = 1 := by
  have he : e ≠ 0 := fun h => h1 (by rw [h]; rfl)
  have hc : E12.conj e = -e := by ext1 <;> simp [h0]
  rw [easy_def, easy1_def, hc, neg_div, div_self he, map_neg, map_one]
  ring

/-- Elements with `C0 = 0`, `C1 ≠ 0`: both variants are unsatisfiable. -/
theorem c36_C0_zero (e : E12 Fp) (h0 : e.C0 = 0) (h1 : e.C1 ≠ 0) :
    Pairing.finalExp e = fail ∧ Pairing.finalExpUnsafeExported e = fail := by
  refine ⟨?_, ?_⟩
  · rw [finalExp_eq, safe_eq h1, chk_fail ⟨1, by simp [feExps], by rw [easy_of_C0 h0 h1, one_zpow]⟩]
  · rw [finalExpUnsafe_eq, unsafe_eq h1,
      chk_fail ⟨1, by simp [feExps], by rw [easy_of_C0 h0 h1, one_zpow]⟩]

/-- `e = 0`: the safe variant is unsatisfiable. -/
theorem c36_safe_zero : Pairing.finalExp 0 = fail := by
  rw [finalExp_eq, safe_zero rfl,
    chk_fail ⟨1, by simp [feExps], by rw [easy_of_C0 (e := ⟨(0 : E12 Fp).C0, 1⟩) rfl one_ne_zero, one_zpow]⟩]

/-- `e = 0`: in the unsafe variant the prover chooses the quotient `0/0`, so every result the
circuit can have on some other input is also a possible result on input 0. -/
theorem c36_unsafe_zero_free (e out : E12 Fp)
    (h : (Pairing.finalExpUnsafeExported e).sat (out, e)) :
    (Pairing.finalExpUnsafeExported 0).sat (out, 0) := by
  rw [finalExpUnsafe_eq, Pairing.finalExpUnsafe, sat_bind] at *
  obtain ⟨⟨c, t1⟩, hc, hm⟩ := h
  refine ⟨(c, t1), ?_, ?_⟩
  · rw [Pairing.finalExpChain, sat_bind] at *
    obtain ⟨q, -, hq⟩ := hc
    refine ⟨q, ?_, hq⟩
    rw [Ext6.sat_divUnchecked]
    show q * (0 : E6 Fp) = 0
    rw [mul_zero]
  · dsimp only at *
    obtain ⟨m, hm1, d, hd, hr⟩ := hm
    refine ⟨m, hm1, d, hd, ?_⟩
    rw [sat_pure] at *
    rw [show out = d from (Prod.ext_iff.1 hr).1]

/-- ... for instance the non-trivial result on a generator. -/
example : ∃ out : E12 Fp, out ≠ 1 ∧ (Pairing.finalExpUnsafeExported 0).sat (out, 0) := by
  obtain ⟨e, he, h⟩ := exists_full_order
  refine ⟨e ^ fullExponent, ?_, c36_unsafe_zero_free e _ ?_⟩
  · rw [← easy_full' he]
    exact feExps_ne he h _ (List.mem_append.2 (Or.inr List.mem_cons_self))
  · rw [(c35_exact e he h).2]; rfl

theorem easy_scale {e : E12 Fp} (h1 : e.C1 ≠ 0) : easy ⟨e.C0 / e.C1, 1⟩ = easy e := by
  have e1 : (⟨e.C0 / e.C1, 1⟩ : E12 Fp) = e * E12.of e.C1⁻¹ := by
    ext1
    · simp [div_eq_mul_inv]
    · simp [mul_inv_cancel₀ h1]
  have h0 : E12.of e.C1⁻¹ ≠ 0 := fun h => inv_ne_zero h1 (E12.of_injective (h.trans E12.of_zero.symm))
  have hc : E12.conj (E12.of e.C1⁻¹) = E12.of e.C1⁻¹ := by ext1 <;> simp
  rw [easy_def, easy_def, easy1_def, easy1_def, e1, E12.conj_mul, hc, mul_div_mul_right _ _ h0]

/-- Elements of the subfield on which the safe variant is satisfiable exist. -/
theorem c36_safe_subfield_satisfiable :
    ∃ e : E12 Fp, e.C1 = 0 ∧ e ≠ 0 ∧ Pairing.finalExp e = pure (1, ⟨e.C0, 1⟩) := by
  obtain ⟨g, hg, h⟩ := exists_full_order
  have h1 := C1_ne hg h
  have h0 : g.C0 ≠ 0 := fun h0 => by
    apply h
    rw [← easy_cofac hg, easy_of_C0 h0 h1, one_zpow]
  refine ⟨⟨g.C0 / g.C1, 0⟩, rfl, fun h' => div_ne_zero h0 h1 (congrArg E12.C0 h'), ?_⟩
  rw [finalExp_eq, safe_zero rfl, easy_scale h1, chk_pure]
  exact fun k hk => feExps_ne hg h k (List.mem_append.2 (Or.inl hk))

/-- Elements meeting the hypotheses of the other theorems. -/
example : (⟨2, 0⟩ : E12 Fp).C1 = 0 ∧ (⟨0, 2⟩ : E12 Fp).C0 = 0 ∧ (⟨0, 2⟩ : E12 Fp).C1 ≠ 0 :=
  ⟨rfl, rfl, two_ne6⟩

/-! ## C37 -/

/-- The unsafe variant never changes its argument. -/
theorem c37_unsafe_unchanged (e out e' : E12 Fp)
    (h : (Pairing.finalExpUnsafeExported e).sat (out, e')) : e' = e := by
  rw [finalExpUnsafe_eq, Pairing.finalExpUnsafe, sat_bind] at h
  obtain ⟨⟨c, t1⟩, hc, hm⟩ := h
  obtain ⟨m, hm1, d, hd, hr⟩ := hm
  rw [sat_pure] at hr
  exact (Prod.ext_iff.1 hr).2

/-- The safe variant leaves its argument alone when `C1 ≠ 0` ... -/
theorem c37_safe_unchanged_partial (e out e' : E12 Fp) (h1 : e.C1 ≠ 0)
    (h : (Pairing.finalExp e).sat (out, e')) : e' = e := by
  rw [finalExp_eq, safe_eq h1, sat_chk] at h
  exact (Prod.ext_iff.1 h.2).2

/-- ... and otherwise always overwrites `C1` by 1: the property as stated fails exactly there. -/
theorem c37_safe_mutates (e out e' : E12 Fp) (h1 : e.C1 = 0)
    (h : (Pairing.finalExp e).sat (out, e')) : e' = ⟨e.C0, 1⟩ ∧ e' ≠ e := by
  rw [finalExp_eq, safe_zero h1, sat_chk] at h
  have := (Prod.ext_iff.1 h.2).2
  refine ⟨this, fun he => ?_⟩
  have h2 := congrArg E12.C1 (he.symm.trans this)
  rw [h1] at h2
  exact zero_ne_one h2

/-- The negation of C37, with a witness. -/
theorem c37_violated : ∃ e out e' : E12 Fp, (Pairing.finalExp e).run = some (out, e') ∧ e' ≠ e := by
  obtain ⟨e, h1, -, h⟩ := c36_safe_subfield_satisfiable
  exact ⟨e, 1, ⟨e.C0, 1⟩, by rw [h]; rfl, (c37_safe_mutates e 1 _ h1 (by rw [h]; rfl)).2⟩

end Spark.FinalExpProps
