import Verif.Props.Pairing

/-! The Miller loop on `(0, 0)`, gnark's encoding of the point at infinity of the twist. -/

namespace Spark.Pairing
open Circ Torus Spec PairingProps

/-- the line `v·w` of slope 0 through `(0, 0)` -/
abbrev L0 : E12 Fp := Ext12.sparse014 0 0

theorem L0_eq : L0 = E12.w ^ 3 := by
  rw [L0, sparse014_eq_w]; simp [inc2]

theorem L0_sq : L0 * L0 = E12.of (E6.of E2.xi) := by
  ext1
  · rw [E12.C0_mul]; ext1 <;> simp [Ext12.sparse014]
  · rw [E12.C1_mul]; ext1 <;> simp [Ext12.sparse014]

theorem L0_killed : Killed L0 := by rw [L0_eq]; exact Killed.w3

theorem div00_run : (Ext2.divUnchecked (0 : E2 Fp) 0).run = some 0 := by
  simp only [Ext2.divUnchecked, tower, run_bind, run_hint, Option.bind_some, run_assert, run_pure]
  simp

theorem tangentCompute_zero : (tangentCompute (⟨0, 0⟩ : G2Affine Fp)).run = some ⟨0, 0⟩ := by
  simp only [tangentCompute, tower, int_three, mul_zero, run_bind, div00_run, Option.bind_some, run_pure]
  simp

theorem doubleStep_zero : (doubleStep (⟨0, 0⟩ : G2Affine Fp)).run = some (⟨0, 0⟩, ⟨0, 0⟩) := by
  simp only [doubleStep, tower, int_three, mul_zero, run_bind, div00_run, Option.bind_some, run_pure]
  simp

theorem tripleStep_zero : (tripleStep (⟨0, 0⟩ : G2Affine Fp)).run = some (⟨0, 0⟩, ⟨0, 0⟩, ⟨0, 0⟩) := by
  simp only [tripleStep, tower, int_three, mul_zero, run_bind, div00_run, Option.bind_some, run_pure, sub_zero]
  simp

theorem doubleAndAddStep_zero :
    (doubleAndAddStep (⟨0, 0⟩ : G2Affine Fp) ⟨0, 0⟩).run = some (⟨0, 0⟩, ⟨0, 0⟩, ⟨0, 0⟩) := by
  simp only [doubleAndAddStep, tower, mul_zero, run_bind, div00_run, Option.bind_some, run_pure, sub_zero]
  simp

theorem evalLine_zero (s : PairState Fp) : evalLine s ⟨0, 0⟩ = ⟨0, 0⟩ := by
  simp [evalLine, tower]

/-- both points of the state are `(0, 0)` -/
def ZeroState (s : PairState Fp) : Prop := s.Q = ⟨0, 0⟩ ∧ s.Qacc = ⟨0, 0⟩

theorem ZeroState.self {s : PairState Fp} (h : ZeroState s) : { s with Qacc := ⟨0, 0⟩ } = s := by
  rw [← h.2]

variable {s : PairState Fp}

theorem fac62_zero (h : ZeroState s) : (fac62 s).run = some (s, L0 * L0) := by
  rw [fac62, run_bind, h.2, tripleStep_zero, Option.bind_some]
  simp only [evalLine_zero, run_pure, h.self]

theorem fac0_zero (h : ZeroState s) : (fac0 s).run = some (s, L0) := by
  rw [fac0, run_bind, h.2, doubleStep_zero, Option.bind_some]
  simp only [evalLine_zero, run_pure, h.self]

theorem fac1_zero (h : ZeroState s) : (fac1 s).run = some (s, L0 * L0) := by
  rw [fac1, run_bind, show doubleAndAddStep s.Qacc s.Q = doubleAndAddStep ⟨0, 0⟩ ⟨0, 0⟩ by rw [h.1, h.2],
    doubleAndAddStep_zero, Option.bind_some]
  simp only [evalLine_zero, run_pure, h.self]

theorem facLast_zero (h : ZeroState s) : (facLast s).run = some (s, L0) := by
  rw [facLast, run_bind, h.2, tangentCompute_zero, Option.bind_some]
  simp only [evalLine_zero, run_pure]

/-- a non-zero element of `Fp2`, times a power of the line -/
def Mono (z : E12 Fp) : Prop := ∃ (c : E2 Fp) (k : ℕ), c ≠ 0 ∧ z = E12.of (E6.of c) * L0 ^ k

theorem xi_ne : (E2.xi : E2 Fp) ≠ 0 := fun h => one_ne_zero (congrArg E2.A0 h)

theorem Mono.sq {z : E12 Fp} (h : Mono z) : ∃ c : E2 Fp, c ≠ 0 ∧ z * z = E12.of (E6.of c) := by
  obtain ⟨c, k, hc, rfl⟩ := h
  refine ⟨c * c * E2.xi ^ k, mul_ne_zero (mul_ne_zero hc hc) (pow_ne_zero k xi_ne), ?_⟩
  rw [E6.of_mul, E12.of_mul, E6.of_mul, E12.of_mul, E6.of_pow, E12.of_pow, ← L0_sq]
  ring

theorem loop1_zero (h : ZeroState s) (i : ℕ) {z : E12 Fp} (hz : Mono z) :
    ∃ z', Mono z' ∧ (loop1 i (s, z)).run = some (s, z') := by
  induction i generalizing z with
  | zero => exact ⟨z, hz, rfl⟩
  | succ i ih =>
    obtain ⟨c, hc, e⟩ := hz.sq
    rw [loop1, facI]
    split
    · obtain ⟨z', hz', e'⟩ := ih (z := z * z * L0) ⟨c, 1, hc, by rw [e, pow_one]⟩
      refine ⟨z', hz', ?_⟩
      rw [run_bind, fac0_zero h, Option.bind_some]; exact e'
    · obtain ⟨z', hz', e'⟩ := ih (z := z * z * (L0 * L0)) ⟨c, 2, hc, by rw [e, pow_two]⟩
      refine ⟨z', hz', ?_⟩
      rw [run_bind, fac1_zero h, Option.bind_some]; exact e'

theorem initPair_ne {P : G1Affine Fp} (hY : P.Y ≠ 0) (Q : G2Affine Fp) :
    initPair P Q = pure ⟨Q, Q, P.Y⁻¹, P.X * P.Y⁻¹⟩ := by
  rw [initPair, fpInverse_ne hY, pure_bind]

theorem body1pair_run {x y z : PairState Fp × E12 Fp} (h1 : (fac62 s).run = some x)
    (h2 : (loop1 61 x).run = some y) (h3 : (facLast y.1).run = some z) :
    (body1pair s).run = some (E12.conj (y.2 * y.2 * z.2)) := by
  simp only [body1pair, run_bind, h1, h2, h3, Option.bind_some, run_pure]

theorem conj_L0 (c : E2 Fp) : E12.conj (E12.of (E6.of c) * L0) = E12.of (E6.of (-c)) * L0 := by
  have h1 : E12.conj (E12.of (E6.of c)) = E12.of (E6.of c) := by ext1 <;> simp
  have h2 : E12.conj L0 = -L0 := by
    ext1 <;> ext1 <;> simp [Ext12.sparse014]
  rw [E12.conj_mul, h1, h2, E6.of_neg, E12.of_neg]; ring

/-- the honest Miller value of `(P, (0, 0))` -/
theorem miller1_zero {P : G1Affine Fp} (hY : P.Y ≠ 0) :
    ∃ c : E2 Fp, c ≠ 0 ∧ (miller1 (P, ⟨0, 0⟩)).run = some (E12.of (E6.of c) * L0) := by
  rw [miller1, initPair_ne hY, pure_bind]
  have h : ZeroState ⟨⟨0, 0⟩, ⟨0, 0⟩, P.Y⁻¹, P.X * P.Y⁻¹⟩ := ⟨rfl, rfl⟩
  generalize (⟨⟨0, 0⟩, ⟨0, 0⟩, P.Y⁻¹, P.X * P.Y⁻¹⟩ : PairState Fp) = s at h
  obtain ⟨z, hz, e⟩ := loop1_zero h 61 (z := L0 * L0) ⟨E2.xi, 0, xi_ne, by rw [L0_sq, pow_zero, mul_one]⟩
  obtain ⟨c, hc, e2⟩ := hz.sq
  refine ⟨-c, neg_ne_zero.2 hc, ?_⟩
  rw [body1pair_run (fac62_zero h) e (facLast_zero h), e2, conj_L0]

end Spark.Pairing
