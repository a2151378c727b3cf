import Verif.Model.TestCircuits
import Verif.Props.Tower
import Verif.Props.Torus
import Verif.Props.Groups
import Verif.Props.Exception

/-!
# Properties C88-C90: the circuits of the repository's tests, for all inputs

`assert p` is the circuit without outputs that is satisfied - by the honest prover, and at all - exactly when `p`.
The tests run each circuit on a random witness; here the circuits are shown equal to the assertion of the intended
relation, for every witness for which this is true, with the exceptions spelled out.
-/

namespace Spark.TestCircuitProps
open Spark Circ Torus TestCircuits
set_option maxRecDepth 100000

/-! ## C88: tower_test.go:14-879, 922-959 -/

theorem c88_e2 (A B C : E2 Fp) (k : Fp) :
    e2Add A B C = assert (C = A + B) ∧ e2Sub A B C = assert (C = A - B) ∧ e2Double A C = assert (C = A + A) ∧
    e2Mul A B C = assert (C = A * B) ∧ e2Square A C = assert (C = A ^ 2) ∧
    e2MulByElement A k C = assert (C = A * E2.of k) ∧ e2MulByNonResidue A C = assert (C = A * (1 + E2.u)) ∧
    e2Neg A C = assert (C = -A) ∧ e2Conjugate A C = assert (C = A ^ fpOrder) := by
  simp only [e2Add, e2Sub, e2Double, e2Mul, e2Square, e2MulByElement, e2MulByNonResidue, e2Neg, e2Conjugate,
    TowerProps.c24_add, TowerProps.c24_sub, TowerProps.c24_double, TowerProps.c24_mul, TowerProps.c24_square,
    TowerProps.c24_mulByElement, TowerProps.c24_mulByNonResidue, TowerProps.c24_neg, TowerProps.c24_conjugate,
    Ext2.assertIsEqual_eq, eq_comm (b := C), and_self]

theorem c88_e6 (A B C : E6 Fp) (b c0 c1 : E2 Fp) :
    e6Add A B C = assert (C = A + B) ∧ e6Sub A B C = assert (C = A - B) ∧
    e6Mul A B C = assert (C = A * B) ∧ e6Square A C = assert (C = A ^ 2) ∧
    e6MulByNonResidue A C = assert (C = A * E6.v) ∧ e6MulByE2 A b C = assert (C = A * E6.of b) ∧
    e6MulBy01 A c0 c1 C = assert (C = A * (E6.of c0 + E6.of c1 * E6.v)) ∧ e6Neg A C = assert (C = -A) := by
  simp only [e6Add, e6Sub, e6Mul, e6Square, e6MulByNonResidue, e6MulByE2, e6MulBy01, e6Neg,
    TowerProps.c25_add, TowerProps.c25_sub, TowerProps.c25_mul, TowerProps.c25_square,
    TowerProps.c25_mulByNonResidue, TowerProps.c25_mulByE2, TowerProps.c25_mulBy01, TowerProps.c25_neg,
    Ext6.assertIsEqual_eq, eq_comm (b := C), and_self]

theorem c88_e12 (A B C : E12 Fp) (b c : E2 Fp) :
    e12Add A B C = assert (C = A + B) ∧ e12Sub A B C = assert (C = A - B) ∧
    e12Mul A B C = assert (C = A * B) ∧ e12Square A C = assert (C = A ^ 2) ∧
    e12Conjugate A C = assert (C = A ^ fpOrder ^ 6) ∧
    e12MulBy014 A C b c = assert (C = A * TowerProps.line b c) := by
  simp only [e12Add, e12Sub, e12Mul, e12Square, e12Conjugate, e12MulBy014,
    TowerProps.c26_add, TowerProps.c26_sub, TowerProps.c26_mul, TowerProps.c26_square, TowerProps.c26_conjugate,
    TowerProps.c27_mulBy014, Ext12.assertIsEqual_eq, eq_comm (b := C), and_self]

theorem assert_congr {p q : Prop} [Decidable p] [Decidable q] (h : p ↔ q) : assert p = assert q := by
  by_cases hp : p
  · rw [assert_true hp, assert_true (h.1 hp)]
  · rw [assert_false hp, assert_false fun hq => hp (h.2 hq)]

/-- Inverses: `C·A = 1`; in particular nothing is accepted for `A = 0`. -/
theorem c88_inverse (A2 C2 : E2 Fp) (A6 C6 : E6 Fp) (A12 C12 : E12 Fp) :
    e2Inverse A2 C2 = assert (C2 * A2 = 1) ∧ e6Inverse A6 C6 = assert (C6 * A6 = 1) ∧
    e12Inverse A12 C12 = assert (C12 * A12 = 1) := by
  refine ⟨?_, ?_, ?_⟩
  · rw [e2Inverse]
    by_cases h : A2 = 0
    · rw [h, Ext2.inverse_zero, fail_bind, mul_zero, assert_false zero_ne_one]
    · rw [Ext2.inverse_eq h, pure_bind, Ext2.assertIsEqual_eq]
      exact (assert_congr (by rw [eq_comm, mul_eq_one_iff_eq_inv₀ h]))
  · rw [e6Inverse]
    by_cases h : A6 = 0
    · rw [h, Ext6.inverse_zero, fail_bind, mul_zero, assert_false zero_ne_one]
    · rw [Ext6.inverse_eq h, pure_bind, Ext6.assertIsEqual_eq]
      exact (assert_congr (by rw [eq_comm, mul_eq_one_iff_eq_inv₀ h]))
  · rw [e12Inverse]
    by_cases h : A12 = 0
    · rw [h, Ext12.inverse_zero, fail_bind, mul_zero, assert_false zero_ne_one]
    · rw [Ext12.inverse_eq h, pure_bind, Ext12.assertIsEqual_eq]
      exact (assert_congr (by rw [eq_comm, mul_eq_one_iff_eq_inv₀ h]))
/-- Quotients `C = A/B` by `B ≠ 0`. -/
theorem c88_div (A2 B2 C2 : E2 Fp) (A6 B6 C6 : E6 Fp) (A12 B12 C12 : E12 Fp) :
    (B2 ≠ 0 → e2Div A2 B2 C2 = assert (C2 = A2 / B2)) ∧ (B6 ≠ 0 → e6Div A6 B6 C6 = assert (C6 = A6 / B6)) ∧
    (B12 ≠ 0 → e12Div A12 B12 C12 = assert (C12 = A12 / B12)) :=
  ⟨fun h => by rw [e2Div, Ext2.divUnchecked_eq h, pure_bind, Ext2.assertIsEqual_eq, assert_congr eq_comm],
   fun h => by rw [e6Div, Ext6.divUnchecked_eq h, pure_bind, Ext6.assertIsEqual_eq, assert_congr eq_comm],
   fun h => by rw [e12Div, Ext12.divUnchecked_eq h, pure_bind, Ext12.assertIsEqual_eq, assert_congr eq_comm]⟩

/-- Division by anything: accepted exactly when `C·B = A`; so for `B = 0` nothing is accepted unless `A = 0`, and then
everything. -/
theorem c88_div_satisfiable (A2 B2 C2 : E2 Fp) (A6 B6 C6 : E6 Fp) (A12 B12 C12 : E12 Fp) :
    ((e2Div A2 B2 C2).Satisfiable ↔ C2 * B2 = A2) ∧ ((e6Div A6 B6 C6).Satisfiable ↔ C6 * B6 = A6) ∧
    ((e12Div A12 B12 C12).Satisfiable ↔ C12 * B12 = A12) := by
  refine ⟨⟨?_, fun h => ⟨(), C2, (Ext2.sat_divUnchecked ..).2 h, ?_⟩⟩, ⟨?_, fun h => ⟨(), C6, (Ext6.sat_divUnchecked ..).2 h, ?_⟩⟩,
    ⟨?_, fun h => ⟨(), C12, (Ext12.sat_divUnchecked ..).2 h, ?_⟩⟩⟩
  · rintro ⟨_, z, h, h'⟩
    replace h' : (Ext2.assertIsEqual z C2).sat _ := h'
    rw [Ext2.assertIsEqual_eq, sat_assert] at h'
    subst h'; exact (Ext2.sat_divUnchecked ..).1 h
  · show (Ext2.assertIsEqual _ _).sat _
    rw [Ext2.assertIsEqual_eq]; rfl
  · rintro ⟨_, z, h, h'⟩
    replace h' : (Ext6.assertIsEqual z C6).sat _ := h'
    rw [Ext6.assertIsEqual_eq, sat_assert] at h'
    subst h'; exact (Ext6.sat_divUnchecked ..).1 h
  · show (Ext6.assertIsEqual _ _).sat _
    rw [Ext6.assertIsEqual_eq]; rfl
  · rintro ⟨_, z, h, h'⟩
    replace h' : (Ext12.assertIsEqual z C12).sat _ := h'
    rw [Ext12.assertIsEqual_eq, sat_assert] at h'
    subst h'; exact (Ext12.sat_divUnchecked ..).1 h
  · show (Ext12.assertIsEqual _ _).sat _
    rw [Ext12.assertIsEqual_eq]; rfl

/-- a concrete run: `(1 + 2u)(3 + 4u) = -5 + 10u` is accepted, `-5 + 11u` is not -/
example : e2Mul ⟨1, 2⟩ ⟨3, 4⟩ ⟨-5, 10⟩ = pure () ∧ e2Mul ⟨1, 2⟩ ⟨3, 4⟩ ⟨-5, 11⟩ = fail := by
  rw [(c88_e2 _ _ _ 0).2.2.2.1, (c88_e2 _ _ _ 0).2.2.2.1]
  exact ⟨assert_true (by decide +kernel), assert_false (by decide +kernel)⟩

/-! ## C89: the torus circuits, tower_test.go:883-920, 961-1240 -/

/-- `a` has norm 1 over `Fp6` and is not ±1 -/
def Compressible (a : E12 Fp) : Prop := a ^ (fpOrder ^ 6 + 1) = 1 ∧ a ≠ 1 ∧ a ≠ -1

/-- `a^(p⁴-p²+1) = 1` (`a ≠ 0`) -/
def Cyclotomic (a : E12 Fp) : Prop := a ≠ 0 ∧ a ^ fpOrder ^ 4 * a = a ^ fpOrder ^ 2

theorem Compressible.tor {a : E12 Fp} (h : Compressible a) : Tor a := ⟨TorusProps.norm_of_pow h.1, h.2.1⟩

theorem Compressible.compress {a : E12 Fp} (h : Compressible a) : Ext12.compressTorus a = pure (C a) :=
  compressTorus_eq h.tor h.2.2

/-- Compression, all inputs outside `Fp6`. -/
theorem c89_compress (A : E12 Fp) (C : E6 Fp) (h : A.C1 ≠ 0) : torusCompress A C = assert (C = (A.C0 + 1) / A.C1) := by
  rw [torusCompress, Ext12.compressTorus]
  simp only [tower]
  rw [Ext6.divUnchecked_eq h, pure_bind, assert_congr eq_comm]

/-- Compression of elements of `Fp6`: nothing is accepted, except for -1, for which everything is. -/
theorem c89_compress_subfield (A : E12 Fp) (C : E6 Fp) (h : A.C1 = 0) :
    (torusCompress A C).Satisfiable ↔ A = -1 := by
  constructor
  · rintro ⟨_, z, h1, -⟩
    rw [Ext12.compressTorus] at h1
    simp only [tower] at h1
    rw [Ext6.sat_divUnchecked, h, mul_zero] at h1
    ext1
    · simpa using (eq_neg_of_add_eq_zero_left h1.symm)
    · simpa using h
  · rintro rfl
    refine ⟨(), C, TorusProps.c32_compress_minus_one.2.2 C, ?_⟩
    show (Ext6.assertIsEqual _ _).sat _
    rw [Ext6.assertIsEqual_eq]; rfl

theorem c89_decompress (A C : E12 Fp) (h : Compressible A) : torusDecompress A C = assert (C = A) := by
  rw [torusDecompress, h.compress, pure_bind, decompressTorus_eq, pure_bind, D_C h.tor, Ext12.assertIsEqual_eq,
    assert_congr eq_comm]

theorem c89_mul (A B C : E12 Fp) (hA : Compressible A) (hB : Compressible B) :
    torusMul A B C = assert (A * B ≠ 1 ∧ C = A * B) := by
  rw [torusMul, hA.compress, hB.compress, pure_bind, pure_bind, mulTorus_C hA.tor hB.tor]
  by_cases h : A * B = 1
  · rw [h, tor_one, fail_bind, assert_false fun h' => h'.1 rfl]
  · rw [tor_of_ne h, pure_bind, decompressTorus_eq, pure_bind, D_C (hA.tor.mul hB.tor h), Ext12.assertIsEqual_eq]
    exact assert_congr ⟨fun e => ⟨h, e.symm⟩, fun e => e.2.symm⟩

theorem c89_inverse (A C : E12 Fp) (h : Compressible A) : torusInverse A C = assert (C = A⁻¹) := by
  rw [torusInverse, h.compress, pure_bind, inverseTorus_C h.tor]
  simp only [decompressTorus_eq, pure_bind]
  rw [D_C h.tor.inv, Ext12.assertIsEqual_eq, assert_congr eq_comm]

theorem c89_frobenius (A C : E12 Fp) (h : Compressible A) :
    torusFrobenius A C = assert (C = A ^ fpOrder) ∧ torusFrobeniusSquare A C = assert (C = A ^ fpOrder ^ 2) := by
  constructor
  · rw [torusFrobenius, h.compress, pure_bind]
    simp only [decompressTorus_eq, pure_bind]
    rw [D_frobeniusTorus, D_C h.tor, frobHom_apply, Ext12.assertIsEqual_eq, assert_congr eq_comm]
  · rw [torusFrobeniusSquare, h.compress, pure_bind]
    simp only [decompressTorus_eq, pure_bind]
    rw [D_frobeniusSquareTorus, D_C h.tor, frobHom2_apply, Ext12.assertIsEqual_eq, assert_congr eq_comm]

theorem sq_ne {A : E12 Fp} (h : Compressible A) : A * A ≠ 1 := fun h' => by
  rcases mul_self_eq_one_iff.1 h' with h1 | h1
  · exact h.2.1 h1
  · exact h.2.2 h1

/-- Squaring, any prover: for all compressible inputs. -/
theorem c89_square_satisfiable (A C : E12 Fp) (h : Compressible A) : (torusSquare A C).Satisfiable ↔ C = A ^ 2 := by
  rw [torusSquare, h.compress, pure_bind]
  constructor
  · rintro ⟨_, y, h1, z, h2, h3⟩
    rw [sat_squareTorus_C h.tor, sat_tor] at h1
    rw [decompressTorus_eq] at h2
    replace h3 : (Ext12.assertIsEqual z C).sat _ := h3
    rw [Ext12.assertIsEqual_eq, sat_assert] at h3
    rw [← h3, h2, h1.2, D_C (h.tor.mul h.tor h1.1), pow_two]
  · rintro rfl
    refine ⟨(), Torus.C (A * A), ?_, A ^ 2, ?_, ?_⟩
    · rw [sat_squareTorus_C h.tor, sat_tor]; exact ⟨sq_ne h, rfl⟩
    · rw [decompressTorus_eq, sat_pure, D_C (h.tor.mul h.tor (sq_ne h)), pow_two]
    · show (Ext12.assertIsEqual _ _).sat _
      rw [Ext12.assertIsEqual_eq]; rfl

/-- Squaring, honest prover: for cyclotomic inputs. -/
theorem c89_square (A C : E12 Fp) (h : Compressible A) (hc : Cyclotomic A) : torusSquare A C = assert (C = A ^ 2) := by
  rw [torusSquare, h.compress, pure_bind, squareTorus_of_cyc h.tor (cyclotomicSquare_eq (TorusProps.cyc_of_pow hc.2)),
    tor_of_ne (sq_ne h), pure_bind, decompressTorus_eq, pure_bind, D_C (h.tor.mul h.tor (sq_ne h)), ← pow_two,
    Ext12.assertIsEqual_eq, assert_congr eq_comm]

theorem exps_gcd : ∀ k ∈ exptExps 1, Int.gcd k (rOrder * cofac) = 1 := by
  rw [cofac_def]; decide +kernel

/-- The `t`-th power in the torus: exact for every compressed cyclotomic value (this removes the condition on small
powers of `c34_exptTorus_exact`). -/
theorem c89_exptTorus (y : E6 Fp) (hc : Cyclotomic (TorusProps.Dec y)) :
    ∃ r, Ext12.exptTorus y = pure r ∧ TorusProps.Dec r = TorusProps.Dec y ^ TorusProps.seed := by
  have hc' := hc.2
  rw [TorusProps.dec_eq] at hc'
  have hcn : CN (D y) := ⟨TorusProps.cyc_of_pow hc', (tor_D y).1⟩
  have h1 : D y ^ (1 : ℤ) ≠ 1 := by rw [zpow_one]; exact (tor_D y).2
  have e := hcn.expt h1
  rw [zpow_one, C_D, chk_pure] at e
  · exact ⟨_, e, TorusProps.c34_exptTorus_sound y _ (by rw [e]; rfl)⟩
  · intro k hk h
    exact (tor_D y).2 (pow_gcd_aux hcn.ne_zero hcn.pow_one h (exps_gcd k hk))

theorem c89_expt (A : E6 Fp) (C : E12 Fp) (hc : Cyclotomic (TorusProps.Dec A)) :
    e12ExptTorus A C = assert (C = TorusProps.Dec A ^ TorusProps.seed) := by
  obtain ⟨r, e, hr⟩ := c89_exptTorus A hc
  rw [e12ExptTorus, e, pure_bind, TorusProps.c32_decompress, pure_bind, hr, Ext12.assertIsEqual_eq, assert_congr eq_comm]

/-- How the tests make an input: a random `a`, raised to `(p⁶-1)(p²+1)`.  The result is cyclotomic, and compressible
unless it is 1; that happens exactly for `a` in `Fp6` and the inputs rejected by the final exponentiation (C86). -/
theorem c89_inputs (a : E12 Fp) (h : a ≠ 0) :
    Cyclotomic (a ^ ((fpOrder ^ 6 - 1) * (fpOrder ^ 2 + 1))) ∧
    (Compressible (a ^ ((fpOrder ^ 6 - 1) * (fpOrder ^ 2 + 1))) ↔ a.C1 ≠ 0 ∧ ¬ ExceptionProps.Exceptional a) := by
  have hcn := easy_CN h
  rw [← FinalExpProps.easy_eq h]
  have hcy : Cyclotomic (easy a) := ⟨hcn.ne_zero, by
    rw [TorusProps.pow_four, ← frobHom2_apply]; exact hcn.cyc⟩
  refine ⟨hcy, ?_⟩
  have hone : easy a ≠ 1 ↔ a.C1 ≠ 0 ∧ ¬ ExceptionProps.Exceptional a := by
    by_cases h1 : a.C1 = 0
    · have hc : E12.conj a = a := by ext1 <;> simp [h1]
      have : easy a = 1 := by rw [easy_def, easy1_def, hc, div_self h, map_one, mul_one]
      exact ⟨fun h => absurd this h, fun h => absurd h1 h.1⟩
    · rw [ExceptionProps.exceptional_easy, PairingProps.safeInput, if_neg h1, FinalExpProps.easy_eq h]
      exact ⟨fun h => ⟨h1, h⟩, fun h => h.2⟩
  rw [← hone]
  refine ⟨fun h => h.2.1, fun h1 => ⟨?_, h1, fun h2 => ?_⟩⟩
  · rw [pow_succ, E12.frob6, mul_comm]; exact hcn.norm
  · have := hcy.2
    rw [h2] at this
    have e1 : (-1 : E12 Fp) ^ fpOrder ^ 4 = -1 := Odd.neg_one_pow (Odd.pow (by decide +kernel))
    have e2 : (-1 : E12 Fp) ^ fpOrder ^ 2 = -1 := Odd.neg_one_pow (Odd.pow (by decide +kernel))
    rw [e1, e2] at this
    apply two_ne12
    linear_combination this

/-- Such inputs exist. -/
example : ∃ a : E12 Fp, Compressible a ∧ Cyclotomic a := by
  obtain ⟨y, h1, h2⟩ := TorusProps.exists_cyclotomic
  refine ⟨TorusProps.Dec y, ⟨(TorusProps.c32_decompress_norm y).1, (TorusProps.c32_decompress_norm y).2, fun h => ?_⟩, ?_, h1⟩
  · exact h2 2 (by norm_num) (by norm_num) (by rw [h]; norm_num)
  · rw [TorusProps.dec_eq]; exact D_ne_zero y

/-- [Finding] `torusDecompress` on -1 accepts every element of norm 1 other than 1. -/
theorem c89_decompress_minus_one (C : E12 Fp) (h : C ^ (fpOrder ^ 6 + 1) = 1) (h1 : C ≠ 1) :
    (torusDecompress (-1) C).Satisfiable := by
  refine ⟨(), Torus.C C, TorusProps.c32_compress_minus_one.2.2 _, C, ?_, ?_⟩
  · rw [decompressTorus_eq, sat_pure, D_C ⟨TorusProps.norm_of_pow h, h1⟩]
  · show (Ext12.assertIsEqual _ _).sat _
    rw [Ext12.assertIsEqual_eq]; rfl

/-! ## C90: pairing_test.go

As in the tests, points are multiples of the generators; `gT` is the textbook (reduced ate) pairing of the generators. -/

open Spec Pairing FinalExpProps PairingProps GroupProps ExceptionProps

/-- `e(g₁, g₂)` -/
noncomputable def gT : E12 Fp := ate G1gen G2gen

/-- Exponents of `gT` matter exactly modulo `r`. -/
theorem gT_pow (n : ℕ) : gT ^ n = 1 ↔ rOrder ∣ n := by
  constructor
  · exact pow_eq_one_of ate_gen_ne (ate_pow_r _ _)
  · rintro ⟨k, rfl⟩
    rw [pow_mul, gT, ate_pow_r, one_pow]

/-- `FinalExponentiationCircuit`, all inputs: accepted exactly for a non-zero element whose reduced value is not 1, and
its power `3(p¹²-1)/r`. -/
theorem c90_finalExponentiation (InGt Res : E12 Fp) :
    finalExponentiationCircuit InGt Res =
      assert (InGt ≠ 0 ∧ InGt ^ ((fpOrder ^ 12 - 1) / rOrder) ≠ 1 ∧ Res = InGt ^ (3 * ((fpOrder ^ 12 - 1) / rOrder))) := by
  by_cases h0 : InGt = 0
  · subst h0
    rw [finalExponentiationCircuit, c36_safe_zero, fail_bind, assert_false fun h => h.1 rfl]
  by_cases h1 : InGt ^ ((fpOrder ^ 12 - 1) / rOrder) = 1
  · rw [assert_false fun h => h.2.1 h1]
    refine eq_fail ?_
    rintro _ ⟨⟨o, e'⟩, hs, _, ha, ⟨o2, e2⟩, hs2, hb⟩
    replace ha : (Ext12.assertIsEqual o Res).sat _ := ha
    replace hb : (Ext12.assertIsEqual o2 Res).sat _ := hb
    replace hs2 : (finalExpUnsafeExported e').sat (o2, e2) := hs2
    rw [Ext12.assertIsEqual_eq, sat_assert] at ha hb
    by_cases hc : InGt.C1 = 0
    · have ho : o = 1 := c36_safe_subfield InGt hc o e' hs
      have he : e' ≠ 0 := by
        rw [(c37_safe_mutates InGt o e' hc hs).1]
        exact fun h => one_ne_zero (congrArg E12.C1 h)
      rcases (c86_unsafe e').1 ⟨_, hs2⟩ with h | h
      · exact he h
      · have h3 := c35_unsafe_sound e' he o2 e2 hs2
        rw [hb, ← ha, ho, fullExponent, mul_comm, pow_mul] at h3
        exact h (pow_three_eq_one (pow_r_aux he) h3.symm)
    · have : e' = InGt := c37_safe_unchanged_partial InGt o e' hc hs
      rw [this] at hs2
      rcases (c86_unsafe InGt).1 ⟨_, hs2⟩ with h | h
      · exact h0 h
      · exact h h1
  · rw [finalExponentiationCircuit, (c35_exact InGt h0 h1).1, pure_bind]
    dsimp only
    rw [(c35_exact InGt h0 h1).2, Ext12.assertIsEqual_eq]
    by_cases hr : Res = InGt ^ (3 * ((fpOrder ^ 12 - 1) / rOrder))
    · rw [assert_true (p := InGt ^ fullExponent = Res) hr.symm, assert_true ⟨h0, h1, hr⟩]
      simp only [pure_bind]
      rw [Ext12.assertIsEqual_eq, assert_true (p := InGt ^ fullExponent = Res) hr.symm]
    · rw [assert_false (p := InGt ^ fullExponent = Res) fun h => hr h.symm, assert_false fun h => hr h.2.2, fail_bind]

theorem smul1_ne {a : ℕ} (h : ¬ rOrder ∣ a) : a • G1gen ≠ 0 := fun e => by
  have h1 : ate (a • G1gen) G2gen = 1 := by rw [e]; exact ate_zero_left _
  rw [ate_nsmul_left _ G2gen_order] at h1
  exact h (pow_eq_one_of ate_gen_ne (ate_pow_r _ _) h1)

theorem good_smul {a b : ℕ} (ha : ¬ rOrder ∣ a) (hb : ¬ rOrder ∣ b) : GoodPair (a • G1gen, b • G2gen) :=
  ⟨smul1_ne ha, smul_ne_of G2gen_order G2gen_ne hb, order_nsmul G2gen_order b⟩

theorem ate_smul (a b : ℕ) : ate (a • G1gen) (b • G2gen) = gT ^ (a * b) := c60_scalars _ _ G2gen_order a b

theorem not_dvd_mul {a b : ℕ} (ha : ¬ rOrder ∣ a) (hb : ¬ rOrder ∣ b) : ¬ rOrder ∣ a * b := fun h =>
  ((Nat.Prime.dvd_mul rOrder_prime).1 h).elim ha hb

/-- `PairCircuit` on `(a·g₁, b·g₂)`. -/
theorem c90_pair (a b : ℕ) (ha : ¬ rOrder ∣ a) (hb : ¬ rOrder ∣ b) (Res : E12 Fp) :
    pairCircuit (enc1 (a • G1gen)) (enc2 (b • G2gen)) Res = .ok (assert (Res = gT ^ (3 * (a * b)))) := by
  have h1 : ate (a • G1gen) (b • G2gen) ≠ 1 := by
    rw [ate_smul]; exact fun h => not_dvd_mul ha hb ((gT_pow _).1 h)
  rw [pairCircuit, c40_single _ _ (good_smul ha hb) h1]
  refine congrArg Except.ok ?_
  rw [pure_bind, Ext12.assertIsEqual_eq, ate_smul, ← pow_mul, mul_comm (a * b), assert_congr eq_comm]

/-- ... and on the point at infinity of G1 (the tests' random scalar may be 0) nothing is accepted. -/
theorem c90_pair_infinity (Q : G2Affine Fp) (Res : E12 Fp) : pairCircuit (enc1 0) Q Res = .ok fail := by
  have h := (c40_infinity_G1 [enc1 0] [Q] rfl _ (List.mem_singleton.2 rfl) rfl).2
  rw [pairCircuit, h]
  exact congrArg Except.ok (fail_bind _)

/-- `PairFixedCircuit` on `a·g₁`. -/
theorem c90_pairFixed (a : ℕ) (ha : ¬ rOrder ∣ a) (Res : E12 Fp) :
    pairFixedCircuit (enc1 (a • G1gen)) Res = assert (Res = gT ^ (3 * a)) := by
  have h := c90_pair a 1 ha (by decide +kernel) Res
  have e : enc2 (1 • G2gen) = g2Gen := by rw [one_nsmul, ← g2Gen_eq]; rfl
  rw [e, pairCircuit, c41_pair, mul_one] at h
  exact Except.ok.inj h

/-- Two or more pairs: the value of `Pair`, with its exceptions. -/
theorem pair_many (L : List (E1 Fp × ETwist Fp)) (h2 : 2 ≤ L.length) (h : ∀ x ∈ L, GoodPair x) :
    ∃ z, millerLoop (L.map fun x => enc1 x.1) (L.map fun x => enc2 x.2) = .ok (pure z) ∧
      (ateProd L ≠ 1 → ¬ Exceptional z) ∧
      pair (L.map fun x => enc1 x.1) (L.map fun x => enc2 x.2) =
        .ok (open Classical in if Exceptional z then fail else pure (ateProd L ^ 3)) := by
  have h0 : L ≠ [] := by rintro rfl; simp at h2
  obtain ⟨zs, e, hz, hv⟩ := miller_good_list L h
  have hm : millerLoop (L.map fun x => enc1 x.1) (L.map fun x => enc2 x.2) = .ok (pure zs.prod) := by
    rw [millerLoop_eq (by simpa using h0) (by simp), e, pure_bind]
  have hl : (L.length == 1) = false := by rw [beq_eq_false_iff_ne]; omega
  refine ⟨zs.prod, hm, fun h1 hx => ?_, ?_⟩
  · have hf := (c86_safe zs.prod).2.2 hx
    have := finalExp_exact false hz (by rwa [hv])
    have h' : (finalExp zs.prod).sat ((zs.prod ^ ateExp) ^ 3, zs.prod) := by
      show (finalExponentiation zs.prod false).sat _
      rw [this]; rfl
    rw [hf] at h'
    exact h'
  · rw [pair, hm]
    simp only [pure_bind, List.length_map, hl]
    refine congrArg Except.ok ?_
    show (finalExp zs.prod >>= fun r => pure r.1) = _
    by_cases hx : Exceptional zs.prod
    · rw [if_pos hx, (c86_safe _).2.2 hx, fail_bind]
    · obtain ⟨e', he'⟩ := (c86_safe _).2.1 hx
      rw [if_neg hx, he', pure_bind, ← hv, ← pow_mul, ← fullExponent_eq]

theorem good_four {a a' b b' : ℕ} (ha : ¬ rOrder ∣ a) (ha' : ¬ rOrder ∣ a') (hb : ¬ rOrder ∣ b) (hb' : ¬ rOrder ∣ b') :
    ∀ x ∈ [(a • G1gen, b • G2gen), (a • G1gen, b' • G2gen), (a' • G1gen, b • G2gen), (a' • G1gen, b' • G2gen)],
      GoodPair x := by
  intro x hx
  simp only [List.mem_cons, List.not_mem_nil, or_false] at hx
  rcases hx with rfl | rfl | rfl | rfl
  · exact good_smul ha hb
  · exact good_smul ha hb'
  · exact good_smul ha' hb
  · exact good_smul ha' hb'

theorem prod_four (a a' b b' : ℕ) :
    ateProd [(a • G1gen, b • G2gen), (a • G1gen, b' • G2gen), (a' • G1gen, b • G2gen), (a' • G1gen, b' • G2gen)] =
      gT ^ ((a + a') * (b + b')) := by
  simp only [ateProd, List.map_cons, List.map_nil, List.prod_cons, List.prod_nil, mul_one, ate_smul, ← pow_add]
  congr 1; ring

/-- `MultiPairCircuit` on `a·g₁, a'·g₁, b·g₂, b'·g₂`: the result is `gT^(3(a+a')(b+b'))`; if this is 1 there may be an
exception, in which nothing is accepted. -/
theorem c90_multiPair (a a' b b' : ℕ) (ha : ¬ rOrder ∣ a) (ha' : ¬ rOrder ∣ a') (hb : ¬ rOrder ∣ b) (hb' : ¬ rOrder ∣ b')
    (Res : E12 Fp) :
    ∃ z, millerLoop [enc1 (a • G1gen), enc1 (a • G1gen), enc1 (a' • G1gen), enc1 (a' • G1gen)]
        [enc2 (b • G2gen), enc2 (b' • G2gen), enc2 (b • G2gen), enc2 (b' • G2gen)] = .ok (pure z) ∧
      (¬ rOrder ∣ (a + a') * (b + b') → ¬ Exceptional z) ∧
      multiPairCircuit (enc1 (a • G1gen)) (enc1 (a' • G1gen)) (enc2 (b • G2gen)) (enc2 (b' • G2gen)) Res =
        .ok (open Classical in assert (¬ Exceptional z ∧ Res = gT ^ (3 * ((a + a') * (b + b'))))) := by
  obtain ⟨z, hm, hx, hp⟩ := pair_many _ (by simp) (good_four ha ha' hb hb')
  simp only [List.map_cons, List.map_nil] at hm hp
  rw [prod_four] at hx hp
  refine ⟨z, hm, fun h => hx fun h' => h ((gT_pow _).1 h'), ?_⟩
  rw [multiPairCircuit, hp]
  refine congrArg Except.ok ?_
  classical
  by_cases h : Exceptional z
  · rw [if_pos h, fail_bind, assert_false fun h' => h'.1 h]
  · rw [if_neg h, pure_bind, Ext12.assertIsEqual_eq, ← pow_mul, mul_comm _ 3]
    exact assert_congr ⟨fun e => ⟨h, e.symm⟩, fun e => e.2.symm⟩

/-- `PairingCheckCircuit`: accepted exactly when `(a+a')(b+b') = 0` modulo `r` and there is no exception. -/
theorem c90_pairingCheck (a a' b b' : ℕ) (ha : ¬ rOrder ∣ a) (ha' : ¬ rOrder ∣ a') (hb : ¬ rOrder ∣ b)
    (hb' : ¬ rOrder ∣ b') :
    ∃ z, millerLoop [enc1 (a • G1gen), enc1 (a • G1gen), enc1 (a' • G1gen), enc1 (a' • G1gen)]
        [enc2 (b • G2gen), enc2 (b' • G2gen), enc2 (b • G2gen), enc2 (b' • G2gen)] = .ok (pure z) ∧
      pairingCheckCircuit (enc1 (a • G1gen)) (enc1 (a' • G1gen)) (enc2 (b • G2gen)) (enc2 (b' • G2gen)) =
        .ok (open Classical in assert ((rOrder ∣ a + a' ∨ rOrder ∣ b + b') ∧ ¬ Exceptional z)) := by
  obtain ⟨z, hm, hp⟩ := c86_pairingCheck _ (by simp) (good_four ha ha' hb hb')
  simp only [List.map_cons, List.map_nil] at hm hp
  refine ⟨z, hm, ?_⟩
  have hd : ateProd [(a • G1gen, b • G2gen), (a • G1gen, b' • G2gen), (a' • G1gen, b • G2gen), (a' • G1gen, b' • G2gen)] = 1 ↔
      rOrder ∣ a + a' ∨ rOrder ∣ b + b' := by
    rw [prod_four, gT_pow, Nat.Prime.dvd_mul rOrder_prime]
  rw [pairingCheckCircuit, hp]
  refine congrArg Except.ok ?_
  classical
  by_cases h : (rOrder ∣ a + a' ∨ rOrder ∣ b + b') ∧ ¬ Exceptional z
  · rw [if_pos ⟨hd.2 h.1, h.2⟩, assert_true h]
  · rw [if_neg fun h' => h ⟨hd.1 h'.1, h'.2⟩, assert_false h]

/-- `DoublePairFixedCircuit` on `a·g₁, a'·g₁, b·g₂` (in the test `a = a'`). -/
theorem c90_doublePairFixed (a a' b : ℕ) (ha : ¬ rOrder ∣ a) (ha' : ¬ rOrder ∣ a') (hb : ¬ rOrder ∣ b) (Res : E12 Fp) :
    ∃ z, millerLoop [enc1 (a • G1gen), enc1 (a' • G1gen)] [enc2 (b • G2gen), enc2 G2gen] = .ok (pure z) ∧
      (¬ rOrder ∣ a * b + a' → ¬ Exceptional z) ∧
      doublePairFixedCircuit (enc1 (a • G1gen)) (enc1 (a' • G1gen)) (enc2 (b • G2gen)) Res =
        open Classical in assert (¬ Exceptional z ∧ Res = gT ^ (3 * (a * b + a'))) := by
  have hg : ∀ x ∈ [(a • G1gen, b • G2gen), (a' • G1gen, G2gen)], GoodPair x := by
    intro x hx
    simp only [List.mem_cons, List.not_mem_nil, or_false] at hx
    rcases hx with rfl | rfl
    · exact good_smul ha hb
    · exact ⟨smul1_ne ha', G2gen_ne, G2gen_order⟩
  have hv : ateProd [(a • G1gen, b • G2gen), (a' • G1gen, G2gen)] = gT ^ (a * b + a') := by
    simp only [ateProd, List.map_cons, List.map_nil, List.prod_cons, List.prod_nil, mul_one]
    rw [ate_smul, ate_nsmul_left _ G2gen_order, pow_add]; rfl
  obtain ⟨z, hm, hx, hp⟩ := pair_many _ (by simp) hg
  simp only [List.map_cons, List.map_nil] at hm hp
  rw [hv] at hx hp
  refine ⟨z, hm, fun h => hx fun h' => h ((gT_pow _).1 h'), ?_⟩
  have e : enc2 G2gen = g2Gen := by rw [← g2Gen_eq]; rfl
  rw [e, c41_doublePair] at hp
  rw [doublePairFixedCircuit, Except.ok.inj hp]
  classical
  by_cases h : Exceptional z
  · rw [if_pos h, fail_bind, assert_false fun h' => h'.1 h]
  · rw [if_neg h, pure_bind, Ext12.assertIsEqual_eq, ← pow_mul, mul_comm _ 3]
    exact assert_congr ⟨fun e => ⟨h, e.symm⟩, fun e => e.2.symm⟩

/-- `FinalExponentiationSafeCircuit` is `PairingCheck` of two pairs, for all inputs, on the curves or not. -/
theorem c90_safe_is_pairingCheck (P1 P2 : G1Affine Fp) (Q1 Q2 : G2Affine Fp) :
    finalExponentiationSafeCircuit P1 P2 Q1 Q2 = pairingCheck [P1, P2] [Q1, Q2] := by
  have hp : pair [P1, P2] [Q1, Q2] =
      .ok ((miller1 (P1, Q1) >>= fun a => miller1 (P2, Q2) >>= fun b => pure (a * b)) >>= fun z =>
        finalExp z >>= fun r => pure r.1) := by
    rw [pair, millerLoop_two]; rfl
  rw [check_of_pair hp, finalExponentiationSafeCircuit, millerLoop_two]
  refine congrArg Except.ok ?_
  simp only [bind_assoc, pure_bind, Ext12.assertIsEqual_eq]
  have : ∀ x : E12 Fp, assert (Ext12.one = x) = assert (x = 1) := fun x => assert_congr eq_comm
  simp only [this]

/-- The test itself: the generators and the negated generator. -/
theorem c90_safe_generators :
    finalExponentiationSafeCircuit (enc1 G1gen) (enc1 (-G1gen)) (enc2 G2gen) (enc2 G2gen) = .ok (pure ()) := by
  rw [c90_safe_is_pairingCheck, c87_generators]

/-- Admissible scalars: everything from 1 to `r-1`. -/
example (a : ℕ) (h : 0 < a) (h' : a < rOrder) : ¬ rOrder ∣ a := fun hd => absurd (Nat.le_of_dvd h hd) (by omega)

end Spark.TestCircuitProps
