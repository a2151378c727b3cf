import Verif.Lemmas.FinalExp
import Verif.Math.Card
import Mathlib.Tactic.IrreducibleDef

/-!
# Properties C31-C34: torus arithmetic

Specification: an element `y` of `E6` stands for `(y + w)/(y - w)` in `E12` (`Dec y` below), a norm-1
element different from 1.
-/

namespace Spark.TorusProps
open Spark Circ Torus
set_option maxRecDepth 100000

/-- the element of `E12` denoted by a compressed value (tower.go:839-846) -/
noncomputable irreducible_def Dec (y : E6 Fp) : E12 Fp := (E12.of y + E12.w) / (E12.of y - E12.w)

theorem dec_eq (y : E6 Fp) : Dec y = D y := by rw [Dec_def]; rfl

/-! ## C31 -/

/-- `FrobeniusTorus` compresses the `p`-th power. -/
theorem c31_frobeniusTorus (y : E6 Fp) : Dec (Ext12.frobeniusTorus y) = Dec y ^ fpOrder := by
  rw [dec_eq, dec_eq, D_frobeniusTorus, frobHom_apply]

/-- `FrobeniusSquareTorus` compresses the `p²`-th power. -/
theorem c31_frobeniusSquareTorus (y : E6 Fp) :
    Dec (Ext12.frobeniusSquareTorus y) = Dec y ^ fpOrder ^ 2 := by
  rw [dec_eq, dec_eq, D_frobeniusSquareTorus, frobHom2_apply]

/-- The compressed form determines the element, so C31 pins down the outputs. -/
theorem c31_dec_injective (y z : E6 Fp) (h : Dec y = Dec z) : y = z := by
  rw [dec_eq, dec_eq] at h; exact D_inj h

/-- A non-trivial case: the maps move a concrete element. -/
example : Ext12.frobeniusTorus ⟨⟨1, 2⟩, ⟨3, 4⟩, ⟨5, 6⟩⟩ ≠ ⟨⟨1, 2⟩, ⟨3, 4⟩, ⟨5, 6⟩⟩ := by
  decide +kernel

/-! ## C32 -/

/-- `DecompressTorus` is satisfiable for every `y`, with the single output `(y+w)/(y-w)`. -/
theorem c32_decompress (y : E6 Fp) : Ext12.decompressTorus y = pure (Dec y) := by
  rw [dec_eq, decompressTorus_eq]

/-- Its result has norm 1 over `E6` and is not 1. -/
theorem c32_decompress_norm (y : E6 Fp) : Dec y ^ (fpOrder ^ 6 + 1) = 1 ∧ Dec y ≠ 1 := by
  rw [dec_eq]
  refine ⟨?_, (tor_D y).2⟩
  rw [pow_succ (D y) (fpOrder ^ 6), E12.frob6, mul_comm]
  exact (tor_D y).1

theorem norm_of_pow {x : E12 Fp} (h : x ^ (fpOrder ^ 6 + 1) = 1) : x * E12.conj x = 1 := by
  rw [← E12.frob6, ← h, pow_succ x (fpOrder ^ 6), mul_comm]

/-- Compressing a norm-1 element other than ±1 and decompressing gives it back. -/
theorem c32_decompress_compress (x : E12 Fp) (hn : x ^ (fpOrder ^ 6 + 1) = 1) (h1 : x ≠ 1)
    (h2 : x ≠ -1) : (Ext12.compressTorus x >>= Ext12.decompressTorus) = pure x := by
  have ht : Tor x := ⟨norm_of_pow hn, h1⟩
  rw [compressTorus_eq ht h2, pure_bind, decompressTorus_eq, D_C ht]

theorem D_eq_neg_one {y : E6 Fp} : D y = -1 ↔ y = 0 := by
  constructor
  · intro h
    have h1 := (eq_D_iff (-1) y).1 h.symm
    have h2 : (2 : E12 Fp) * E12.of y = 0 := by linear_combination -h1
    exact E12.of_injective (((mul_eq_zero.1 h2).resolve_left two_ne12).trans E12.of_zero.symm)
  · rintro rfl
    symm
    rw [eq_D_iff, E12.of_zero]; ring

/-- Compressing the decompression of `y ≠ 0` gives `y` back. -/
theorem c32_compress_decompress (y : E6 Fp) (h : y ≠ 0) :
    (Ext12.decompressTorus y >>= Ext12.compressTorus) = pure y := by
  rw [decompressTorus_eq, pure_bind, compressTorus_eq (tor_D y) (fun h' => h (D_eq_neg_one.1 h')), C_D]

/-- For `y = 0`, which denotes -1, compression has a zero denominator and a zero numerator: the
honest solver gets 0 back, a prover may return anything. -/
theorem c32_compress_minus_one : Dec 0 = -1 ∧ (Ext12.compressTorus (-1 : E12 Fp)).run = some 0 ∧
    ∀ z, (Ext12.compressTorus (-1 : E12 Fp)).sat z := by
  have h0 : (-1 : E12 Fp).C0 + 1 = 0 := by ext1 <;> simp
  have h1 : (-1 : E12 Fp).C1 = 0 := by ext1 <;> simp
  have hd : Ext12.compressTorus (-1 : E12 Fp) = Ext6.divUnchecked 0 0 := by
    rw [Ext12.compressTorus]
    simp only [tower]
    rw [h0, h1]
  rw [dec_eq, hd]
  refine ⟨D_eq_neg_one.2 rfl, by simp [Ext6.divUnchecked, tower], fun z => ?_⟩
  rw [Ext6.sat_divUnchecked, mul_zero]

/-- `CompressTorus 1` is unsatisfiable. -/
theorem c32_compress_one : Ext12.compressTorus (1 : E12 Fp) = fail := by
  rw [Ext12.compressTorus]
  simp only [tower]
  have h1 : (1 : E12 Fp).C1 = 0 := rfl
  have h0 : (1 : E12 Fp).C0 + 1 ≠ 0 := by
    intro h
    apply two_ne6 (K := Fp)
    rw [← one_add_one_eq_two]; exact h
  rw [h1]
  exact Ext6.divUnchecked_fail h0

/-- The hypotheses are met by every decompressed value other than that of 0. -/
example : ∃ x : E12 Fp, x ^ (fpOrder ^ 6 + 1) = 1 ∧ x ≠ 1 ∧ x ≠ -1 :=
  ⟨Dec 1, (c32_decompress_norm 1).1, (c32_decompress_norm 1).2,
    fun h => one_ne_zero (D_eq_neg_one.1 ((dec_eq 1).symm.trans h))⟩

/-! ## C33 -/

/-- `MulTorus`: every satisfying assignment returns the compressed product. -/
theorem c33_mulTorus_sound (y z r : E6 Fp) (h : (Ext12.mulTorus y z).sat r) :
    Dec r = Dec y * Dec z := by
  rw [mulTorus_eq, sat_tor] at h
  rw [dec_eq, dec_eq, dec_eq, h.2]
  refine D_C ⟨?_, h.1⟩
  rw [E12.conj_mul]
  have h1 := (tor_D y).1
  have h2 := (tor_D z).1
  linear_combination D z * E12.conj (D z) * h1 + h2

/-- ... and when the product is not 1 the honest prover finds it. -/
theorem c33_mulTorus_exact (y z : E6 Fp) (h : Dec y * Dec z ≠ 1) :
    ∃ r, Ext12.mulTorus y z = pure r ∧ Dec r = Dec y * Dec z := by
  have e : Ext12.mulTorus y z = pure (C (D y * D z)) := by
    rw [dec_eq, dec_eq] at h; rw [mulTorus_eq, tor_of_ne h]
  exact ⟨_, e, c33_mulTorus_sound y z _ (by rw [e]; rfl)⟩

/-- When the product is 1 there is no satisfying assignment. -/
theorem c33_mulTorus_unsat (y z : E6 Fp) (h : Dec y * Dec z = 1) : Ext12.mulTorus y z = fail := by
  rw [mulTorus_eq, ← dec_eq, ← dec_eq, h, tor_one]

/-- `SquareTorus`: every satisfying assignment returns the compressed square. -/
theorem c33_squareTorus_sound (y r : E6 Fp) (h : (Ext12.squareTorus y).sat r) :
    Dec r = Dec y ^ 2 := by
  have := (Is.self y).sq h
  unfold Is at this
  rw [dec_eq, this, mul_one, zpow_two, pow_two, dec_eq]

/-- `SquareTorus` is satisfiable exactly when the square is not 1. -/
theorem c33_squareTorus_satisfiable (y : E6 Fp) :
    (Ext12.squareTorus y).Satisfiable ↔ Dec y ^ 2 ≠ 1 := by
  rw [pow_two, dec_eq]
  constructor
  · rintro ⟨z, hz⟩
    rw [sat_squareTorus, sat_tor] at hz
    exact hz.1
  · intro h
    exact ⟨C (D y * D y), by rw [sat_squareTorus, sat_tor]; exact ⟨h, rfl⟩⟩

theorem pow_four (a : E12 Fp) : a ^ fpOrder ^ 4 = frobHom2 (frobHom2 a) := by
  rw [frobHom2_apply, frobHom2_apply, ← pow_mul]
  exact congrArg _ (by ring)

theorem cyc_of_pow {a : E12 Fp} (h : a ^ fpOrder ^ 4 * a = a ^ fpOrder ^ 2) : Cyc a := by
  rw [pow_four, ← frobHom2_apply] at h
  exact h

/-- For cyclotomic values (the only ones on which the honest hint, a cyclotomic squaring, is right)
the honest prover finds the square whenever it is not 1. -/
theorem c33_squareTorus_exact (y : E6 Fp) (hc : Dec y ^ fpOrder ^ 4 * Dec y = Dec y ^ fpOrder ^ 2)
    (h : Dec y ^ 2 ≠ 1) : ∃ r, Ext12.squareTorus y = pure r ∧ Dec r = Dec y ^ 2 := by
  rw [dec_eq] at hc h
  have e : Ext12.squareTorus y = pure (C (D y * D y)) := by
    have := squareTorus_of_cyc (tor_D y) (cyclotomicSquare_eq (cyc_of_pow hc))
    rw [C_D] at this
    rw [this, tor_of_ne (by rw [← pow_two]; exact h)]
  exact ⟨_, e, c33_squareTorus_sound y _ (by rw [e]; rfl)⟩

/-- `InverseTorus` compresses the inverse. -/
theorem c33_inverseTorus (y : E6 Fp) : Dec (Ext12.inverseTorus y) = (Dec y)⁻¹ := by
  rw [Ext12.inverseTorus, Ext6.neg_eq, dec_eq, dec_eq, D_neg]

/-- `MulTorus` is unsatisfiable exactly on inverse pairs. -/
theorem c33_mulTorus_satisfiable (y z : E6 Fp) :
    (Ext12.mulTorus y z).Satisfiable ↔ Dec y * Dec z ≠ 1 := by
  constructor
  · rintro ⟨r, hr⟩ h
    rw [c33_mulTorus_unsat y z h] at hr; exact hr
  · intro h
    obtain ⟨r, e, -⟩ := c33_mulTorus_exact y z h
    exact ⟨r, by rw [e]; rfl⟩

/-- Both cases occur. -/
example : Dec 1 * Dec 1 ≠ 1 ∧ Dec 1 * Dec (Ext12.inverseTorus 1) = 1 := by
  constructor
  · intro h
    rw [dec_eq] at h
    have h' := mul_D_eq_one.1 h
    exact two_ne6 (K := Fp) (by rw [← one_add_one_eq_two]; exact h')
  · rw [c33_inverseTorus, dec_eq, mul_inv_cancel₀ (D_ne_zero 1)]

/-! ## C34 -/

/-- half the (negative) curve seed -/
def halfSeed : ℤ := -7566188111470821376
/-- the curve seed, `-0xd201000000010000` -/
def seed : ℤ := -0xd201000000010000

example : seed = -15132376222941642752 ∧ seed = 2 * halfSeed := by decide

/-- Whatever the prover does, `ExptHalfTorus` returns the compressed `t/2`-th power. -/
theorem c34_exptHalfTorus_sound (y r : E6 Fp) (h : (Ext12.exptHalfTorus y).sat r) :
    Dec r = Dec y ^ halfSeed := by
  have := (Is.self y).half (D_ne_zero y) h
  unfold Is at this
  rw [dec_eq, dec_eq, this, mul_one]; rfl

/-- Whatever the prover does, `ExptTorus` returns the compressed `t`-th power. -/
theorem c34_exptTorus_sound (y r : E6 Fp) (h : (Ext12.exptTorus y).sat r) :
    Dec r = Dec y ^ seed := by
  have := (Is.self y).expt (D_ne_zero y) h
  unfold Is at this
  rw [dec_eq, dec_eq, this, mul_one]; rfl

theorem exps_small : ∀ k ∈ exptExps 1, k ≠ 0 ∧ k.natAbs ≤ 2 ^ 64 := by decide +kernel

theorem zpow_ne_of_natAbs {G : Type} [Field G] {a : G} {k : ℤ} (h : a ^ k.natAbs ≠ 1) :
    a ^ k ≠ 1 := by
  rcases Int.natAbs_eq k with e | e
  · rw [e, zpow_natCast]; exact h
  · rw [e, zpow_neg, zpow_natCast]; exact fun h' => h (inv_eq_one.1 h')

/-- For cyclotomic values with no small power equal to 1, the honest prover succeeds and the
result is the only one. -/
theorem c34_exptTorus_exact (y : E6 Fp)
    (hc : Dec y ^ fpOrder ^ 4 * Dec y = Dec y ^ fpOrder ^ 2)
    (ho : ∀ k : ℕ, 0 < k → k ≤ 2 ^ 64 → Dec y ^ k ≠ 1) :
    ∃ r, Ext12.exptTorus y = pure r ∧ Dec r = Dec y ^ seed := by
  rw [dec_eq] at hc
  simp only [dec_eq y] at ho
  have hcn : CN (D y) := ⟨cyc_of_pow hc, (tor_D y).1⟩
  have h1 : D y ^ (1 : ℤ) ≠ 1 := by rw [zpow_one]; exact (tor_D y).2
  have e := hcn.expt h1
  rw [zpow_one, C_D, chk_pure] at e
  · exact ⟨_, e, c34_exptTorus_sound y _ (by rw [e]; rfl)⟩
  · intro k hk
    obtain ⟨k0, k1⟩ := exps_small k hk
    exact zpow_ne_of_natAbs (ho _ (by omega) k1)

/-- The hypotheses of the exactness theorems are met: the easy part of the final exponentiation
sends a generator of the multiplicative group to such a value. -/
theorem exists_cyclotomic : ∃ y : E6 Fp, Dec y ^ fpOrder ^ 4 * Dec y = Dec y ^ fpOrder ^ 2 ∧
    ∀ k : ℕ, 0 < k → k ≤ 2 ^ 64 → Dec y ^ k ≠ 1 := by
  obtain ⟨e, he, h⟩ := exists_full_order
  have hm := easy_CN he
  rw [← easy_cofac he] at h
  have hk : ∀ k : ℕ, 0 < k → k ≤ 2 ^ 64 → easy e ^ k ≠ 1 := by
    intro k k0 k1 hk
    have hd := order_aux hm.ne_zero rOrder_prime cofac k hm.pow_one h (by rw [zpow_natCast]; exact hk)
    have hd' := Nat.le_of_dvd k0 (Int.natCast_dvd_natCast.1 hd)
    have : 2 ^ 64 < rOrder := by decide +kernel
    omega
  have ht : Tor (easy e) := ⟨hm.norm, fun h => hk 1 one_pos (by norm_num) (by rw [h, one_pow])⟩
  refine ⟨C (easy e), ?_, ?_⟩
  · rw [dec_eq, D_C ht, pow_four, ← frobHom2_apply]
    exact hm.cyc
  · intro k; rw [dec_eq, D_C ht]; exact hk k

end Spark.TorusProps
