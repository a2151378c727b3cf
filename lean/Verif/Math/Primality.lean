import Verif.Math.FastPow
import Verif.Math.Tower
import Mathlib.FieldTheory.Finite.Basic
import Mathlib.Data.Nat.Prime.Basic
import Mathlib.GroupTheory.OrderOfElement
import Mathlib.Algebra.CharP.Lemmas
import Mathlib.Algebra.CharP.Frobenius

/-!
# Primality criteria evaluated by the kernel

`pock` is Pocklington's `N-1` criterion, `lucas2` its `N+1` analogue in `(Z/ℓ)[u]/(u²+1)`.
-/

namespace Spark

theorem cast_powMod {n ℓ a e : ℕ} (hl : ℓ ∣ n) (he : e < 2 ^ 800) :
    ((powMod n a e : ℕ) : ZMod ℓ) = (a : ZMod ℓ) ^ e := by
  have hmod : ∀ x : ℕ, ((x % n : ℕ) : ZMod ℓ) = (x : ZMod ℓ) := by
    intro x
    rw [ZMod.natCast_eq_natCast_iff]
    exact (Nat.mod_modEq x n).of_dvd hl
  have := fastPow_spec (M := ZMod ℓ) (fun x y : ℕ => x * y % n) (fun x => (x : ZMod ℓ))
    (by intro x y; rw [hmod]; push_cast; rfl) 800 a e 1 he
  simpa [powMod] using this

/-- The prime `q` divides the order of `a` modulo every prime factor of `n`. -/
def pockCheck (n q a : ℕ) : Bool :=
  (n - 1) % q == 0 && powMod n a (n-1) == 1 && Nat.gcd (powMod n a ((n-1)/q) - 1) n == 1
    && decide (2 ≤ powMod n a ((n-1)/q)) && decide (n < 2 ^ 800) && decide (2 ≤ n)

theorem dvd_orderOf_of {M : Type*} [Monoid M] {g : M} {N q : ℕ} (hq : q.Prime) (hqN : q ∣ N)
    (h1 : g ^ N = 1) (h2 : g ^ (N / q) ≠ 1) : q ∣ orderOf g := by
  by_contra hn
  obtain ⟨k, hk⟩ := orderOf_dvd_of_pow_eq_one h1
  have hqk : q ∣ k := by
    rcases (Nat.Prime.dvd_mul hq).1 (hk ▸ hqN) with h | h
    · exact absurd h hn
    · exact h
  obtain ⟨m, rfl⟩ := hqk
  apply h2
  have : N / q = orderOf g * m := by
    rw [hk, show orderOf g * (q * m) = q * (orderOf g * m) by ring,
      Nat.mul_div_cancel_left _ hq.pos]
  rw [this, pow_mul, pow_orderOf_eq_one, one_pow]

theorem pock {n q a : ℕ} (hq : q.Prime) (h : pockCheck n q a = true) :
    ∀ ℓ, ℓ.Prime → ℓ ∣ n → q ∣ ℓ - 1 := by
  intro ℓ hl hln
  simp only [pockCheck, Bool.and_eq_true, beq_iff_eq, decide_eq_true_eq] at h
  obtain ⟨⟨⟨⟨⟨h1, h2⟩, h3⟩, h4⟩, h5⟩, h6⟩ := h
  have : Fact ℓ.Prime := ⟨hl⟩
  have e1 : (a : ZMod ℓ) ^ (n-1) = 1 := by
    rw [← cast_powMod hln (by omega), h2]; simp
  have e2 : (a : ZMod ℓ) ^ ((n-1)/q) ≠ 1 := by
    rw [← cast_powMod hln (lt_of_le_of_lt (Nat.div_le_self _ _) (by omega))]
    intro e
    have : ((powMod n a ((n-1)/q) - 1 : ℕ) : ZMod ℓ) = 0 := by
      rw [Nat.cast_sub (by omega), e]; simp
    rw [ZMod.natCast_eq_zero_iff] at this
    have := Nat.dvd_gcd this hln
    rw [h3] at this
    exact hl.one_lt.ne' (Nat.dvd_one.1 this)
  have hord := dvd_orderOf_of hq (Nat.dvd_of_mod_eq_zero h1) e1 e2
  have ha : (a : ZMod ℓ) ≠ 0 := by
    intro h0
    rw [h0, zero_pow (by omega)] at e1
    exact zero_ne_one e1
  exact hord.trans (orderOf_dvd_of_pow_eq_one (ZMod.pow_card_sub_one_eq_one ha))

theorem prime_of_dvd_sub_one {n F : ℕ} (hn : 2 ≤ n) (hF : n < (F + 1) * (F + 1))
    (h : ∀ ℓ, ℓ.Prime → ℓ ∣ n → F ∣ ℓ - 1) : n.Prime := by
  by_contra hp
  have hm := Nat.minFac_prime (show n ≠ 1 by omega)
  have h1 := h _ hm (Nat.minFac_dvd n)
  have h2 : n.minFac ^ 2 ≤ n := Nat.minFac_sq_le_self (by omega) hp
  have h3 : F ≤ n.minFac - 1 := Nat.le_of_dvd (by have := hm.two_le; omega) h1
  have h4 : F + 1 ≤ n.minFac := by have := hm.two_le; omega
  have := Nat.mul_le_mul h4 h4
  rw [pow_two] at h2
  omega

theorem dvd_mul2 {a b c : ℕ} (h : Nat.Coprime a b) (h1 : a ∣ c) (h2 : b ∣ c) : a * b ∣ c :=
  h.mul_dvd_of_dvd_of_dvd h1 h2

/-! ### the `N+1` test -/

/-- multiplication of `(Z/n)[u]/(u²+1)` on pairs of naturals -/
def mul2 (n : ℕ) (x y : ℕ × ℕ) : ℕ × ℕ :=
  ((x.1*y.1 + (n - (x.2*y.2) % n)) % n, (x.1*y.2 + x.2*y.1) % n)

/-- exponentiation in `(Z/n)[u]/(u²+1)` -/
def pow2 (n : ℕ) (x : ℕ × ℕ) (e : ℕ) : ℕ × ℕ := fastPow (mul2 n) 5000 x e (1, 0)

/-- the element of `(Z/ℓ)[u]/(u²+1)` denoted by a pair -/
def toE2 (ℓ : ℕ) (x : ℕ × ℕ) : E2 (ZMod ℓ) := ⟨(x.1 : ZMod ℓ), (x.2 : ZMod ℓ)⟩

theorem toE2_mul2 {n ℓ : ℕ} (hl : ℓ ∣ n) (hn : 0 < n) (x y : ℕ × ℕ) :
    toE2 ℓ (mul2 n x y) = toE2 ℓ x * toE2 ℓ y := by
  have hmod : ∀ x : ℕ, ((x % n : ℕ) : ZMod ℓ) = (x : ZMod ℓ) := by
    intro x
    rw [ZMod.natCast_eq_natCast_iff]
    exact (Nat.mod_modEq x n).of_dvd hl
  have hnz : (n : ZMod ℓ) = 0 := (ZMod.natCast_eq_zero_iff _ _).2 hl
  ext
  · simp only [toE2, mul2, E2.A0_mul, hmod]
    rw [Nat.cast_add, Nat.cast_sub (Nat.mod_lt _ hn).le, hmod, hnz]
    push_cast; ring
  · simp only [toE2, mul2, E2.A1_mul, hmod]
    push_cast; ring

theorem toE2_pow2 {n ℓ : ℕ} (hl : ℓ ∣ n) (hn : 0 < n) (x : ℕ × ℕ) (e : ℕ) (he : e < 2 ^ 5000) :
    toE2 ℓ (pow2 n x e) = toE2 ℓ x ^ e := by
  have := fastPow_spec (M := E2 (ZMod ℓ)) (mul2 n) (toE2 ℓ) (toE2_mul2 hl hn) 5000 x e (1,0) he
  rw [pow2, this]
  have : toE2 ℓ (1, 0) = 1 := by ext <;> simp [toE2]
  rw [this, one_mul]

/-- Frobenius on `(Z/ℓ)[u]/(u²+1)`. -/
theorem E2.frob_zmod {ℓ : ℕ} [hl : Fact ℓ.Prime] (h2 : ℓ ≠ 2) (x : E2 (ZMod ℓ)) :
    x ^ ℓ = if ℓ % 4 = 1 then x else E2.conj x := by
  have : ExpChar (E2 (ZMod ℓ)) ℓ := ExpChar.prime hl.out
  have hu2 : (E2.u : E2 (ZMod ℓ)) ^ 2 = -1 := by rw [pow_two, E2.u_sq]
  have hmod : ℓ % 2 = 1 := by
    rcases hl.out.eq_two_or_odd with h | h
    · exact absurd h h2
    · exact h
  have hu : (E2.u : E2 (ZMod ℓ)) ^ ℓ = if ℓ % 4 = 1 then E2.u else -E2.u := by
    have key : (E2.u : E2 (ZMod ℓ)) ^ ℓ = E2.u ^ (2 * (ℓ / 2) + 1) :=
      congrArg (fun k => (E2.u : E2 (ZMod ℓ)) ^ k) (by omega)
    rw [key, pow_succ, pow_mul, hu2]
    split
    · next h =>
      have : Even (ℓ / 2) := by rw [Nat.even_iff]; omega
      rw [this.neg_one_pow, one_mul]
    · next h =>
      have : Odd (ℓ / 2) := by rw [Nat.odd_iff]; omega
      rw [this.neg_one_pow, neg_one_mul]
  conv_lhs => rw [E2.eq_of_add x]
  rw [add_pow_expChar, mul_pow, ← E2.of_pow, ← E2.of_pow, ZMod.pow_card, ZMod.pow_card, hu]
  split
  · exact (E2.eq_of_add x).symm
  · ext <;> simp

/-- `g` has norm 1 modulo `n` and order divisible by `q` modulo each prime factor. -/
def lucas2Check (n q : ℕ) (g : ℕ × ℕ) : Bool :=
  (n + 1) % q == 0 && (g.1*g.1 + g.2*g.2) % n == 1 && decide (pow2 n g (n+1) = (1, 0))
    && Nat.gcd (pow2 n g ((n+1)/q)).2 n == 1 && decide (n + 1 < 2 ^ 5000) && decide (2 ≤ n)

theorem lucas2 {n q : ℕ} {g : ℕ × ℕ} (hq : q.Prime) (h : lucas2Check n q g = true) :
    ∀ ℓ, ℓ.Prime → ℓ ≠ 2 → ℓ ∣ n → q ∣ if ℓ % 4 = 1 then ℓ - 1 else ℓ + 1 := by
  intro ℓ hl hl2 hln
  simp only [lucas2Check, Bool.and_eq_true, beq_iff_eq, decide_eq_true_eq] at h
  obtain ⟨⟨⟨⟨⟨h1, h2⟩, h3⟩, h4⟩, h5⟩, h6⟩ := h
  have : Fact ℓ.Prime := ⟨hl⟩
  have hn : 0 < n := by omega
  set G : E2 (ZMod ℓ) := toE2 ℓ g with hG
  have e1 : G ^ (n+1) = 1 := by
    rw [hG, ← toE2_pow2 hln hn _ _ h5, h3]; ext <;> simp [toE2]
  have e2 : G ^ ((n+1)/q) ≠ 1 := by
    rw [hG, ← toE2_pow2 hln hn _ _ (lt_of_le_of_lt (Nat.div_le_self _ _) h5)]
    intro e
    have : ((pow2 n g ((n+1)/q)).2 : ZMod ℓ) = 0 := by
      simpa [toE2] using congrArg E2.A1 e
    rw [ZMod.natCast_eq_zero_iff] at this
    have := Nat.dvd_gcd this hln
    rw [h4] at this
    exact hl.one_lt.ne' (Nat.dvd_one.1 this)
  have hord := dvd_orderOf_of hq (Nat.dvd_of_mod_eq_zero h1) e1 e2
  have hnorm : E2.norm G = 1 := by
    have : ((g.1*g.1 + g.2*g.2 : ℕ) : ZMod ℓ) = ((1 : ℕ) : ZMod ℓ) := by
      rw [ZMod.natCast_eq_natCast_iff]
      refine Nat.ModEq.of_dvd hln ?_
      rw [Nat.ModEq, h2, Nat.mod_eq_of_lt (by omega)]
    simpa [E2.norm, hG, toE2] using this
  have hGc : G * E2.conj G = 1 := by rw [E2.mul_conj, hnorm]; rfl
  refine hord.trans (orderOf_dvd_of_pow_eq_one ?_)
  have hf := E2.frob_zmod hl2 G
  have hpos := hl.pos
  split
  · next h =>
    rw [if_pos h] at hf
    have : G ^ (ℓ - 1) * G = G := by rw [← pow_succ, Nat.sub_add_cancel hpos, hf]
    calc G ^ (ℓ-1) = G ^ (ℓ-1) * (G * E2.conj G) := by rw [hGc, mul_one]
      _ = G ^ (ℓ-1) * G * E2.conj G := by ring
      _ = 1 := by rw [this, hGc]
  · next h =>
    rw [if_neg h] at hf
    rw [pow_succ, hf, mul_comm, hGc]

theorem prime_of_dvd_lucas2 {n F : ℕ} (hn : n % 2 = 1) (hn2 : 2 ≤ n) (hF0 : 2 ≤ F)
    (hF : n < (F - 1) * (F - 1))
    (h : ∀ ℓ, ℓ.Prime → ℓ ≠ 2 → ℓ ∣ n → F ∣ if ℓ % 4 = 1 then ℓ - 1 else ℓ + 1) : n.Prime := by
  by_contra hp
  have hm := Nat.minFac_prime (show n ≠ 1 by omega)
  have hne : n.minFac ≠ 2 := by
    intro e
    have := Nat.minFac_dvd n
    rw [e] at this
    omega
  have h1 := h _ hm hne (Nat.minFac_dvd n)
  have h2 : n.minFac ^ 2 ≤ n := Nat.minFac_sq_le_self (by omega) hp
  have h3 : F - 1 ≤ n.minFac := by
    have := hm.two_le
    split at h1
    · have := Nat.le_of_dvd (by omega) h1; omega
    · have := Nat.le_of_dvd (by omega) h1; omega
  have := Nat.mul_le_mul h3 h3
  rw [pow_two] at h2
  omega

end Spark
