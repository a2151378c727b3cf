import Mathlib.Algebra.Group.Defs
import Mathlib.Algebra.Group.Commute.Basic
import Mathlib.Tactic.Ring
import Mathlib.Tactic.Linarith

/-! Square-and-multiply that the kernel can evaluate, with its correctness lemma. -/

namespace Spark

/-- Right-to-left square-and-multiply; `fuel` bounds the number of exponent bits. -/
def fastPow {α : Type*} (mul : α → α → α) : ℕ → α → ℕ → α → α
  | 0, _, _, acc => acc
  | f+1, x, e, acc =>
    if e = 0 then acc
    else fastPow mul f (mul x x) (e/2) (if e % 2 = 1 then mul acc x else acc)

theorem fastPow_spec {α M : Type*} [CommMonoid M] (mul : α → α → α) (φ : α → M)
    (hmul : ∀ x y, φ (mul x y) = φ x * φ y) :
    ∀ (f : ℕ) (x : α) (e : ℕ) (acc : α), e < 2 ^ f →
      φ (fastPow mul f x e acc) = φ acc * φ x ^ e := by
  intro f
  induction f with
  | zero =>
    intro x e acc he
    obtain rfl : e = 0 := by simpa using he
    simp [fastPow]
  | succ f ih =>
    intro x e acc he
    unfold fastPow
    split
    · next h => subst h; simp
    · next h =>
      rw [ih _ _ _ (by omega)]
      rcases Nat.mod_two_eq_zero_or_one e with h2 | h2
      · have : e = 2 * (e/2) := by omega
        conv_rhs => rw [this]
        rw [pow_mul, hmul, pow_two]; simp [h2]
      · have : e = 2 * (e/2) + 1 := by omega
        conv_rhs => rw [this]
        rw [pow_succ, pow_mul, hmul, pow_two]
        simp only [h2, if_true, hmul]
        rw [mul_assoc, mul_comm (φ x)]

/-- Modular exponentiation on naturals. -/
def powMod (n : ℕ) (a e : ℕ) : ℕ := fastPow (fun x y => x * y % n) 800 a e 1

end Spark
