import Verif.Native

/-!
# gnark's emulated field (trusted base)

`emulated.Field[BLS12381Fp]` of gnark v0.9.1.  gnark is a dependency; its source is not in `/repo`.
An `emulated.Element` is modelled by the value modulo `p` it represents (the field `K`; in the
circuits `K = Fp`).  `Add`, `Sub`, `Neg`, `MulMod`, `MulConst`, `One`, `Zero`, `ValueOf` are the ring
operations of `K`; the other methods used by the code are below.
-/

namespace Spark

open Circ

variable {K : Type}

/-- `fp.AssertIsEqual(x, y)`: equality modulo `p`. -/
def fpAssertEq [DecidableEq K] (x y : K) : Circ Unit := assert (x = y)

/-- `fp.Select(s, x, y)`: `s` is constrained to be boolean; `x` if `s = 1`, `y` if `s = 0`. -/
def fpSelect (s : Fr) (x y : K) : Circ K := do
  apiAssertBool s
  pure (if s = 1 then x else y)

/-- `fp.Lookup2(s1, s2, a, b, c, d)`: both selectors are constrained to be boolean; entry number
`s1 + 2·s2` of the list `a, b, c, d`. -/
def fpLookup2 (s1 s2 : Fr) (a b c d : K) : Circ K := do
  apiAssertBool s1
  apiAssertBool s2
  pure (if s2 = 1 then (if s1 = 1 then d else c) else (if s1 = 1 then b else a))

/-- `fp.IsZero(x)`: exact (gnark forces the canonical representative before testing the limbs). -/
def fpIsZero [Zero K] [DecidableEq K] (x : K) : Fr := bit (decide (x = 0))

/-- `fp.Inverse(x)`: the hint fails for `0`; constraint `x·inv = 1`. -/
def fpInverse [Field K] [DecidableEq K] (x : K) : Circ K := do
  let inv ← hint (if x = 0 then none else some x⁻¹)
  assert (x * inv = 1)
  pure inv

/-- `fp.Div(x, y)`: the hint fails for `y = 0`; constraint `q·y = x`. -/
def fpDiv [Field K] [DecidableEq K] (x y : K) : Circ K := do
  let q ← hint (if y = 0 then none else some (x * y⁻¹))
  assert (q * y = x)
  pure q

/-! ### basic facts -/

@[simp] theorem fpSelect_bit (b : Bool) (x y : K) :
    fpSelect (bit b) x y = pure (if b then x else y) := by
  rw [fpSelect, apiAssertBool_bit, pure_bind]
  cases b <;> simp

theorem fpSelect_nonbool (s : Fr) (h : ∀ b, s ≠ bit b) (x y : K) : fpSelect s x y = fail := by
  have : apiAssertBool s = fail := assert_false fun h' => by
    obtain ⟨b, hb⟩ := (bool_iff_bit s).1 h'
    exact h b hb
  rw [fpSelect, this, fail_bind]

@[simp] theorem fpLookup2_bit (s1 s2 : Bool) (a b c d : K) :
    fpLookup2 (bit s1) (bit s2) a b c d =
      pure (if s2 then (if s1 then d else c) else (if s1 then b else a)) := by
  rw [fpLookup2, apiAssertBool_bit, pure_bind, apiAssertBool_bit, pure_bind]
  cases s1 <;> cases s2 <;> simp

@[simp] theorem fpAssertEq_self [DecidableEq K] (x : K) : fpAssertEq x x = pure () :=
  assert_true rfl

theorem fpInverse_ne [Field K] [DecidableEq K] {x : K} (h : x ≠ 0) : fpInverse x = pure x⁻¹ := by
  refine exact_iff_pure.1 ⟨?_, ?_⟩
  · simp [fpInverse, h]
  · intro b hb
    simp only [fpInverse, sat_bind, sat_hint, sat_assert, sat_pure, true_and] at hb
    obtain ⟨a, _, h1, rfl⟩ := hb
    exact eq_inv_of_mul_eq_one_right h1

theorem fpInverse_zero [Field K] [DecidableEq K] : fpInverse (0 : K) = fail := by
  refine eq_fail fun a h => ?_
  simp [fpInverse] at h

theorem fpDiv_ne [Field K] [DecidableEq K] {y : K} (h : y ≠ 0) (x : K) :
    fpDiv x y = pure (x / y) := by
  refine exact_iff_pure.1 ⟨?_, ?_⟩
  · simp [fpDiv, h, div_eq_mul_inv]
  · intro b hb
    simp only [fpDiv, sat_bind, sat_hint, sat_assert, sat_pure, true_and] at hb
    obtain ⟨a, _, h1, rfl⟩ := hb
    rw [eq_div_iff h, h1]

theorem fpDiv_zero [Field K] [DecidableEq K] {x : K} (h : x ≠ 0) : fpDiv x 0 = fail := by
  refine eq_fail fun a hs => ?_
  simp [fpDiv] at hs
  exact h hs.symm

end Spark
