import Verif.Circ
import Verif.Math.Fp
import Verif.Spec.Encoding

/-!
# The native gnark API (trusted base)

`frontend.API` of gnark v0.9.1 over the BN254 scalar field.  gnark is a dependency; its source is
not in `/repo`.  The definitions below state the semantics the model assumes: which constraints a
call emits and which value it returns.  A `frontend.Variable` is modelled by its value in `Fr`.
-/

namespace Spark

open Circ

/-- `api.AssertIsBoolean(x)`: constraint `x·(1-x) = 0`. -/
def apiAssertBool (x : Fr) : Circ Unit := assert (x * (1 - x) = 0)

/-- `api.AssertIsEqual(x, y)`. -/
def apiAssertEq (x y : Fr) : Circ Unit := assert (x = y)

/-- `api.And(a, b)`: both operands are constrained to be boolean, result `a·b`. -/
def apiAnd (a b : Fr) : Circ Fr := do
  apiAssertBool a; apiAssertBool b; pure (a * b)

/-- `api.Or(a, b)`: both operands are constrained to be boolean, result `a+b-a·b`. -/
def apiOr (a b : Fr) : Circ Fr := do
  apiAssertBool a; apiAssertBool b; pure (a + b - a * b)

/-- `api.Xor(a, b)`: both operands are constrained to be boolean, result `a+b-2a·b`. -/
def apiXor (a b : Fr) : Circ Fr := do
  apiAssertBool a; apiAssertBool b; pure (a + b - 2 * (a * b))

/-- `api.Select(b, x, y)`: `b` is constrained to be boolean, result `b·(x-y)+y`. -/
def apiSelect (b x y : Fr) : Circ Fr := do
  apiAssertBool b; pure (b * (x - y) + y)

/-- `bits.FromBinary(api, bs, bits.WithUnconstrainedInputs())`: `Σ bs[i]·2^i`. -/
def fromBinary (bs : List Fr) : Fr := bs.foldr (fun b acc => b + 2 * acc) 0

/-- `bits.ToBinary(api, v, bits.WithNbDigits(n))`: the digits are hints, each is constrained to be
boolean and the weighted sum is constrained to be `v`.  (For `n ≥ 254` gnark adds a canonicity
constraint; the code under study only uses `n < 254`, so that case is not modelled.) -/
def toBinary (n : ℕ) (v : Fr) : Circ (Vector Fr n) := do
  let bs ← hint (some (Vector.ofFn fun i : Fin n => if v.val.testBit i then (1 : Fr) else 0))
  assert (∀ i : Fin n, bs[i] * (1 - bs[i]) = 0)
  assert (fromBinary bs.toList = v)
  pure bs

/-- `api.Cmp(a, b)`: exact comparison of the canonical representatives, result `1`, `0` or `-1`
(gnark compares the canonical 254-bit decompositions). -/
def apiCmp (a b : Fr) : Fr :=
  if a.val < b.val then -1 else if a.val = b.val then 0 else 1

/-! ### basic facts -/

theorem bool_iff (x : Fr) : x * (1 - x) = 0 ↔ x = 0 ∨ x = 1 := by
  rw [mul_eq_zero, sub_eq_zero]
  constructor <;> (rintro (h | h) <;> simp [h])

@[simp] theorem bit_true : bit true = 1 := rfl
@[simp] theorem bit_false : bit false = 0 := rfl

theorem bit_injective : Function.Injective bit := by
  intro a b h
  cases a <;> cases b <;> simp_all

theorem bool_iff_bit (x : Fr) : x * (1 - x) = 0 ↔ ∃ b, x = bit b := by
  rw [bool_iff]
  constructor
  · rintro (h | h)
    · exact ⟨false, h⟩
    · exact ⟨true, h⟩
  · rintro ⟨b, rfl⟩; cases b <;> simp

@[simp] theorem bit_bool (b : Bool) : bit b * (1 - bit b) = 0 := by cases b <;> simp

@[simp] theorem apiAssertBool_bit (b : Bool) : apiAssertBool (bit b) = pure () :=
  assert_true (bit_bool b)

@[simp] theorem apiAnd_bit (a b : Bool) : apiAnd (bit a) (bit b) = pure (bit (a && b)) := by
  cases a <;> cases b <;> simp [apiAnd, apiAssertBool, assert_true]

@[simp] theorem apiOr_bit (a b : Bool) : apiOr (bit a) (bit b) = pure (bit (a || b)) := by
  cases a <;> cases b <;> simp [apiOr, apiAssertBool, assert_true]

@[simp] theorem apiXor_bit (a b : Bool) : apiXor (bit a) (bit b) = pure (bit (a ^^ b)) := by
  cases a <;> cases b <;> simp [apiXor, apiAssertBool, assert_true]; norm_num

@[simp] theorem apiSelect_bit (b : Bool) (x y : Fr) :
    apiSelect (bit b) x y = pure (if b then x else y) := by
  cases b <;> simp [apiSelect, apiAssertBool, assert_true]

theorem frOrder_gt : 2 ^ 253 < frOrder := by decide +kernel

/-! ### binary decomposition -/

/-- value of a list of bits, least significant first -/
def natOfBits : List Bool → ℕ
  | [] => 0
  | b :: bs => b.toNat + 2 * natOfBits bs

theorem natOfBits_lt (l : List Bool) : natOfBits l < 2 ^ l.length := by
  induction l with
  | nil => simp [natOfBits]
  | cons b l ih => cases b <;> simp [natOfBits, pow_succ] <;> omega

theorem natOfBits_testBit (l : List Bool) (i : ℕ) : (natOfBits l).testBit i = l.getD i false := by
  induction l generalizing i with
  | nil => simp [natOfBits]
  | cons b l ih =>
    cases i with
    | zero => cases b <;> simp [natOfBits, Nat.testBit_zero]
    | succ i =>
      rw [natOfBits, Nat.testBit_succ, List.getD_cons_succ, ← ih]
      congr 1
      cases b <;> simp <;> omega

theorem fromBinary_bits (l : List Bool) : fromBinary (l.map bit) = (natOfBits l : Fr) := by
  induction l with
  | nil => simp [fromBinary, natOfBits]
  | cons b l ih =>
    simp only [fromBinary, List.map_cons, List.foldr_cons] at *
    rw [ih]; cases b <;> simp [natOfBits]

theorem exists_bits {l : List Fr} (h : ∀ x ∈ l, x * (1 - x) = 0) : ∃ bs : List Bool, l = bs.map bit := by
  induction l with
  | nil => exact ⟨[], rfl⟩
  | cons a l ih =>
    obtain ⟨bs, hbs⟩ := ih (fun x hx => h x (List.mem_cons_of_mem _ hx))
    obtain ⟨b, hb⟩ := (bool_iff_bit a).1 (h a List.mem_cons_self)
    exact ⟨b :: bs, by simp [hb, hbs]⟩

/-- the digits of a natural number as field elements -/
def bitsOf (n : ℕ) (v : ℕ) : Vector Fr n := Vector.ofFn fun i => bit (v.testBit i)

theorem bitsOf_toList (n v : ℕ) :
    (bitsOf n v).toList = ((List.range n).map fun i => v.testBit i).map bit := by
  apply List.ext_getElem
  · simp
  · intro i h1 h2
    simp [bitsOf]

theorem natOfBits_range (n v : ℕ) :
    natOfBits ((List.range n).map fun i => v.testBit i) = v % 2 ^ n := by
  apply Nat.eq_of_testBit_eq
  intro i
  rw [natOfBits_testBit, Nat.testBit_mod_two_pow]
  by_cases h : i < n
  · simp [List.getD, h]
  · simp [List.getD, h]

/-- `ToBinary` with `n < 254` digits: satisfiable exactly for values below `2^n`, and then the
digits are the binary digits of the value - the prover has no choice. -/
theorem toBinary_natCast {n v : ℕ} (hn : n ≤ 253) (hv : v < 2 ^ n) :
    toBinary n (v : Fr) = pure (bitsOf n v) := by
  have hlt : v < frOrder :=
    lt_of_lt_of_le hv ((Nat.pow_le_pow_right (by norm_num) hn).trans frOrder_gt.le)
  have hval : (v : Fr).val = v := by rw [ZMod.val_natCast, Nat.mod_eq_of_lt hlt]
  have hsum : fromBinary (bitsOf n v).toList = (v : Fr) := by
    rw [bitsOf_toList, fromBinary_bits, natOfBits_range, Nat.mod_eq_of_lt hv]
  have hvec : (Vector.ofFn fun i : Fin n => if (v : Fr).val.testBit i then (1 : Fr) else 0)
      = bitsOf n v := by
    ext i hi; simp [bitsOf, hval, bit]
  refine Exact.eq_pure ⟨?_, ?_⟩
  · have hb : ∀ i : Fin n, (bitsOf n v)[i] * (1 - (bitsOf n v)[i]) = 0 := by
      intro i; simp [bitsOf]
    simp only [toBinary, hvec, run_bind, run_hint, run_assert, Option.bind_some]
    rw [if_pos hb]
    simp [hsum]
  · intro bs h
    simp only [toBinary, sat_bind, sat_hint, sat_assert, true_and, sat_pure] at h
    obtain ⟨bs', _, h1, _, h2, rfl⟩ := h
    obtain ⟨l, hl⟩ := exists_bits (l := bs.toList) (by
      intro x hx
      obtain ⟨i, hi, rfl⟩ := List.mem_iff_getElem.1 hx
      have := h1 ⟨i, by simpa using hi⟩
      simpa using this)
    rw [hl, fromBinary_bits] at h2
    have hlen : l.length = n := by
      have := congrArg List.length hl; simpa using this.symm
    have hl2 : natOfBits l < frOrder := by
      have := natOfBits_lt l
      rw [hlen] at this
      exact lt_of_lt_of_le this ((Nat.pow_le_pow_right (by norm_num) hn).trans frOrder_gt.le)
    have heq : natOfBits l = v := by
      have := congrArg ZMod.val h2
      rwa [hval, ZMod.val_natCast, Nat.mod_eq_of_lt hl2] at this
    ext i hi
    have e1 : bs[i] = bs.toList[i]'(by simpa using hi) := by simp
    have hli : i < l.length := by omega
    rw [e1]
    have e2 : bs.toList[i]'(by simpa using hi) = bit l[i] := by
      simp only [hl, List.getElem_map]
    rw [e2, bitsOf, Vector.getElem_ofFn, ← heq, natOfBits_testBit]
    simp [List.getD, hli]

theorem toBinary_of_le {n : ℕ} {v : Fr} (hv : 2 ^ n ≤ v.val) : toBinary n v = fail := by
  refine eq_fail fun b h => ?_
  simp only [toBinary, sat_bind, sat_hint, sat_assert, true_and, sat_pure] at h
  obtain ⟨bs, _, h1, _, h2, -⟩ := h
  obtain ⟨l, hl⟩ := exists_bits (l := bs.toList) (by
    intro x hx
    obtain ⟨i, hi, rfl⟩ := List.mem_iff_getElem.1 hx
    have := h1 ⟨i, by simpa using hi⟩
    simpa using this)
  rw [hl, fromBinary_bits] at h2
  have hlen : l.length = n := by
    have := congrArg List.length hl; simpa using this.symm
  have h3 := natOfBits_lt l
  rw [hlen] at h3
  have : v.val ≤ natOfBits l := by
    rw [← h2, ZMod.val_natCast]; exact Nat.mod_le _ _
  omega

end Spark
