import Verif.Math.Frobenius
import Verif.Math.Curve
import Verif.Math.GroupOrder

/-! Arithmetic of `Fp2` and of curves over it on natural numbers, for evaluation in the kernel. -/

namespace Spark.NC
set_option maxRecDepth 100000

/-- a pair of naturals standing for an element of `Fp2` -/
abbrev N2 := ℕ × ℕ

/-- the element of `Fp2` denoted by a pair -/
def e2 (x : N2) : E2 Fp := toE2 fpOrder x

/-- sum -/
def add (x y : N2) : N2 := ((x.1 + y.1) % fpOrder, (x.2 + y.2) % fpOrder)
/-- negation -/
def neg (x : N2) : N2 := ((fpOrder - x.1 % fpOrder) % fpOrder, (fpOrder - x.2 % fpOrder) % fpOrder)
/-- difference -/
def sub (x y : N2) : N2 := add x (neg y)
/-- product -/
def mul (x y : N2) : N2 := mul2 fpOrder x y
/-- non-zero test -/
def nz (x : N2) : Bool := x.1 % fpOrder != 0 || x.2 % fpOrder != 0
/-- inverse (its correctness is checked at each use) -/
def inv (x : N2) : N2 :=
  let n := powMod fpOrder ((x.1 * x.1 + x.2 * x.2) % fpOrder) (fpOrder - 2)
  mul (n, 0) (x.1, (fpOrder - x.2 % fpOrder) % fpOrder)

theorem e2_mul (x y : N2) : e2 (mul x y) = e2 x * e2 y := toE2_mul2 (dvd_refl _) fpOrder_pos x y

theorem cast_mod (n : ℕ) : ((n % fpOrder : ℕ) : Fp) = n := by simp

theorem e2_add (x y : N2) : e2 (add x y) = e2 x + e2 y := by
  ext <;> simp only [e2, toE2, add, cast_mod, Nat.cast_add, E2.A0_add, E2.A1_add]

theorem cast_neg (n : ℕ) : (((fpOrder - n % fpOrder) % fpOrder : ℕ) : Fp) = -n := by
  rw [cast_mod, Nat.cast_sub (Nat.mod_lt _ fpOrder_pos).le, cast_mod]
  simp

theorem e2_neg (x : N2) : e2 (neg x) = -e2 x := by
  ext <;> simp only [e2, toE2, neg, cast_neg, E2.A0_neg, E2.A1_neg]

theorem e2_sub (x y : N2) : e2 (sub x y) = e2 x - e2 y := by
  rw [sub, e2_add, e2_neg, sub_eq_add_neg]

theorem e2_nz {x : N2} (h : nz x = true) : e2 x ≠ 0 := by
  intro h0
  have h1 := congrArg E2.A0 h0
  have h2 := congrArg E2.A1 h0
  simp only [e2, toE2] at h1 h2
  have h1' : ((x.1 : ℕ) : Fp) = 0 := h1
  have h2' : ((x.2 : ℕ) : Fp) = 0 := h2
  rw [ZMod.natCast_eq_zero_iff] at h1' h2'
  simp [nz, Nat.mod_eq_zero_of_dvd h1', Nat.mod_eq_zero_of_dvd h2'] at h

theorem e2_two : e2 (2, 0) = 2 := by rfl
theorem e2_three : e2 (3, 0) = 3 := by rfl

/-- an affine point -/
abbrev NPt := N2 × N2

/-- doubling, `none` if exceptional -/
def dbl (T : NPt) : Option NPt :=
  let d := mul (2, 0) T.2
  let n := mul (3, 0) (mul T.1 T.1)
  let l := mul n (inv d)
  let x := sub (sub (mul l l) T.1) T.1
  if nz d && mul l d == n then some (x, sub (mul l (sub T.1 x)) T.2) else none

/-- addition, `none` if exceptional -/
def addP (T S : NPt) : Option NPt :=
  let d := sub T.1 S.1
  let n := sub T.2 S.2
  let l := mul n (inv d)
  let x := sub (sub (mul l l) T.1) S.1
  if nz d && mul l d == n then some (x, sub (mul l (sub T.1 x)) T.2) else none

/-- `P` is the point denoted by `T` -/
def IsPt {b : E2 Fp} (P : (sw b).Point) (T : NPt) : Prop := Pt P (e2 T.1) (e2 T.2)

variable {b : E2 Fp} {P Q : (sw b).Point} {T S R : NPt}

theorem dbl_spec (h : IsPt P T) (hd : dbl T = some R) : IsPt (P + P) R := by
  simp only [dbl] at hd
  split at hd
  · next hc =>
    rw [Bool.and_eq_true, beq_iff_eq] at hc
    generalize mul (mul (3, 0) (mul T.1 T.1)) (inv (mul (2, 0) T.2)) = l at *
    obtain rfl := Option.some.inj hd
    have h1 := e2_nz hc.1
    have h2 := congrArg e2 hc.2
    simp only [e2_mul, e2_two, e2_three] at h1 h2
    have := Pt.double h h1 (l := e2 l) (by rw [h2]; ring)
    simp only [IsPt, e2_sub, e2_mul]
    rw [pow_two] at this
    exact this
  · cases hd

theorem add_spec (h : IsPt P T) (h' : IsPt Q S) (hd : addP T S = some R) : IsPt (P + Q) R := by
  simp only [addP] at hd
  split at hd
  · next hc =>
    rw [Bool.and_eq_true, beq_iff_eq] at hc
    generalize mul (sub T.2 S.2) (inv (sub T.1 S.1)) = l at *
    obtain rfl := Option.some.inj hd
    have h1 := e2_nz hc.1
    have h2 := congrArg e2 hc.2
    simp only [e2_mul, e2_sub] at h1 h2
    have := Pt.add h h' (sub_ne_zero.1 h1) (l := e2 l) h2
    simp only [IsPt, e2_sub, e2_mul]
    rw [pow_two] at this
    exact this
  · cases hd

/-- double-and-add over the bits of `k` below position `i`, from accumulator `A` -/
def smulAux (T : NPt) (k : ℕ) : ℕ → NPt → Option NPt
  | 0, A => some A
  | i + 1, A =>
    match dbl A with
    | none => none
    | some A =>
      if k.testBit i then
        match addP A T with
        | none => none
        | some A => smulAux T k i A
      else smulAux T k i A

/-- value of the bits `i-1, …, 0` of `k` prefixed by `n` -/
def bitsVal (k : ℕ) : ℕ → ℕ → ℕ
  | 0, n => n
  | i + 1, n => bitsVal k i (if k.testBit i then 2 * n + 1 else 2 * n)

theorem smulAux_spec (h : IsPt P T) (k : ℕ) : ∀ (i n : ℕ) (A : NPt), IsPt (n • P) A →
    smulAux T k i A = some R → IsPt ((bitsVal k i n) • P) R := by
  intro i
  induction i with
  | zero =>
    intro n A hA e
    obtain rfl := Option.some.inj e
    exact hA
  | succ i ih =>
    intro n A hA e
    simp only [smulAux] at e
    split at e
    · cases e
    · next B hB =>
      have hB' := dbl_spec hA hB
      rw [← two_nsmul, ← mul_nsmul'] at hB'
      rw [bitsVal]
      split at e
      · next hb =>
        split at e
        · cases e
        · next C hC =>
          have hC' := add_spec hB' h hC
          rw [if_pos hb]
          refine ih _ C ?_ e
          rw [add_nsmul, one_nsmul]; exact hC'
      · next hb =>
        rw [if_neg hb]
        exact ih _ B hB' e

/-- `k•T` by double-and-add, for `k` with `i + 1` bits -/
theorem smul_spec (h : IsPt P T) (k i : ℕ) (e : smulAux T k i T = some R) (hk : bitsVal k i 1 = k) :
    IsPt (k • P) R := by
  have := smulAux_spec h k i 1 T (by rwa [one_nsmul]) e
  rwa [hk] at this

theorem order_of_check (h : IsPt P T) (i : ℕ)
    (e : smulAux T (rOrder - 1) i T = some R) (hk : bitsVal (rOrder - 1) i 1 = rOrder - 1)
    (hx : e2 R.1 = e2 T.1) (hy : e2 R.2 = -e2 T.2) : rOrder • P = 0 := by
  have h1 := smul_spec h _ i e hk
  have h2 : Pt ((rOrder - 1) • P) (e2 T.1) (-e2 T.2) := by
    rw [← hx, ← hy]; exact h1
  have h3 := h2.ext (Pt.neg h)
  have h4 : (rOrder - 1) • P + P = 0 := by rw [h3, neg_add_cancel]
  rw [← h4]
  nth_rewrite 3 [← one_nsmul P]
  rw [← add_nsmul, Nat.sub_add_cancel rOrder_prime.one_lt.le]

end Spark.NC
