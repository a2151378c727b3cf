import Verif.Lemmas.MillerProd
import Verif.Lemmas.MillerSteps
import Verif.Math.NatCurve

/-! The Miller loop and powers in `Fp12` on natural numbers, for evaluation in the kernel. -/

namespace Spark.NC
open Circ Pairing
set_option maxRecDepth 100000

/-- an element of `Fp12` in the basis `1, w, …, w⁵` over `Fp2` -/
structure N12 where
  c0 : N2
  c1 : N2
  c2 : N2
  c3 : N2
  c4 : N2
  c5 : N2
deriving DecidableEq

/-- the element denoted -/
def e12 (x : N12) : E12 Fp := ⟨⟨e2 x.c0, e2 x.c2, e2 x.c4⟩, ⟨e2 x.c1, e2 x.c3, e2 x.c5⟩⟩

/-- coefficient `k` of the product: the pairs with indices adding up to `k`, and to `k + 6` (times `1 + u`) -/
def lin (a0 a1 b0 b1 : ℕ) : N2 := ((a0 + b0 + (fpOrder - b1 % fpOrder)) % fpOrder, (a1 + b0 + b1) % fpOrder)

/-- real part of a product in `Fp2`, shifted by a multiple of `p` to stay natural -/
def re (x y : N2) : ℕ := x.1 * y.1 + x.2 * ((fpOrder - y.2 % fpOrder))
/-- imaginary part -/
def im (x y : N2) : ℕ := x.1 * y.2 + x.2 * y.1

/-- product -/
def mul12 (x y : N12) : N12 :=
  ⟨lin (re x.c0 y.c0) (im x.c0 y.c0)
      (re x.c1 y.c5 + re x.c2 y.c4 + re x.c3 y.c3 + re x.c4 y.c2 + re x.c5 y.c1)
      (im x.c1 y.c5 + im x.c2 y.c4 + im x.c3 y.c3 + im x.c4 y.c2 + im x.c5 y.c1),
   lin (re x.c0 y.c1 + re x.c1 y.c0) (im x.c0 y.c1 + im x.c1 y.c0)
      (re x.c2 y.c5 + re x.c3 y.c4 + re x.c4 y.c3 + re x.c5 y.c2)
      (im x.c2 y.c5 + im x.c3 y.c4 + im x.c4 y.c3 + im x.c5 y.c2),
   lin (re x.c0 y.c2 + re x.c1 y.c1 + re x.c2 y.c0) (im x.c0 y.c2 + im x.c1 y.c1 + im x.c2 y.c0)
      (re x.c3 y.c5 + re x.c4 y.c4 + re x.c5 y.c3)
      (im x.c3 y.c5 + im x.c4 y.c4 + im x.c5 y.c3),
   lin (re x.c0 y.c3 + re x.c1 y.c2 + re x.c2 y.c1 + re x.c3 y.c0)
      (im x.c0 y.c3 + im x.c1 y.c2 + im x.c2 y.c1 + im x.c3 y.c0)
      (re x.c4 y.c5 + re x.c5 y.c4)
      (im x.c4 y.c5 + im x.c5 y.c4),
   lin (re x.c0 y.c4 + re x.c1 y.c3 + re x.c2 y.c2 + re x.c3 y.c1 + re x.c4 y.c0)
      (im x.c0 y.c4 + im x.c1 y.c3 + im x.c2 y.c2 + im x.c3 y.c1 + im x.c4 y.c0)
      (re x.c5 y.c5) (im x.c5 y.c5),
   lin (re x.c0 y.c5 + re x.c1 y.c4 + re x.c2 y.c3 + re x.c3 y.c2 + re x.c4 y.c1 + re x.c5 y.c0)
      (im x.c0 y.c5 + im x.c1 y.c4 + im x.c2 y.c3 + im x.c3 y.c2 + im x.c4 y.c1 + im x.c5 y.c0)
      0 0⟩

theorem cast_re (x y : N2) : ((re x y : ℕ) : Fp) = (e2 x * e2 y).A0 := by
  simp only [re, e2, toE2, E2.A0_mul]
  push_cast [Nat.cast_sub (Nat.mod_lt y.2 fpOrder_pos).le]
  simp
  ring

theorem cast_im (x y : N2) : ((im x y : ℕ) : Fp) = (e2 x * e2 y).A1 := by
  simp only [im, e2, toE2, E2.A1_mul]
  push_cast
  ring

theorem e2_lin {a0 a1 b0 b1 : ℕ} {a b : E2 Fp} (h1 : (a0 : Fp) = a.A0) (h2 : (a1 : Fp) = a.A1)
    (h3 : (b0 : Fp) = b.A0) (h4 : (b1 : Fp) = b.A1) : e2 (lin a0 a1 b0 b1) = a + E2.xi * b := by
  ext
  · simp only [lin, e2, toE2, cast_mod]
    push_cast [Nat.cast_sub (Nat.mod_lt b1 fpOrder_pos).le]
    simp [h1, h3, h4]
    ring
  · simp only [lin, e2, toE2, cast_mod]
    push_cast
    simp [h2, h3, h4]
    ring

/-- `n + m·u` -/
def Rep2 (n m : ℕ) (a : E2 Fp) : Prop := (n : Fp) = a.A0 ∧ (m : Fp) = a.A1

theorem Rep2.mul (x y : N2) : Rep2 (re x y) (im x y) (e2 x * e2 y) := ⟨cast_re x y, cast_im x y⟩
theorem Rep2.add {n m n' m' : ℕ} {a a' : E2 Fp} (h : Rep2 n m a) (h' : Rep2 n' m' a') :
    Rep2 (n + n') (m + m') (a + a') := by
  refine ⟨?_, ?_⟩
  · rw [Nat.cast_add, h.1, h'.1, E2.A0_add]
  · rw [Nat.cast_add, h.2, h'.2, E2.A1_add]
theorem Rep2.zero : Rep2 0 0 0 := ⟨by simp, by simp⟩
theorem Rep2.lin {n m n' m' : ℕ} {a b c : E2 Fp} (h : Rep2 n m a) (h' : Rep2 n' m' b)
    (e : a + E2.xi * b = c) : e2 (lin n m n' m') = c := (e2_lin h.1 h.2 h'.1 h'.2).trans e

theorem e12_mul (x y : N12) : e12 (mul12 x y) = e12 x * e12 y := by
  have h6 : ∀ a b c d e f g h i j k l : E2 Fp, (⟨⟨a, c, e⟩, ⟨b, d, f⟩⟩ : E12 Fp) * ⟨⟨g, i, k⟩, ⟨h, j, l⟩⟩ =
      ⟨⟨a * g + E2.xi * (b * l + c * k + d * j + e * i + f * h),
        a * i + b * h + c * g + E2.xi * (d * l + e * k + f * j),
        a * k + b * j + c * i + d * h + e * g + E2.xi * (f * l)⟩,
       ⟨a * h + b * g + E2.xi * (c * l + d * k + e * j + f * i),
        a * j + b * i + c * h + d * g + E2.xi * (e * l + f * k),
        a * l + b * k + c * j + d * i + e * h + f * g + E2.xi * 0⟩⟩ := by
    intros
    ext1 <;> ext1 <;> simp <;> ring
  rw [e12, e12, e12, h6, mul12]
  dsimp only
  have mk : ∀ {a b c d e f a' b' c' d' e' f' : E2 Fp}, a = a' → b = b' → c = c' → d = d' → e = e' → f = f' →
      (⟨⟨a, b, c⟩, ⟨d, e, f⟩⟩ : E12 Fp) = ⟨⟨a', b', c'⟩, ⟨d', e', f'⟩⟩ := by
    rintro _ _ _ _ _ _ _ _ _ _ _ _ rfl rfl rfl rfl rfl rfl; rfl
  refine mk ?_ ?_ ?_ ?_ ?_ ?_
  all_goals
    refine Rep2.lin ?_ ?_ rfl
    all_goals
      repeat first | exact Rep2.mul _ _ | exact Rep2.zero | refine Rep2.add ?_ ?_


/-- one -/
def one12 : N12 := ⟨(1, 0), (0, 0), (0, 0), (0, 0), (0, 0), (0, 0)⟩
theorem e12_one : e12 one12 = 1 := by
  ext1 <;> ext1 <;> ext1 <;> simp [e12, one12, e2, toE2]

/-- conjugation `w ↦ -w` -/
def conj12 (x : N12) : N12 := ⟨x.c0, neg x.c1, x.c2, neg x.c3, x.c4, neg x.c5⟩
theorem e12_conj (x : N12) : e12 (conj12 x) = E12.conj (e12 x) := by
  ext1 <;> ext1 <;> simp [e12, conj12, e2_neg]

/-- power -/
def pow12 (x : N12) (n : ℕ) : N12 := fastPow mul12 4400 x n one12
theorem e12_pow (x : N12) {n : ℕ} (h : n < 2 ^ 4400) : e12 (pow12 x n) = e12 x ^ n := by
  rw [pow12, fastPow_spec mul12 e12 e12_mul _ _ _ _ h, e12_one, one_mul]

/-- product of a base field element and an element of `Fp2` -/
def smul2 (k : ℕ) (x : N2) : N2 := (k * x.1 % fpOrder, k * x.2 % fpOrder)
theorem e2_smul (k : ℕ) (x : N2) : e2 (smul2 k x) = Ext2.mulByElement (e2 x) (k : Fp) := by
  simp only [tower]
  ext <;> simp only [e2, smul2, toE2, cast_mod, Nat.cast_mul, E2.A0_mul, E2.A1_mul, E2.A0_of, E2.A1_of] <;> ring

/-- slope `n/d`, `none` if `d = 0` -/
def slope (n d : N2) : Option N2 :=
  let l := mul n (inv d)
  if nz d && mul l d == n then some l else none

theorem slope_spec {n d l : N2} (h : slope n d = some l) : Ext2.divUnchecked (e2 n) (e2 d) = pure (e2 l) := by
  simp only [slope] at h
  split at h
  · next hc =>
    rw [Bool.and_eq_true, beq_iff_eq] at hc
    generalize mul n (inv d) = l' at *
    obtain rfl := Option.some.inj h
    have h1 := e2_nz hc.1
    rw [Ext2.divUnchecked_eq h1, ← hc.2, e2_mul, mul_div_cancel_right₀ _ h1]
  · cases h

/-- coordinates -/
def pt (T : NPt) : G2Affine Fp := ⟨e2 T.1, e2 T.2⟩

/-- the line through `T` with slope `l`, evaluated -/
def nLine (k m : ℕ) (T : NPt) (l : N2) : N12 :=
  ⟨smul2 k (sub (mul l T.1) T.2), (0, 0), smul2 m (neg l), (1, 0), (0, 0), (0, 0)⟩

/-- yInv, xOverY -/
structure NSt where
  Q : NPt
  yInv : ℕ
  xOverY : ℕ

/-- the state denoted -/
def st (s : NSt) (T : NPt) : PairState Fp := ⟨pt s.Q, pt T, (s.yInv : Fp), (s.xOverY : Fp)⟩

theorem e2_zero : e2 (0, 0) = 0 := by ext <;> simp [e2, toE2]
theorem e2_one' : e2 (1, 0) = 1 := by ext <;> simp [e2, toE2]

theorem nLine_spec (s : NSt) (T T' : NPt) (l : N2) : e12 (nLine s.yInv s.xOverY T l) =
    Ext12.sparse014 (evalLine (st s T') ⟨-e2 l, e2 l * e2 T.1 - e2 T.2⟩).R1
      (evalLine (st s T') ⟨-e2 l, e2 l * e2 T.1 - e2 T.2⟩).R0 := by
  simp only [Ext12.sparse014, evalLine, e12, nLine, e2_zero, e2_one', e2_smul, e2_sub, e2_mul, e2_neg, st]

/-- third point of the line with slope `l` through `T` and a point with abscissa `x'`, reflected -/
def third (T : NPt) (x' l : N2) : NPt :=
  let x := sub (sub (mul l l) T.1) x'
  (x, sub (mul l (sub T.1 x)) T.2)

/-- `fac0` -/
def nFac0 (s : NSt) (T : NPt) : Option (NPt × N12) := do
  let l ← slope (mul (3, 0) (mul T.1 T.1)) (mul (2, 0) T.2)
  pure (third T T.1 l, nLine s.yInv s.xOverY T l)

theorem three_int : (((3 : ℤ) : E2 Fp)) = e2 (3, 0) := by rw [e2_three]; norm_num

theorem nFac0_spec {s : NSt} {T R : NPt} {z : N12} (h : nFac0 s T = some (R, z)) :
    fac0 (st s T) = pure (st s R, e12 z) := by
  simp only [nFac0, Option.bind_eq_bind, Option.bind_eq_some_iff, Option.pure_def, Option.some.injEq,
    Prod.mk.injEq] at h
  obtain ⟨l, hl, rfl, rfl⟩ := h
  have hd := slope_spec hl
  simp only [e2_mul, e2_three, e2_two] at hd
  rw [fac0]
  simp only [doubleStep, tower, int_three]
  rw [show (st s T).Qacc.X = e2 T.1 from rfl, show (st s T).Qacc.Y = e2 T.2 from rfl, hd]
  simp only [pure_bind]
  rw [nLine_spec s T T]
  refine congrArg pure (Prod.ext ?_ rfl)
  simp only [st, pt, third, e2_sub, e2_mul]

/-- `facLast` -/
def nFacLast (s : NSt) (T : NPt) : Option N12 := do
  let l ← slope (mul (3, 0) (mul T.1 T.1)) (mul (2, 0) T.2)
  pure (nLine s.yInv s.xOverY T l)

theorem nFacLast_spec {s : NSt} {T : NPt} {z : N12} (h : nFacLast s T = some z) :
    facLast (st s T) = pure (st s T, e12 z) := by
  simp only [nFacLast, Option.bind_eq_bind, Option.bind_eq_some_iff, Option.pure_def, Option.some.injEq] at h
  obtain ⟨l, hl, rfl⟩ := h
  have hd := slope_spec hl
  simp only [e2_mul, e2_three, e2_two] at hd
  rw [facLast]
  simp only [tangentCompute, tower, int_three]
  rw [show (st s T).Qacc.X = e2 T.1 from rfl, show (st s T).Qacc.Y = e2 T.2 from rfl, hd]
  simp only [pure_bind]
  rw [nLine_spec s T T]

/-- `fac62` -/
def nFac62 (s : NSt) (T : NPt) : Option (NPt × N12) := do
  let l1 ← slope (mul (3, 0) (mul T.1 T.1)) (mul (2, 0) T.2)
  let x2 := sub (sub (mul l1 l1) T.1) T.1
  let q ← slope (mul (2, 0) T.2) (sub T.1 x2)
  let l2 := sub q l1
  pure (third T x2 l2, mul12 (nLine s.yInv s.xOverY T l1) (nLine s.yInv s.xOverY T l2))

theorem nFac62_spec {s : NSt} {T R : NPt} {z : N12} (h : nFac62 s T = some (R, z)) :
    fac62 (st s T) = pure (st s R, e12 z) := by
  simp only [nFac62, Option.bind_eq_bind, Option.bind_eq_some_iff, Option.pure_def, Option.some.injEq,
    Prod.mk.injEq] at h
  obtain ⟨l, hl, q, hq, rfl, rfl⟩ := h
  have hd := slope_spec hl
  have hd2 := slope_spec hq
  simp only [e2_mul, e2_three, e2_two, e2_sub] at hd hd2
  rw [fac62]
  simp only [tripleStep, tower, int_three]
  rw [show (st s T).Qacc.X = e2 T.1 from rfl, show (st s T).Qacc.Y = e2 T.2 from rfl, hd]
  simp only [pure_bind]
  rw [hd2]
  simp only [pure_bind]
  rw [e12_mul, nLine_spec s T T, nLine_spec s T T]
  simp only [e2_sub]
  refine congrArg pure (Prod.ext ?_ rfl)
  simp only [st, pt, third, e2_sub, e2_mul, PairState.mk.injEq, G2Affine.mk.injEq, true_and, and_true]
  refine ⟨by ring, by ring⟩

/-- `fac1` -/
def nFac1 (s : NSt) (T : NPt) : Option (NPt × N12) := do
  let l1 ← slope (sub T.2 s.Q.2) (sub T.1 s.Q.1)
  let x3 := sub (sub (mul l1 l1) T.1) s.Q.1
  let q ← slope (mul (2, 0) T.2) (sub x3 T.1)
  let l2 := neg (add q l1)
  pure (third T x3 l2, mul12 (nLine s.yInv s.xOverY T l1) (nLine s.yInv s.xOverY T l2))

theorem nFac1_spec {s : NSt} {T R : NPt} {z : N12} (h : nFac1 s T = some (R, z)) :
    fac1 (st s T) = pure (st s R, e12 z) := by
  simp only [nFac1, Option.bind_eq_bind, Option.bind_eq_some_iff, Option.pure_def, Option.some.injEq,
    Prod.mk.injEq] at h
  obtain ⟨l, hl, q, hq, rfl, rfl⟩ := h
  have hd := slope_spec hl
  have hd2 := slope_spec hq
  simp only [e2_mul, e2_two, e2_sub] at hd hd2
  rw [fac1]
  simp only [doubleAndAddStep, tower]
  rw [show (st s T).Qacc.X = e2 T.1 from rfl, show (st s T).Qacc.Y = e2 T.2 from rfl,
    show (st s T).Q.X = e2 s.Q.1 from rfl, show (st s T).Q.Y = e2 s.Q.2 from rfl, hd]
  simp only [pure_bind]
  rw [hd2]
  simp only [pure_bind]
  rw [e12_mul, nLine_spec s T T, nLine_spec s T T]
  simp only [e2_add, e2_neg]
  refine congrArg pure (Prod.ext ?_ rfl)
  simp only [st, pt, third, e2_sub, e2_mul, e2_add, e2_neg]

/-- `loop1` -/
def nLoop (s : NSt) : ℕ → NPt × N12 → Option (NPt × N12)
  | 0, x => some x
  | i + 1, x =>
    match if loopCounter.getD (i + 1) 0 = 0 then nFac0 s x.1 else nFac1 s x.1 with
    | none => none
    | some y => nLoop s i (y.1, mul12 (mul12 x.2 x.2) y.2)

theorem nLoop_spec {s : NSt} (i : ℕ) {x y : NPt × N12} (h : nLoop s i x = some y) :
    loop1 i (st s x.1, e12 x.2) = pure (st s y.1, e12 y.2) := by
  induction i generalizing x with
  | zero =>
    obtain rfl := Option.some.inj h
    rfl
  | succ i ih =>
    rw [nLoop] at h
    rw [loop1]
    split at h
    · cases h
    · next z hz =>
      have hf : facI (i + 1) (st s x.1) = pure (st s z.1, e12 z.2) := by
        rw [facI]
        split at hz
        · next h0 => rw [if_pos h0]; exact nFac0_spec hz
        · next h0 => rw [if_neg h0]; exact nFac1_spec hz
      have := ih h
      simp only [e12_mul] at this
      rw [hf, pure_bind]
      exact this

/-- the Miller loop of one pair -/
def nMiller (x y : ℕ) (Q : NPt) : Option N12 :=
  let yi := powMod fpOrder y (fpOrder - 2)
  if y * yi % fpOrder = 1 then do
    let s : NSt := ⟨Q, yi, x * yi % fpOrder⟩
    let a ← nFac62 s Q
    let b ← nLoop s 61 a
    let c ← nFacLast s b.1
    pure (conj12 (mul12 (mul12 b.2 b.2) c))
  else none

theorem nMiller_spec {x y : ℕ} {Q : NPt} {z : N12} (h : nMiller x y Q = some z) :
    miller1 (⟨(x : Fp), (y : Fp)⟩, pt Q) = pure (e12 z) := by
  simp only [nMiller] at h
  split at h
  · next hy =>
    generalize powMod fpOrder y (fpOrder - 2) = yi at *
    simp only [Option.bind_eq_bind, Option.bind_eq_some_iff, Option.pure_def, Option.some.injEq] at h
    obtain ⟨a, ha, b, hb, c, hc, rfl⟩ := h
    have h1 : (y : Fp) * (yi : Fp) = 1 := by
      rw [← Nat.cast_mul, ← cast_mod, hy, Nat.cast_one]
    have hy0 : (y : Fp) ≠ 0 := left_ne_zero_of_mul_eq_one h1
    have hyi : (y : Fp)⁻¹ = yi := inv_eq_of_mul_eq_one_right h1
    have hinit : initPair ⟨(x : Fp), (y : Fp)⟩ (pt Q) = pure (st ⟨Q, yi, x * yi % fpOrder⟩ Q) := by
      rw [initPair, fpInverse_ne hy0, pure_bind, hyi, st]
      simp only [cast_mod, Nat.cast_mul]
    rw [miller1, hinit, pure_bind, body1pair, nFac62_spec ha, pure_bind, nLoop_spec 61 hb, pure_bind,
      nFacLast_spec hc, pure_bind, e12_conj, e12_mul, e12_mul]
  · cases h

end Spark.NC
