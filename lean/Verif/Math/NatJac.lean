import Verif.Math.NatCurve
import Verif.Spec.Curve

/-! Scalar multiplication in Jacobian coordinates on pairs of numbers, evaluated by the kernel
without inversions. -/

namespace Spark.NJ
open WeierstrassCurve Spec NC

/-- Jacobian triple -/
abbrev NJac := N2 × N2 × N2

/-- doubling -/
def dbl (T : NJac) : NJac :=
  let a := mul T.1 T.1
  let b := mul T.2.1 T.2.1
  let d := mul (4, 0) (mul T.1 b)
  let e := mul (3, 0) a
  let x := sub (mul e e) (add d d)
  (x, sub (mul e (sub d x)) (mul (8, 0) (mul b b)), mul (2, 0) (mul T.2.1 T.2.2))

/-- addition of an affine point, `none` if the abscissas agree -/
def madd (T : NJac) (S : NPt) : Option NJac :=
  let zz := mul T.2.2 T.2.2
  let h := sub (mul S.1 zz) T.1
  let r := sub (mul S.2 (mul zz T.2.2)) T.2.1
  let hh := mul h h
  let hhh := mul hh h
  let v := mul T.1 hh
  let x := sub (sub (mul r r) hhh) (add v v)
  if nz h then some (x, sub (mul r (sub v x)) (mul T.2.1 hhh), mul T.2.2 h) else none

/-- `P` has Jacobian coordinates `T`, with `Z ≠ 0` -/
def IsJ {b : E2 Fp} (P : (sw b).Point) (T : NJac) : Prop :=
  e2 T.2.2 ≠ 0 → Pt P (e2 T.1 / e2 T.2.2 ^ 2) (e2 T.2.1 / e2 T.2.2 ^ 3)

variable {b : E2 Fp} {P Q : (sw b).Point} {T R : NJac} {S : NPt}

theorem e2_four : e2 (4, 0) = 4 := by rfl
theorem e2_eight : e2 (8, 0) = 8 := by rfl

theorem dbl_x {F : Type} [Field F] {X Y Z : F} (h2 : (2 : F) ≠ 0) (hY : Y ≠ 0) (hZ : Z ≠ 0) :
    ((3 * X ^ 2) / (2 * Y * Z)) ^ 2 - X / Z ^ 2 - X / Z ^ 2 =
      ((3 * (X * X)) * (3 * (X * X)) - (4 * (X * (Y * Y)) + 4 * (X * (Y * Y)))) / (2 * (Y * Z)) ^ 2 := by
  field_simp; ring

theorem dbl_spec (h2 : (2 : E2 Fp) ≠ 0) (h : IsJ P T) : IsJ (P + P) (dbl T) := by
  intro hz
  have hz3 : e2 (dbl T).2.2 = 2 * (e2 T.2.1 * e2 T.2.2) := by
    simp only [dbl, e2_mul, e2_two]
  rw [hz3] at hz ⊢
  have hY : e2 T.2.1 ≠ 0 := fun e => hz (by rw [e]; ring)
  have hZ : e2 T.2.2 ≠ 0 := fun e => hz (by rw [e]; ring)
  have hp := h hZ
  simp only [dbl, e2_mul, e2_add, e2_sub, e2_three, e2_four, e2_eight]
  generalize e2 T.1 = X at *
  generalize e2 T.2.1 = Y at *
  generalize e2 T.2.2 = Z at *
  have h3 := Pt.double hp (l := (3 * X ^ 2) / (2 * Y * Z))
    (mul_ne_zero h2 (div_ne_zero hY (pow_ne_zero _ hZ))) (by field_simp)
  refine h3.congr ?_ ?_
  · exact dbl_x h2 hY hZ
  · rw [dbl_x h2 hY hZ]; field_simp; ring

theorem madd_x {F : Type} [Field F] {X Z x H R : F} (hZ : Z ≠ 0) (hH0 : H ≠ 0) (hH : H = x * (Z * Z) - X) :
    (R / (H * Z)) ^ 2 - X / Z ^ 2 - x =
      (R * R - H * H * H - (X * (H * H) + X * (H * H))) / (Z * H) ^ 2 := by
  have hx : x = (H + X) / Z ^ 2 := by rw [hH]; field_simp; ring
  rw [hx]; field_simp; ring

theorem madd_spec (h : IsJ P T) (h' : IsPt Q S) (e : madd T S = some R) : IsJ (P + Q) R := by
  simp only [madd] at e
  split at e
  · next hc =>
    obtain rfl := Option.some.inj e
    intro hz
    have hH0 := e2_nz hc
    have hH : e2 (sub (mul S.1 (mul T.2.2 T.2.2)) T.1) = e2 S.1 * (e2 T.2.2 * e2 T.2.2) - e2 T.1 := by
      simp only [e2_sub, e2_mul]
    have hR : e2 (sub (mul S.2 (mul (mul T.2.2 T.2.2) T.2.2)) T.2.1) =
      e2 S.2 * (e2 T.2.2 * e2 T.2.2 * e2 T.2.2) - e2 T.2.1 := by simp only [e2_sub, e2_mul]
    generalize sub (mul S.1 (mul T.2.2 T.2.2)) T.1 = H at *
    generalize sub (mul S.2 (mul (mul T.2.2 T.2.2) T.2.2)) T.2.1 = RR at *
    simp only [e2_mul, e2_add, e2_sub] at hz ⊢
    have hZ : e2 T.2.2 ≠ 0 := fun e => hz (by rw [e, zero_mul])
    have hp := h hZ
    unfold IsPt at h'
    generalize e2 T.1 = X at *
    generalize e2 T.2.1 = Y at *
    generalize e2 T.2.2 = Z at *
    generalize e2 S.1 = x at *
    generalize e2 S.2 = y at *
    generalize e2 H = H at *
    generalize e2 RR = R at *
    have hx : x = (H + X) / Z ^ 2 := by rw [hH]; field_simp; ring
    have hy : y = (R + Y) / Z ^ 3 := by rw [hR]; field_simp; ring
    have hne : X / Z ^ 2 ≠ x := by
      intro e
      apply hH0
      rw [hH, ← e]; field_simp; simp
    have h3 := Pt.add hp h' hne (l := R / (H * Z)) (by rw [hx, hy]; field_simp; ring)
    refine h3.congr ?_ ?_
    · exact madd_x hZ hH0 hH
    · rw [madd_x hZ hH0 hH]; field_simp
  · cases e

attribute [irreducible] dbl madd

/-- double-and-add over the bits of `k` below position `i`, from accumulator `A` -/
def smulAux (S : NPt) (k : ℕ) : ℕ → NJac → Option NJac
  | 0, A => some A
  | i + 1, A =>
    if k.testBit i then
      match madd (dbl A) S with
      | none => none
      | some A => smulAux S k i A
    else smulAux S k i (dbl A)

theorem smulAux_spec (h2 : (2 : E2 Fp) ≠ 0) (h : IsPt P S) (k : ℕ) : ∀ (i n : ℕ) (A : NJac), IsJ (n • P) A →
    smulAux S k i A = some R → IsJ ((bitsVal k i n) • P) R := by
  intro i
  induction i with
  | zero =>
    intro n A hA e
    obtain rfl := Option.some.inj e
    exact hA
  | succ i ih =>
    intro n A hA e
    have hB : IsJ ((2 * n) • P) (dbl A) := by
      have h3 : n • P + n • P = (2 * n) • P := by rw [two_mul, add_nsmul]
      rw [← h3]; exact dbl_spec h2 hA
    rw [smulAux] at e
    rw [bitsVal]
    generalize dbl A = D at hB e
    by_cases hb : k.testBit i = true
    · rw [if_pos hb] at e ⊢
      cases hC : madd D S with
      | none => rw [hC] at e; cases e
      | some C =>
        rw [hC] at e
        refine ih _ C ?_ e
        rw [add_nsmul, one_nsmul]
        exact madd_spec hB h hC
    · rw [if_neg hb] at e ⊢
      exact ih _ _ hB e

/-- `k•S = R`, checked in Jacobian coordinates -/
def smulCheck (S : NPt) (k i : ℕ) (R : NPt) : Bool :=
  bitsVal k i 1 == k &&
  match smulAux S k i (S.1, S.2, (1, 0)) with
  | none => false
  | some T =>
    let zz := mul T.2.2 T.2.2
    nz T.2.2 && sub T.1 (mul R.1 zz) == (0, 0) && sub T.2.1 (mul R.2 (mul zz T.2.2)) == (0, 0)

theorem e2_zero : e2 (0, 0) = 0 := by rfl
theorem e2_one : e2 (1, 0) = 1 := by rfl

theorem smul_spec (h2 : (2 : E2 Fp) ≠ 0) (h : IsPt P S) {k i : ℕ} {W : NPt} (e : smulCheck S k i W = true) :
    IsPt (k • P) W := by
  rw [smulCheck, Bool.and_eq_true, beq_iff_eq] at e
  obtain ⟨hk, e⟩ := e
  split at e
  · cases e
  · next T hT =>
    have h0 : IsJ (1 • P) (S.1, S.2, (1, 0)) := by
      intro _
      rw [one_nsmul]
      refine Pt.congr h ?_ ?_ <;> simp [e2_one]
    have h3 := smulAux_spec h2 h k i 1 _ h0 hT
    rw [hk] at h3
    simp only [Bool.and_eq_true, beq_iff_eq] at e
    obtain ⟨⟨e1, e3⟩, e4⟩ := e
    have hz := e2_nz e1
    have e3 := congrArg e2 e3
    have e4 := congrArg e2 e4
    simp only [e2_sub, e2_mul, e2_zero] at e3 e4
    refine (h3 hz).congr ?_ ?_
    · rw [sub_eq_zero.1 e3]; field_simp
    · rw [sub_eq_zero.1 e4]; field_simp

end Spark.NJ
