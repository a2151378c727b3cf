import Verif.Model.Tower
import Verif.Math.Attr

/-! The modelled tower operations are the ring operations of `E2`, `E6`, `E12`. -/

namespace Spark
open Circ
variable {K : Type}

namespace Ext2
section
variable [CommRing K]
@[tower] theorem mul_eq (x y : E2 K) : mul x y = x * y := by
  ext <;> simp only [mul, E2.A0_mul, E2.A1_mul] <;> ring
@[tower] theorem add_eq (x y : E2 K) : add x y = x + y := rfl
@[tower] theorem sub_eq (x y : E2 K) : sub x y = x - y := rfl
@[tower] theorem neg_eq (x : E2 K) : neg x = -x := rfl
@[tower] theorem one_eq : (one : E2 K) = 1 := rfl
@[tower] theorem zero_eq : (zero : E2 K) = 0 := rfl
@[tower] theorem nonResidue_eq : (nonResidue : E2 K) = E2.xi := rfl
@[tower] theorem square_eq (x : E2 K) : square x = x * x := by
  ext <;> simp only [square, E2.A0_mul, E2.A1_mul] <;> ring
@[tower] theorem double_eq (x : E2 K) : double x = 2 * x := by
  rw [two_mul]; ext <;> simp only [double, E2.A0_add, E2.A1_add] <;> ring
@[tower] theorem mulByElement_eq (x : E2 K) (y : K) : mulByElement x y = x * E2.of y := by
  ext <;> simp [mulByElement]
@[tower] theorem mulByConstElement_eq (x : E2 K) (y : ℤ) : mulByConstElement x y = (y : E2 K) * x := by
  ext <;> simp [mulByConstElement, E2.A0_intCast, E2.A1_intCast]
@[tower] theorem conjugate_eq (x : E2 K) : conjugate x = E2.conj x := rfl
@[tower] theorem mulByNonResidue_eq (x : E2 K) : mulByNonResidue x = E2.xi * x := by
  ext <;> simp [mulByNonResidue]; ring
end

section
variable [Field K] [TowerField K] [DecidableEq K]

@[tower] theorem isZero_eq (z : E2 K) : isZero z = pure (bit (decide (z = 0))) := by
  rw [isZero, fpIsZero, fpIsZero, apiAnd_bit]
  congr 2
  rw [Bool.eq_iff_iff]
  simp [E2.ext_iff]

@[tower] theorem assertIsEqual_eq (x y : E2 K) : assertIsEqual x y = assert (x = y) := by
  refine ext' ?_ (fun a => ?_)
  · by_cases h0 : x.A0 = y.A0 <;> by_cases h1 : x.A1 = y.A1 <;>
      simp [assertIsEqual, fpAssertEq, E2.ext_iff, h0, h1]
  · simp [assertIsEqual, fpAssertEq, E2.ext_iff]

@[tower] theorem select_eq (b : Bool) (x y : E2 K) :
    select (bit b) x y = pure (if b then x else y) := by
  rw [select, fpSelect_bit, pure_bind, fpSelect_bit, pure_bind]
  cases b <;> rfl

@[tower] theorem lookup2_eq (s1 s2 : Bool) (a b c d : E2 K) :
    lookup2 (bit s1) (bit s2) a b c d =
      pure (if s2 then (if s1 then d else c) else (if s1 then b else a)) := by
  rw [lookup2, fpLookup2_bit, pure_bind, fpLookup2_bit, pure_bind]
  cases s1 <;> cases s2 <;> rfl

theorem sat_inverse (x y : E2 K) : (inverse x).sat y ↔ y * x = 1 := by
  simp only [inverse, tower, sat_bind, sat_hint, sat_assert, sat_pure, true_and]
  exact ⟨by rintro ⟨_, _, h, rfl⟩; exact h.symm, fun h => ⟨y, (), h.symm, rfl⟩⟩

theorem inverse_eq {x : E2 K} (h : x ≠ 0) : inverse x = pure x⁻¹ := by
  refine exact_iff_pure.1 ⟨?_, fun b hb => eq_inv_of_mul_eq_one_left ((sat_inverse x b).1 hb)⟩
  simp [inverse, tower, h]

theorem inverse_zero : inverse (0 : E2 K) = fail :=
  eq_fail fun a h => by simpa using (sat_inverse 0 a).1 h

theorem sat_divUnchecked (x y z : E2 K) : (divUnchecked x y).sat z ↔ z * y = x := by
  simp only [divUnchecked, tower, sat_bind, sat_hint, sat_assert, sat_pure, true_and]
  exact ⟨by rintro ⟨_, _, h, rfl⟩; exact h.symm, fun h => ⟨z, (), h.symm, rfl⟩⟩

theorem divUnchecked_eq {y : E2 K} (h : y ≠ 0) (x : E2 K) : divUnchecked x y = pure (x / y) := by
  refine exact_iff_pure.1 ⟨?_, fun b hb => by rw [eq_div_iff h]; exact (sat_divUnchecked x y b).1 hb⟩
  have : x = y⁻¹ * x * y := by field_simp
  simp only [divUnchecked, tower, run_bind, run_hint, Option.bind_some, run_assert, ← this, if_true,
    run_pure, div_eq_inv_mul]

theorem divUnchecked_fail {x : E2 K} (h : x ≠ 0) : divUnchecked x 0 = fail :=
  eq_fail fun a ha => h (by simpa using ((sat_divUnchecked x 0 a).1 ha).symm)

theorem div_eq {y : E2 K} (h : y ≠ 0) (x : E2 K) : div x y = pure (x / y) := by
  rw [div, inverse_eq h, pure_bind, mul_eq, div_eq_mul_inv]

theorem div_zero (x : E2 K) : div x 0 = fail := by
  rw [div, inverse_zero, fail_bind]

theorem inverseLc_eq {x : E2 K} (h : x ≠ 0) : inverseLc x = pure x⁻¹ := by
  have hn : x.A0 * x.A0 + x.A1 * x.A1 ≠ 0 := fun h' => h (E2.norm_eq_zero.1 h')
  rw [inverseLc]
  dsimp only
  rw [fpInverse_ne hn, pure_bind]
  congr 1
  rw [E2.inv_def]
  ext
  · simp [E2.norm]; ring
  · simp [E2.norm]; ring

theorem inverseLc_zero : inverseLc (0 : E2 K) = fail := by
  rw [inverseLc]
  simp only [E2.A0_zero, E2.A1_zero, mul_zero, add_zero]
  rw [fpInverse_zero, fail_bind]

end
end Ext2

namespace Ext6
section
variable [CommRing K]
@[tower] theorem one_eq : (one : E6 K) = 1 := rfl
@[tower] theorem zero_eq : (zero : E6 K) = 0 := rfl
@[tower] theorem add_eq (x y : E6 K) : add x y = x + y := rfl
@[tower] theorem neg_eq (x : E6 K) : neg x = -x := rfl
@[tower] theorem sub_eq (x y : E6 K) : sub x y = x - y := rfl
@[tower] theorem mul_eq (x y : E6 K) : mul x y = x * y := by
  ext1 <;> simp only [mul, tower, E6.B0_mul, E6.B1_mul, E6.B2_mul] <;> ring
@[tower] theorem double_eq (x : E6 K) : double x = 2 * x := by
  rw [two_mul]; ext1 <;> simp only [double, tower, E6.B0_add, E6.B1_add, E6.B2_add] <;> ring
@[tower] theorem square_eq (x : E6 K) : square x = x * x := by
  ext1 <;> simp only [square, tower, E6.B0_mul, E6.B1_mul, E6.B2_mul] <;> ring
@[tower] theorem mulByE2_eq (x : E6 K) (y : E2 K) : mulByE2 x y = x * E6.of y := by
  ext1 <;> simp [mulByE2, tower]
@[tower] theorem mulBy12_eq (x : E6 K) (b1 b2 : E2 K) : mulBy12 x b1 b2 = x * ⟨0, b1, b2⟩ := by
  ext1 <;> simp only [mulBy12, tower, E6.B0_mul, E6.B1_mul, E6.B2_mul] <;> ring
@[tower] theorem mulBy0_eq (x : E6 K) (c0 : E2 K) : mulBy0 x c0 = x * E6.of c0 := by
  ext1 <;> simp only [mulBy0, tower, E6.B0_mul, E6.B1_mul, E6.B2_mul, E6.of] <;> ring
@[tower] theorem mulBy01_eq (x : E6 K) (c0 c1 : E2 K) : mulBy01 x c0 c1 = x * ⟨c0, c1, 0⟩ := by
  ext1 <;> simp only [mulBy01, tower, E6.B0_mul, E6.B1_mul, E6.B2_mul] <;> ring
@[tower] theorem mulByNonResidue_eq (x : E6 K) : mulByNonResidue x = E6.v * x := by
  ext1 <;> simp [mulByNonResidue, tower]
end

section
variable [Field K] [TowerField K] [DecidableEq K]

@[tower] theorem isZero_eq (z : E6 K) : isZero z = pure (bit (decide (z = 0))) := by
  simp only [isZero, tower, pure_bind, apiAnd_bit]
  congr 2
  rw [Bool.eq_iff_iff]
  simp [E6.ext_iff, and_assoc]

@[tower] theorem assertIsEqual_eq (x y : E6 K) : assertIsEqual x y = assert (x = y) := by
  refine ext' ?_ (fun a => ?_)
  · by_cases h0 : x.B0 = y.B0 <;> by_cases h1 : x.B1 = y.B1 <;> by_cases h2 : x.B2 = y.B2 <;>
      simp [assertIsEqual, tower, E6.ext_iff, h0, h1, h2]
  · simp [assertIsEqual, tower, E6.ext_iff]

@[tower] theorem select_eq (b : Bool) (x y : E6 K) :
    select (bit b) x y = pure (if b then x else y) := by
  simp only [select, tower, pure_bind]
  cases b <;> rfl

@[tower] theorem lookup2_eq (s1 s2 : Bool) (a b c d : E6 K) :
    lookup2 (bit s1) (bit s2) a b c d =
      pure (if s2 then (if s1 then d else c) else (if s1 then b else a)) := by
  simp only [lookup2, tower, pure_bind]
  cases s1 <;> cases s2 <;> rfl

theorem sat_inverse (x y : E6 K) : (inverse x).sat y ↔ y * x = 1 := by
  simp only [inverse, tower, sat_bind, sat_hint, sat_assert, sat_pure, true_and]
  exact ⟨by rintro ⟨_, _, h, rfl⟩; exact h.symm, fun h => ⟨y, (), h.symm, rfl⟩⟩

theorem inverse_eq {x : E6 K} (h : x ≠ 0) : inverse x = pure x⁻¹ := by
  refine exact_iff_pure.1 ⟨?_, fun b hb => eq_inv_of_mul_eq_one_left ((sat_inverse x b).1 hb)⟩
  simp [inverse, tower, h]

theorem inverse_zero : inverse (0 : E6 K) = fail :=
  eq_fail fun a h => by simpa using (sat_inverse 0 a).1 h

theorem sat_divUnchecked (x y z : E6 K) : (divUnchecked x y).sat z ↔ z * y = x := by
  simp only [divUnchecked, tower, sat_bind, sat_hint, sat_assert, sat_pure, true_and]
  exact ⟨by rintro ⟨_, _, h, rfl⟩; exact h.symm, fun h => ⟨z, (), h.symm, rfl⟩⟩

theorem divUnchecked_eq {y : E6 K} (h : y ≠ 0) (x : E6 K) : divUnchecked x y = pure (x / y) := by
  refine exact_iff_pure.1 ⟨?_, fun b hb => by rw [eq_div_iff h]; exact (sat_divUnchecked x y b).1 hb⟩
  have : x = y⁻¹ * x * y := by field_simp
  simp only [divUnchecked, tower, run_bind, run_hint, Option.bind_some, run_assert, ← this, if_true,
    run_pure, div_eq_inv_mul]

theorem divUnchecked_fail {x : E6 K} (h : x ≠ 0) : divUnchecked x 0 = fail :=
  eq_fail fun a ha => h (by simpa using ((sat_divUnchecked x 0 a).1 ha).symm)

end
end Ext6

namespace Ext12
section
variable [CommRing K]
@[tower] theorem one_eq : (one : E12 K) = 1 := rfl
@[tower] theorem zero_eq : (zero : E12 K) = 0 := rfl
@[tower] theorem add_eq (x y : E12 K) : add x y = x + y := rfl
@[tower] theorem sub_eq (x y : E12 K) : sub x y = x - y := rfl
@[tower] theorem conjugate_eq (x : E12 K) : conjugate x = E12.conj x := rfl
@[tower] theorem mul_eq (x y : E12 K) : mul x y = x * y := by
  ext1 <;> simp only [mul, tower, E12.C0_mul, E12.C1_mul] <;> ring
@[tower] theorem square_eq (x : E12 K) : square x = x * x := by
  ext1 <;> simp only [square, tower, E12.C0_mul, E12.C1_mul] <;> ring

/-- the sparse element `c0 + c1·v + v·w` -/
def sparse014 (c0 c1 : E2 K) : E12 K := ⟨⟨c0, c1, 0⟩, ⟨0, 1, 0⟩⟩
/-- the sparse element with five coordinates -/
def sparse01245 (x : E2 K × E2 K × E2 K × E2 K × E2 K) : E12 K :=
  ⟨⟨x.1, x.2.1, x.2.2.1⟩, ⟨0, x.2.2.2.1, x.2.2.2.2⟩⟩

@[tower] theorem mulBy014_eq (z : E12 K) (c0 c1 : E2 K) : mulBy014 z c0 c1 = z * sparse014 c0 c1 := by
  ext1 <;> ext1 <;> simp [mulBy014, tower, sparse014] <;> ring

@[tower] theorem mul014By014_eq (d0 d1 c0 c1 : E2 K) :
    sparse01245 (mul014By014 d0 d1 c0 c1) = sparse014 d0 d1 * sparse014 c0 c1 := by
  ext1 <;> ext1 <;> simp [mul014By014, tower, sparse014, sparse01245] <;> ring

@[tower] theorem mulBy01245_eq (z : E12 K) (x : E2 K × E2 K × E2 K × E2 K × E2 K) :
    mulBy01245 z x = z * sparse01245 x := by
  obtain ⟨x0, x1, x2, x3, x4⟩ := x
  ext1 <;> simp only [mulBy01245, tower, E12.C0_mul, E12.C1_mul, sparse01245] <;> ext1 <;>
    simp <;> ring
end

section
variable [Field K] [TowerField K] [DecidableEq K]

@[tower] theorem isZero_eq (z : E12 K) : isZero z = pure (bit (decide (z = 0))) := by
  simp only [isZero, tower, pure_bind, apiAnd_bit]
  congr 2
  rw [Bool.eq_iff_iff]
  simp [E12.ext_iff]

@[tower] theorem assertIsEqual_eq (x y : E12 K) : assertIsEqual x y = assert (x = y) := by
  refine ext' ?_ (fun a => ?_)
  · by_cases h0 : x.C0 = y.C0 <;> by_cases h1 : x.C1 = y.C1 <;>
      simp [assertIsEqual, tower, E12.ext_iff, h0, h1]
  · simp [assertIsEqual, tower, E12.ext_iff]

@[tower] theorem select_eq (b : Bool) (x y : E12 K) :
    select (bit b) x y = pure (if b then x else y) := by
  simp only [select, tower, pure_bind]
  cases b <;> rfl

@[tower] theorem lookup2_eq (s1 s2 : Bool) (a b c d : E12 K) :
    lookup2 (bit s1) (bit s2) a b c d =
      pure (if s2 then (if s1 then d else c) else (if s1 then b else a)) := by
  simp only [lookup2, tower, pure_bind]
  cases s1 <;> cases s2 <;> rfl

theorem sat_inverse (x y : E12 K) : (inverse x).sat y ↔ y * x = 1 := by
  simp only [inverse, tower, sat_bind, sat_hint, sat_assert, sat_pure, true_and]
  exact ⟨by rintro ⟨_, _, h, rfl⟩; exact h.symm, fun h => ⟨y, (), h.symm, rfl⟩⟩

theorem inverse_eq {x : E12 K} (h : x ≠ 0) : inverse x = pure x⁻¹ := by
  refine exact_iff_pure.1 ⟨?_, fun b hb => eq_inv_of_mul_eq_one_left ((sat_inverse x b).1 hb)⟩
  simp [inverse, tower, h]

theorem inverse_zero : inverse (0 : E12 K) = fail :=
  eq_fail fun a h => by simpa using (sat_inverse 0 a).1 h

theorem sat_divUnchecked (x y z : E12 K) : (divUnchecked x y).sat z ↔ z * y = x := by
  simp only [divUnchecked, tower, sat_bind, sat_hint, sat_assert, sat_pure, true_and]
  exact ⟨by rintro ⟨_, _, h, rfl⟩; exact h.symm, fun h => ⟨z, (), h.symm, rfl⟩⟩

theorem divUnchecked_eq {y : E12 K} (h : y ≠ 0) (x : E12 K) : divUnchecked x y = pure (x / y) := by
  refine exact_iff_pure.1 ⟨?_, fun b hb => by rw [eq_div_iff h]; exact (sat_divUnchecked x y b).1 hb⟩
  have : x = y⁻¹ * x * y := by field_simp
  simp only [divUnchecked, tower, run_bind, run_hint, Option.bind_some, run_assert, ← this, if_true,
    run_pure, div_eq_inv_mul]

theorem divUnchecked_fail {x : E12 K} (h : x ≠ 0) : divUnchecked x 0 = fail :=
  eq_fail fun a ha => h (by simpa using ((sat_divUnchecked x 0 a).1 ha).symm)

end
end Ext12
end Spark
