import Verif.Model.HashG2
import Verif.Lemmas.Reduce
import Verif.Lemmas.Tower
import Mathlib.Data.Nat.Digits.Lemmas

/-! `E2Exp` is exponentiation; `g2Sgn0` is the parity of the representative of the real part. -/

namespace Spark.G2

open Circ

set_option exponentiation.threshold 400

theorem byte_bits : ∀ w < 256,
    128 * (if w &&& 128 ≠ 0 then 1 else 0) + 64 * (if w &&& 64 ≠ 0 then 1 else 0)
      + 32 * (if w &&& 32 ≠ 0 then 1 else 0) + 16 * (if w &&& 16 ≠ 0 then 1 else 0)
      + 8 * (if w &&& 8 ≠ 0 then 1 else 0) + 4 * (if w &&& 4 ≠ 0 then 1 else 0)
      + 2 * (if w &&& 2 ≠ 0 then 1 else 0) + (if w &&& 1 ≠ 0 then 1 else 0) = w := by
  decide +kernel

theorem bit_step (x : E2 Fp) (m : ℕ) (c : Prop) [Decidable c] :
    (if c then Ext2.mul (Ext2.square (x ^ m)) x else Ext2.square (x ^ m)) =
      x ^ (2 * m + if c then 1 else 0) := by
  simp only [tower]
  split <;> ring

theorem expByte (x : E2 Fp) (m w : ℕ) (hw : w < 256) :
    ((List.range 8).foldl (fun res j =>
      let res := Ext2.square res
      if w &&& (0b10000000 >>> j) ≠ 0 then Ext2.mul res x else res) (x ^ m)) = x ^ (256 * m + w) := by
  have h : List.range 8 = [0, 1, 2, 3, 4, 5, 6, 7] := rfl
  rw [h]
  simp only [List.foldl_cons, List.foldl_nil, bit_step]
  congr 1
  have := byte_bits w hw
  simp only [show 128 >>> 0 = 128 from rfl, show 128 >>> 1 = 64 from rfl, show 128 >>> 2 = 32 from rfl,
    show 128 >>> 3 = 16 from rfl, show 128 >>> 4 = 8 from rfl, show 128 >>> 5 = 4 from rfl,
    show 128 >>> 6 = 2 from rfl, show 128 >>> 7 = 1 from rfl]
  omega

theorem expLoop_eq (x : E2 Fp) (b : List ℕ) (hb : ∀ w ∈ b, w < 256) (m : ℕ) :
    expLoop x b (x ^ m) = x ^ (b.foldl (fun acc w => 256 * acc + w) m) := by
  induction b generalizing m with
  | nil => rfl
  | cons w b ih =>
    rw [expLoop, List.foldl_cons, expByte x m w (hb w List.mem_cons_self), List.foldl_cons]
    exact ih (fun w hw => hb w (List.mem_cons_of_mem _ hw)) _

theorem bigBytes_val (k : ℤ) : (bigBytes k).foldl (fun acc w => 256 * acc + w) 0 = k.natAbs := by
  rw [bigBytes, List.foldl_reverse]
  conv_rhs => rw [← Nat.ofDigits_digits 256 k.natAbs]
  generalize Nat.digits 256 k.natAbs = l
  induction l with
  | nil => rfl
  | cons a l ih => rw [List.foldr_cons, ih, Nat.ofDigits_cons]; ring

theorem bigBytes_lt (k : ℤ) : ∀ w ∈ bigBytes k, w < 256 := by
  intro w hw
  rw [bigBytes, List.mem_reverse] at hw
  exact Nat.digits_lt_base (by norm_num) hw

theorem expLoop_bytes (x : E2 Fp) (k : ℤ) : expLoop x (bigBytes k) 1 = x ^ k.natAbs := by
  have := expLoop_eq x (bigBytes k) (bigBytes_lt k) 0
  rwa [pow_zero, bigBytes_val] at this

theorem e2Exp_nat (x : E2 Fp) (n : ℕ) : e2Exp x (n : ℤ) = pure (x ^ n, (n : ℤ)) := by
  rw [e2Exp]
  by_cases h : n = 0
  · subst h; simp [tower]
  · rw [if_neg (by omega), if_neg (by omega)]
    simp only [tower, expLoop_bytes, Int.natAbs_natCast]

theorem e2Exp_neg {x : E2 Fp} (hx : x ≠ 0) {k : ℤ} (hk : k < 0) :
    e2Exp x k = pure (x ^ k, -k) := by
  rw [e2Exp]
  rw [if_neg (by omega), if_pos hk, Ext2.inverse_eq hx, pure_bind, Ext2.one_eq, expLoop_bytes]
  congr 2
  obtain ⟨n, rfl⟩ := Int.exists_eq_neg_ofNat hk.le
  rw [neg_neg, Int.natAbs_natCast, zpow_neg, zpow_natCast, inv_pow]

theorem e2Exp_neg_zero {k : ℤ} (hk : k < 0) : e2Exp 0 k = fail := by
  rw [e2Exp]
  rw [if_neg (by omega), if_pos hk, Ext2.inverse_zero, fail_bind]

/-! ### `g2Sgn0` -/

theorem toBits_head (v : ℕ) : (toBits v).headD 0 = bit (v.testBit 0) := by
  rw [toBits, bitsOf_toList]
  rfl

theorem foldlM_last (b0 : Bool) (l : List Bool) (b c : Bool) :
    ((l ++ [b]).map bit).foldlM (fun _ b => apiOr (bit b0) b) (bit c) = pure (bit (b0 || b)) := by
  induction l generalizing c with
  | nil => simp
  | cons d l ih =>
    rw [List.cons_append, List.map_cons, List.foldlM_cons, apiOr_bit, pure_bind, ih]

/-- the loop `zeroI = api.Or(signI, b)` keeps only its last iteration -/
theorem sgn0_loop {v : ℕ} (h : v < 2 ^ 381) :
    (toBits v).foldlM (fun _ b => apiOr (bit (v.testBit 0)) b) 0 = pure (bit (v.testBit 0)) := by
  have hl : (List.range 384).map (fun i => v.testBit i) =
      (List.range 383).map (fun i => v.testBit i) ++ [false] := by
    rw [show 384 = 383 + 1 from rfl, List.range_succ, List.map_append]
    congr 1
    have : v.testBit 383 = false :=
      Nat.testBit_lt_two_pow (lt_of_lt_of_le h (Nat.pow_le_pow_right (by norm_num) (by norm_num)))
    rw [List.map_singleton, this]
  rw [toBits, bitsOf_toList, hl]
  have := foldlM_last (v.testBit 0) ((List.range 383).map fun i => v.testBit i) false false
  rwa [Bool.or_false] at this

theorem g2Sgn0_eq (u : E2 Fp) :
    g2Sgn0 u = (fpReduce u.A0 >>= fun v => fpReduce u.A1 >>= fun _ => pure (bit (v.testBit 0))) := by
  rw [g2Sgn0]
  refine fpReduce_bind_congr fun v hv _ => fpReduce_bind_congr fun w hw _ => ?_
  dsimp only
  rw [toBits_head, sgn0_loop hv, toBits_head]
  simp only [pure_bind]
  rw [show (1 : Fr) = bit true from rfl, apiAnd_bit, pure_bind, show (0 : Fr) = bit false from rfl,
    apiOr_bit, pure_bind, pure_bind, apiAnd_bit, pure_bind, apiOr_bit]
  cases v.testBit 0 <;> cases w.testBit 0 <;> rfl

theorem g2Sgn0_run (u : E2 Fp) : (g2Sgn0 u).run = some (bit (u.A0.val.testBit 0)) := by
  rw [g2Sgn0_eq, run_bind, fpReduce_run, Option.bind_some, run_bind, fpReduce_run, Option.bind_some,
    run_pure]

theorem g2Sgn0_sat (u : E2 Fp) (b : Fr) :
    (g2Sgn0 u).sat b ↔ ∃ v : ℕ, v < 2 ^ 381 ∧ (v : Fp) = u.A0 ∧ b = bit (v.testBit 0) := by
  rw [g2Sgn0_eq]
  simp only [sat_bind, fpReduce_sat, sat_pure]
  constructor
  · rintro ⟨v, ⟨h1, h2⟩, w, -, h⟩; exact ⟨v, h1, h2, h⟩
  · rintro ⟨v, h1, h2, h⟩
    exact ⟨v, ⟨h1, h2⟩, u.A1.val, (fpReduce_sat _ _).1 ((fpReduce u.A1).ok _ (fpReduce_run _)), h⟩

end Spark.G2
