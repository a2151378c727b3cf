import Verif.Lemmas.PoseidonCheck

/-! Kernel evaluation of the Grain LFSR of the specification: the sequence is produced in blocks of
`18·2^k` terms (squaring the feedback polynomial), shrunk six pairs at a time with a table. -/

namespace Spark.Poseidon

open PosSpec

/-! ### the sequence -/

theorem lfsr_rec (t rp i : ℕ) : lfsr t rp (i + 80) =
    (lfsr t rp i ^^ lfsr t rp (i + 13) ^^ lfsr t rp (i + 23) ^^ lfsr t rp (i + 38) ^^
      lfsr t rp (i + 51) ^^ lfsr t rp (i + 62)) := by
  rw [lfsr, dif_neg (by omega)]
  simp only [Nat.add_sub_cancel]

/-- `b (i + 80K) = b i ⊕ b (i + 13K) ⊕ …` -/
def Feedback (b : ℕ → Bool) (K : ℕ) : Prop := ∀ i, b (i + 80 * K) =
  (b i ^^ b (i + 13 * K) ^^ b (i + 23 * K) ^^ b (i + 38 * K) ^^ b (i + 51 * K) ^^ b (i + 62 * K))

/-- bits modulo 2 -/
def z2 (b : Bool) : ZMod 2 := if b then 1 else 0
theorem z2_xor (a b : Bool) : z2 (a ^^ b) = z2 a + z2 b := by revert a b; decide
theorem z2_inj {a b : Bool} (h : z2 a = z2 b) : a = b := by revert a b; decide

theorem Feedback.double {b : ℕ → Bool} {K : ℕ} (h : Feedback b K) : Feedback b (2 * K) := by
  intro i
  have e : i + 80 * (2 * K) = (i + 80 * K) + 80 * K := by ring
  rw [e, h (i + 80 * K), show i + 80 * K + 13 * K = (i + 13 * K) + 80 * K by ring,
    show i + 80 * K + 23 * K = (i + 23 * K) + 80 * K by ring,
    show i + 80 * K + 38 * K = (i + 38 * K) + 80 * K by ring,
    show i + 80 * K + 51 * K = (i + 51 * K) + 80 * K by ring,
    show i + 80 * K + 62 * K = (i + 62 * K) + 80 * K by ring,
    h i, h (i + 13 * K), h (i + 23 * K), h (i + 38 * K), h (i + 51 * K), h (i + 62 * K)]
  simp only [add_assoc, ← add_mul, ← mul_assoc, Nat.reduceAdd, Nat.reduceMul]
  generalize b i = x0
  generalize b (i + 13 * K) = x13
  generalize b (i + 23 * K) = x23
  generalize b (i + 38 * K) = x38
  generalize b (i + 51 * K) = x51
  generalize b (i + 62 * K) = x62
  generalize b (i + 26 * K) = x26
  generalize b (i + 36 * K) = x36
  generalize b (i + 64 * K) = x64
  generalize b (i + 75 * K) = x75
  generalize b (i + 46 * K) = x46
  generalize b (i + 61 * K) = x61
  generalize b (i + 74 * K) = x74
  generalize b (i + 85 * K) = x85
  generalize b (i + 76 * K) = x76
  generalize b (i + 89 * K) = x89
  generalize b (i + 100 * K) = x100
  generalize b (i + 102 * K) = x102
  generalize b (i + 113 * K) = x113
  generalize b (i + 124 * K) = x124
  apply z2_inj
  simp only [z2_xor]
  have h2 : (2 : ZMod 2) = 0 := rfl
  linear_combination (z2 x13 + z2 x23 + z2 x38 + z2 x51 + z2 x62 + z2 x36 + z2 x51 + z2 x64 + z2 x75 + z2 x61 + z2 x74 + z2 x85 + z2 x89 + z2 x100 + z2 x113) * h2

theorem lfsr_feedback (t rp k : ℕ) : Feedback (lfsr t rp) (2 ^ k) := by
  induction k with
  | zero =>
    intro i
    simpa using lfsr_rec t rp i
  | succ k ih => rw [pow_succ']; exact ih.double

noncomputable section

/-- the next `18K` terms -/
def gNew (K off s : ℕ) : ℕ :=
  Nat.mod (Nat.xor (Nat.shiftRight s off) (Nat.xor (Nat.shiftRight s (Nat.add off (Nat.mul 13 K)))
    (Nat.xor (Nat.shiftRight s (Nat.add off (Nat.mul 23 K)))
      (Nat.xor (Nat.shiftRight s (Nat.add off (Nat.mul 38 K)))
        (Nat.xor (Nat.shiftRight s (Nat.add off (Nat.mul 51 K)))
          (Nat.shiftRight s (Nat.add off (Nat.mul 62 K))))))))
    (Nat.pow 2 (Nat.mul 18 K))

/-- append them -/
def gStep (K off s : ℕ) : ℕ := Nat.lor s (Nat.shiftLeft (gNew K off s) (Nat.add off (Nat.mul 80 K)))

/-- from `80K` to `160K` terms -/
def gDbl (K s : ℕ) : ℕ :=
  force (gStep K 0 s) fun s => force (gStep K (Nat.mul 18 K) s) fun s =>
    force (gStep K (Nat.mul 36 K) s) fun s => force (gStep K (Nat.mul 54 K) s) fun s =>
      force (gStep K (Nat.mul 72 K) s) fun s => Nat.mod s (Nat.pow 2 (Nat.mul 160 K))

/-- bits, least significant first -/
def ofBits (l : List Bool) : ℕ :=
  List.rec 0 (fun b _ ih => Bool.rec (Nat.mul 2 ih) (Nat.succ (Nat.mul 2 ih)) b) l

/-- the first `80·2^k` terms -/
def gBits (t rp k : ℕ) : ℕ :=
  Nat.rec (ofBits (initState t rp)) (fun k s => force s fun s => gDbl (Nat.pow 2 k) s) k

end

/-- `s` holds the first `n` terms of `b` -/
def Holds (b : ℕ → Bool) (n s : ℕ) : Prop := ∀ i, s.testBit i = (decide (i < n) && b i)

theorem gStep_holds {b : ℕ → Bool} {K off s : ℕ} (hb : Feedback b K) (h : Holds b (off + 80 * K) s) :
    Holds b (off + 98 * K) (gStep K off s) := by
  intro i
  have e : gStep K off s = s ||| (((s >>> off) ^^^ ((s >>> (off + 13 * K)) ^^^ ((s >>> (off + 23 * K)) ^^^
    ((s >>> (off + 38 * K)) ^^^ ((s >>> (off + 51 * K)) ^^^ (s >>> (off + 62 * K))))))) % 2 ^ (18 * K))
      <<< (off + 80 * K) := rfl
  rw [e, Nat.testBit_or, Nat.testBit_shiftLeft, Nat.testBit_mod_two_pow]
  simp only [Nat.testBit_xor, Nat.testBit_shiftRight]
  by_cases h1 : i < off + 80 * K
  · rw [h i]
    simp [h1, show ¬ (off + 80 * K ≤ i) by omega, show i < off + 98 * K by omega]
  · rw [h i]
    by_cases h2 : i < off + 98 * K
    · obtain ⟨j, rfl⟩ : ∃ j, i = (off + j) + 80 * K := ⟨i - off - 80 * K, by omega⟩
      have hj : j < 18 * K := by omega
      rw [show off + j + 80 * K - (off + 80 * K) = j by omega, h, h, h, h, h, h, hb (off + j)]
      simp only [show off + j < off + 80 * K by omega, show off + 13 * K + j < off + 80 * K by omega,
        show off + 23 * K + j < off + 80 * K by omega, show off + 38 * K + j < off + 80 * K by omega,
        show off + 51 * K + j < off + 80 * K by omega, show off + 62 * K + j < off + 80 * K by omega,
        hj, h1, h2, decide_true, decide_false, Bool.true_and, Bool.false_and, Bool.false_or,
        show off + 80 * K ≤ off + j + 80 * K by omega]
      rw [show off + 13 * K + j = off + j + 13 * K by omega, show off + 23 * K + j = off + j + 23 * K by omega,
        show off + 38 * K + j = off + j + 38 * K by omega, show off + 51 * K + j = off + j + 51 * K by omega,
        show off + 62 * K + j = off + j + 62 * K by omega]
      simp only [Bool.xor_assoc]
    · simp [h1, h2, show ¬ (i - (off + 80 * K) < 18 * K) by omega]

theorem gDbl_holds {b : ℕ → Bool} {K s : ℕ} (hb : Feedback b K) (h : Holds b (80 * K) s) :
    Holds b (160 * K) (gDbl K s) := by
  rw [gDbl, force_eq, force_eq, force_eq, force_eq, force_eq]
  have h1 := gStep_holds (off := 0) hb (by simpa using h)
  have h2 := gStep_holds (off := 18 * K) hb (by convert h1 using 1; ring)
  have h3 := gStep_holds (off := 36 * K) hb (by convert h2 using 1; ring)
  have h4 := gStep_holds (off := 54 * K) hb (by convert h3 using 1; ring)
  have h5 := gStep_holds (off := 72 * K) hb (by convert h4 using 1; ring)
  intro i
  change Nat.testBit (_ % 2 ^ (160 * K)) i = _
  rw [Nat.testBit_mod_two_pow]
  by_cases hi : i < 160 * K
  · have := h5 i
    rw [show decide (i < 72 * K + 98 * K) = true by simp; omega] at this
    simp only [hi, decide_true, Bool.true_and] at this ⊢
    exact this
  · simp [hi]

theorem ofBits_testBit (l : List Bool) (i : ℕ) : (ofBits l).testBit i = l.getD i false := by
  induction l generalizing i with
  | nil => simp [ofBits]
  | cons a l ih =>
    have e : ofBits (a :: l) = 2 * ofBits l + a.toNat := by cases a <;> rfl
    rw [e]
    cases i with
    | zero => cases a <;> simp [Nat.testBit_zero, Nat.add_mod]
    | succ i =>
      rw [Nat.testBit_succ, show (2 * ofBits l + a.toNat) / 2 = ofBits l by cases a <;> simp <;> omega, ih]
      simp

theorem initState_length (t rp : ℕ) : (initState t rp).length = 80 := by
  simp [initState, beBits]

theorem gBits_holds (t rp k : ℕ) : Holds (lfsr t rp) (80 * 2 ^ k) (gBits t rp k) := by
  induction k with
  | zero =>
    intro i
    change (ofBits (initState t rp)).testBit i = _
    rw [ofBits_testBit]
    by_cases hi : i < 80
    · rw [lfsr, dif_pos hi]; simp [hi]
    · rw [List.getD_eq_default _ _ (by rw [initState_length]; omega)]
      simp [hi]
  | succ k ih =>
    have e : gBits t rp (k + 1) = force (gBits t rp k) fun s => gDbl (Nat.pow 2 k) s := rfl
    rw [e, force_eq]
    have := gDbl_holds (lfsr_feedback t rp k) ih
    rwa [show 80 * 2 ^ (k + 1) = 160 * 2 ^ k by ring]

/-! ### shrinking -/

/-- the shrunk bits of the first `m` pairs of `s` -/
def outS (s m : ℕ) : List Bool :=
  (List.range m).filterMap fun k => if s.testBit (2 * k) then some (s.testBit (2 * k + 1)) else none

theorem outS_add (s a b : ℕ) : outS s (a + b) = outS s a ++ outS (s >>> (2 * a)) b := by
  rw [outS, List.range_add, List.filterMap_append, List.filterMap_map]
  congr 1
  refine List.filterMap_congr fun k _ => ?_
  simp only [Function.comp, Nat.testBit_shiftRight]
  rw [show 2 * (a + k) = 2 * a + 2 * k by ring, show 2 * a + (2 * k + 1) = 2 * a + 2 * k + 1 by ring]

theorem outS_mod (s m w : ℕ) (h : 2 * m ≤ w) : outS (s % 2 ^ w) m = outS s m := by
  refine List.filterMap_congr fun k hk => ?_
  have := List.mem_range.1 hk
  rw [Nat.testBit_mod_two_pow, Nat.testBit_mod_two_pow]
  simp [show 2 * k < w by omega, show 2 * k + 1 < w by omega]

theorem beNat_foldl (l : List Bool) (a : ℕ) :
    l.foldl (fun a b => 2 * a + b.toNat) a = a * 2 ^ l.length + beNat l := by
  induction l generalizing a with
  | nil => simp [beNat]
  | cons b l ih =>
    rw [beNat, List.foldl_cons, List.foldl_cons, ih, ih, List.length_cons, pow_succ]
    ring

theorem beNat_append (a b : List Bool) : beNat (a ++ b) = beNat a * 2 ^ b.length + beNat b := by
  rw [beNat, List.foldl_append, beNat_foldl]; rfl

theorem beNat_lt (l : List Bool) : beNat l < 2 ^ l.length := by
  induction l with
  | nil => simp [beNat]
  | cons b l ih =>
    rw [beNat, List.foldl_cons, beNat_foldl, List.length_cons, pow_succ]
    cases b <;> simp <;> omega

noncomputable section

/-- one pair after the other; result `16·value + count` -/
def sh1 (m : ℕ) : ℕ → ℕ → ℕ → ℕ :=
  Nat.rec (fun _ v c => Nat.add (Nat.mul v 16) c)
    (fun _ ih s v c => Bool.rec (ih (Nat.div s 4) v c)
      (ih (Nat.div s 4) (Nat.add (Nat.mul 2 v) (Nat.mod (Nat.div s 2) 2)) (Nat.succ c))
      (Nat.beq (Nat.mod s 2) 1)) m

/-- packing, `w` bits per entry -/
def packW (f : ℕ → ℕ) (w n : ℕ) : ℕ :=
  Nat.rec 0 (fun i acc => Nat.add acc (Nat.shiftLeft (f i) (Nat.mul w i))) n

/-- table for six pairs, 12 bits per entry -/
def shTab : ℕ := packW (fun i => sh1 6 i 0 0) 12 4096

/-- table access -/
def look (T i : ℕ) : ℕ := Nat.mod (Nat.shiftRight T (Nat.mul 12 i)) 4096

/-- six pairs after the other; result `2^24·value + count` -/
def shSeq (T m : ℕ) : ℕ → ℕ → ℕ → ℕ :=
  Nat.rec (fun _ v c => Nat.add (Nat.mul v 16777216) c)
    (fun _ ih s v c => ih (Nat.shiftRight s 12)
      (Nat.add (Nat.shiftLeft v (Nat.mod (look T (Nat.mod s 4096)) 16)) (Nat.div (look T (Nat.mod s 4096)) 16))
      (Nat.add c (Nat.mod (look T (Nat.mod s 4096)) 16))) m

/-- `m` segments of 6000 pairs -/
def segLoop (T : ℕ) (K : ℕ → ℕ → Bool) (m : ℕ) : ℕ → ℕ → ℕ → Bool :=
  Nat.rec (fun _ V C => K V C)
    (fun _ ih s V C => force (shSeq T 1000 (Nat.mod s (Nat.pow 2 12000)) 0 0) fun e =>
      force (Nat.add (Nat.shiftLeft V (Nat.mod e 16777216)) (Nat.div e 16777216)) fun V' =>
        force (Nat.add C (Nat.mod e 16777216)) fun C' =>
          force (Nat.shiftRight s 12000) fun s' => ih s' V' C') m

end

theorem outS_succ (s m : ℕ) :
    outS s (m + 1) = (if s.testBit 0 then [s.testBit 1] else []) ++ outS (s / 4) m := by
  rw [add_comm m 1, outS_add]
  congr 1
  · simp only [outS, List.range_one, List.filterMap_cons, List.filterMap_nil]
    cases s.testBit 0 <;> rfl
  · rw [Nat.shiftRight_eq_div_pow]

theorem sh1_eq (m s v c : ℕ) : sh1 m s v c =
    (v * 2 ^ (outS s m).length + beNat (outS s m)) * 16 + (c + (outS s m).length) := by
  induction m generalizing s v c with
  | zero => simp [sh1, outS, beNat]
  | succ m ih =>
    have e : sh1 (m + 1) s v c = Bool.rec (sh1 m (s / 4) v c)
      (sh1 m (s / 4) (2 * v + s / 2 % 2) (c + 1)) (Nat.beq (s % 2) 1) := rfl
    rw [e, outS_succ, List.length_append, beNat_append]
    have hb : Nat.beq (s % 2) 1 = s.testBit 0 := by
      rw [Nat.testBit_zero]
      rcases Nat.mod_two_eq_zero_or_one s with h | h <;> rw [h] <;> rfl
    rw [hb]
    rcases h : s.testBit 0 with _ | _
    · simp [ih, beNat]
    · have h2 : s / 2 % 2 = (s.testBit 1).toNat := by
        rw [Nat.testBit_succ, Nat.testBit_zero]
        rcases Nat.mod_two_eq_zero_or_one (s / 2) with h | h <;> simp [h]
      simp only [ih, h2, if_true, List.length_singleton, beNat, List.foldl_cons, List.foldl_nil]
      rw [pow_add]
      ring

theorem outS_length_le (s m : ℕ) : (outS s m).length ≤ m := by
  have := List.length_filterMap_le (fun k => if s.testBit (2 * k) then some (s.testBit (2 * k + 1)) else none)
    (List.range m)
  simpa [outS] using this

theorem slot_eq (f : ℕ → ℕ) (w n : ℕ) (hf : ∀ i < n, f i < 2 ^ w) :
    packW f w n < 2 ^ (w * n) ∧ ∀ i < n, (packW f w n >>> (w * i)) % 2 ^ w = f i := by
  induction n with
  | zero => simp [packW]
  | succ n ih =>
    obtain ⟨h1, h2⟩ := ih fun i hi => hf i (by omega)
    rw [show packW f w (n + 1) = packW f w n + f n <<< (w * n) from rfl]
    generalize packW f w n = A at *
    rw [Nat.shiftLeft_eq]
    constructor
    · have h3 := Nat.mul_le_mul_right (2 ^ (w * n)) (Nat.succ_le_of_lt (hf n (by omega)))
      rw [Nat.succ_mul] at h3
      rw [Nat.mul_succ, pow_add, mul_comm (2 ^ (w * n))]
      exact lt_of_lt_of_le (by omega) h3
    · intro i hi
      rw [Nat.shiftRight_eq_div_pow]
      rcases Nat.lt_succ_iff_lt_or_eq.1 hi with h3 | rfl
      · have ih' := h2 i h3
        rw [Nat.shiftRight_eq_div_pow] at ih'
        obtain ⟨m, rfl⟩ : ∃ m, n = i + 1 + m := ⟨n - i - 1, by omega⟩
        rw [show w * (i + 1 + m) = w * i + (w + w * m) by ring, pow_add, pow_add,
          show f (i + 1 + m) * (2 ^ (w * i) * (2 ^ w * 2 ^ (w * m))) =
            2 ^ (w * i) * (2 ^ w * (f (i + 1 + m) * 2 ^ (w * m))) by ring,
          Nat.add_mul_div_left _ _ (by positivity), Nat.add_mul_mod_self_left]
        exact ih'
      · rw [Nat.add_mul_div_right _ _ (by positivity), Nat.div_eq_of_lt h1, zero_add,
          Nat.mod_eq_of_lt (hf i hi)]

theorem look_eq (s : ℕ) : look shTab (s % 4096) =
    beNat (outS s 6) * 16 + (outS s 6).length := by
  have h6 : ∀ i, sh1 6 i 0 0 < 2 ^ 12 := by
    intro i
    rw [sh1_eq]
    have h1 := beNat_lt (outS i 6)
    have h2 := outS_length_le i 6
    have h3 : 2 ^ (outS i 6).length ≤ 2 ^ 6 := Nat.pow_le_pow_right (by omega) h2
    norm_num at h3 ⊢
    omega
  have := (slot_eq (fun i => sh1 6 i 0 0) 12 4096 (fun i _ => h6 i)).2 (s % 4096) (Nat.mod_lt _ (by omega))
  have e : look shTab (s % 4096) = (shTab >>> (12 * (s % 4096))) % 2 ^ 12 := rfl
  rw [e, shTab, this, sh1_eq]
  rw [show (4096 : ℕ) = 2 ^ 12 by norm_num, outS_mod _ _ _ (by omega)]
  ring

theorem shSeq_eq (m s v c : ℕ) : shSeq shTab m s v c =
    (v * 2 ^ (outS s (6 * m)).length + beNat (outS s (6 * m))) * 16777216 + (c + (outS s (6 * m)).length) := by
  induction m generalizing s v c with
  | zero => simp [shSeq, outS, beNat]
  | succ m ih =>
    have e : shSeq shTab (m + 1) s v c = shSeq shTab m (s >>> 12)
      (v <<< (look shTab (s % 4096) % 16) + look shTab (s % 4096) / 16) (c + look shTab (s % 4096) % 16) := rfl
    have hl := outS_length_le s 6
    rw [e, look_eq, ih, show (beNat (outS s 6) * 16 + (outS s 6).length) % 16 = (outS s 6).length by omega,
      show (beNat (outS s 6) * 16 + (outS s 6).length) / 16 = beNat (outS s 6) by omega,
      show 6 * (m + 1) = 6 + 6 * m by ring, outS_add, List.length_append, beNat_append, Nat.shiftLeft_eq, pow_add]
    ring

theorem segLoop_eq (K : ℕ → ℕ → Bool) (m s : ℕ) (l : List Bool) :
    segLoop shTab K m s (beNat l) l.length =
      K (beNat (l ++ outS s (6000 * m))) (l ++ outS s (6000 * m)).length := by
  induction m generalizing s l with
  | zero =>
    simp [outS]
    rfl
  | succ m ih =>
    have e : segLoop shTab K (m + 1) s (beNat l) l.length =
      force (shSeq shTab 1000 (s % 2 ^ 12000) 0 0) fun e =>
      force (beNat l <<< (e % 16777216) + e / 16777216) fun V' =>
        force (l.length + e % 16777216) fun C' =>
          force (s >>> 12000) fun s' => segLoop shTab K m s' V' C' := rfl
    have hl := outS_length_le s 6000
    rw [e, force_eq, force_eq, force_eq, force_eq, shSeq_eq, show 6 * 1000 = 6000 by norm_num,
      outS_mod _ _ _ (by omega)]
    generalize hA : outS s 6000 = A at *
    rw [show ((0 * 2 ^ A.length + beNat A) * 16777216 + (0 + A.length)) % 16777216 = A.length by omega,
      show ((0 * 2 ^ A.length + beNat A) * 16777216 + (0 + A.length)) / 16777216 = beNat A by omega,
      Nat.shiftLeft_eq, ← beNat_append, ← List.length_append, ih,
      show 6000 * (m + 1) = 6000 + 6000 * m by ring, outS_add, hA, List.append_assoc]

/-! ### blocks -/

theorem blk_eq (l : List Bool) (j : ℕ) (h : 254 * (j + 1) ≤ l.length) :
    beNat ((l.drop (254 * j)).take 254) = (beNat l >>> (l.length - 254 * (j + 1))) % 2 ^ 254 := by
  have e : l = l.take (254 * j) ++ ((l.drop (254 * j)).take 254 ++ l.drop (254 * j + 254)) := by
    rw [← List.drop_drop, List.take_append_drop, List.take_append_drop]
  have h1 : ((l.drop (254 * j)).take 254).length = 254 := by
    rw [List.length_take, List.length_drop]; omega
  have h2 : (l.drop (254 * j + 254)).length = l.length - 254 * (j + 1) := by
    rw [List.length_drop]; omega
  have e2 : beNat l = (beNat (l.take (254 * j)) * 2 ^ 254 + beNat ((l.drop (254 * j)).take 254)) *
      2 ^ (l.length - 254 * (j + 1)) + beNat (l.drop (254 * j + 254)) := by
    conv_lhs => rw [e, beNat_append, beNat_append, List.length_append, h1, h2, pow_add]
    ring
  have h3 := beNat_lt (l.drop (254 * j + 254))
  rw [h2] at h3
  have h4 := beNat_lt ((l.drop (254 * j)).take 254)
  rw [h1] at h4
  rw [e2, Nat.shiftRight_eq_div_pow, add_comm (_ * 2 ^ (l.length - 254 * (j + 1))),
    Nat.add_mul_div_right _ _ (by positivity), Nat.div_eq_of_lt h3, zero_add, Nat.add_comm,
    Nat.add_mul_mod_self_right, Nat.mod_eq_of_lt h4]

noncomputable section

/-- block `j` of the string with value `V` and length `C` -/
def blkN (V C j : ℕ) : ℕ := Nat.mod (Nat.shiftRight V (Nat.sub C (Nat.mul 254 (Nat.succ j)))) (Nat.pow 2 254)

/-- rejection sampling against an expected list, reading `fuel` blocks from block `j` on -/
def accLoop (V C fuel : ℕ) : ℕ → List ℕ → Bool :=
  Nat.rec (fun _ E => List.rec true (fun _ _ _ => false) E)
    (fun _ ih j E => List.rec false (fun e E' _ => force (blkN V C j) fun b =>
      Bool.rec (ih (Nat.succ j) (e :: E')) (andB (Nat.beq b e) (ih (Nat.succ j) E')) (Nat.blt b frOrder)) E) fuel

/-- the whole generator for width `t`: `80·2^k` terms, `6000·m` pairs, `nrc` blocks for the constants -/
def grainChk (t rp k m nrc : ℕ) (rows : List ℕ) (xy : ℕ) : Bool :=
  andB (Nat.ble (Nat.add 240 (Nat.mul 12000 m)) (Nat.mul 80 (Nat.pow 2 k)))
    (andB (Nat.beq rows.length (Nat.add 8 rp))
      (force (gBits t rp k) fun s => force shTab fun T =>
        segLoop T (fun V C => andB (Nat.ble (Nat.mul 254 (Nat.add nrc (Nat.mul 2 t))) C)
          (andB (accLoop V C nrc 0 (rows.flatMap (unpack t)))
            (allN (Nat.mul 2 t) fun i => Nat.beq (blkN V C (Nat.add nrc i)) (ent xy i))))
          m (Nat.shiftRight s 240) 0 0))

end

theorem blocks_getElem (l : List Bool) (j : ℕ) (h : 254 * (j + 1) ≤ l.length) :
    (blocks l)[j]? = some (blkN (beNat l) l.length j) := by
  have hj : j < l.length / 254 := by
    rw [Nat.lt_div_iff_mul_lt (by omega)]; omega
  rw [blocks, List.getElem?_map, List.getElem?_range hj]
  simp only [Option.map_some]
  rw [blk_eq l j h]; rfl

theorem accLoop_spec (l : List Bool) (fuel j : ℕ) (E : List ℕ) (hl : 254 * (j + fuel) ≤ l.length)
    (h : accLoop (beNat l) l.length fuel j E = true) :
    accept frOrder E.length ((blocks l).drop j) = some (E, (blocks l).drop (j + fuel)) := by
  induction fuel generalizing j E with
  | zero =>
    cases E with
    | nil => rw [List.length_nil, accept, add_zero]
    | cons e E => exact absurd h (by simp [accLoop])
  | succ f ih =>
    have hj := blocks_getElem l j (by omega)
    obtain ⟨hlt, hget⟩ := List.getElem?_eq_some_iff.1 hj
    rw [List.drop_eq_getElem_cons hlt, hget]
    cases E with
    | nil => exact absurd h (by simp [accLoop])
    | cons e E =>
    have e1 : accLoop (beNat l) l.length (f + 1) j (e :: E) = force (blkN (beNat l) l.length j) fun b =>
      Bool.rec (accLoop (beNat l) l.length f (j + 1) (e :: E))
        (andB (Nat.beq b e) (accLoop (beNat l) l.length f (j + 1) E)) (Nat.blt b frOrder) := rfl
    rw [e1, force_eq] at h
    clear hget hj
    generalize blkN (beNat l) l.length j = b at *
    rw [show j + (f + 1) = j + 1 + f by omega]
    rcases hb : Nat.blt b frOrder with _ | _
    · rw [hb] at h
      have hnb : ¬ b < frOrder := by
        intro hc
        have : Nat.blt b frOrder = true := Nat.blt_eq ▸ hc
        rw [this] at hb; cases hb
      rw [List.length_cons, accept, if_neg hnb]
      exact ih (j + 1) (e :: E) (by omega) h
    · rw [hb] at h
      have hlt : b < frOrder := Nat.blt_eq ▸ hb
      obtain ⟨h1, h2⟩ := andB_spec h
      have h1 := Nat.eq_of_beq_eq_true h1
      subst h1
      rw [List.length_cons, accept, if_pos hlt, ih (j + 1) E (by omega) h2]
      rfl

theorem output_eq (t rp k N : ℕ) (h : 240 + 2 * N ≤ 80 * 2 ^ k) :
    output t rp N = outS (gBits t rp k >>> 240) N := by
  refine List.filterMap_congr fun i hi => ?_
  have := List.mem_range.1 hi
  rw [Nat.testBit_shiftRight, Nat.testBit_shiftRight, gBits_holds, gBits_holds]
  simp [show 240 + 2 * i < 80 * 2 ^ k by omega, show 240 + (2 * i + 1) < 80 * 2 ^ k by omega, add_assoc]

theorem length_flat (rows : List ℕ) (w : ℕ) : (rows.flatMap (unpack w)).length = rows.length * w := by
  induction rows with
  | nil => simp
  | cons a l ih => rw [List.flatMap_cons, List.length_append, ih, List.length_cons]; simp [unpack]; ring

theorem grain_sound {t rp k m nrc : ℕ} {rows : List ℕ} {xy : ℕ} (h : grainChk t rp k m nrc rows xy = true) :
    reference t rp (6000 * m) = some (rows.flatMap (unpack t), unpack (2 * t) xy) := by
  rw [grainChk, force_eq, force_eq] at h
  obtain ⟨h1, h⟩ := andB_spec h
  obtain ⟨h2, h⟩ := andB_spec h
  have h1 : 240 + 12000 * m ≤ 80 * 2 ^ k := Nat.le_of_ble_eq_true h1
  have h2 : rows.length = 8 + rp := Nat.eq_of_beq_eq_true h2
  have h := (segLoop_eq _ m (gBits t rp k >>> 240) []).symm.trans h
  rw [List.nil_append, ← output_eq t rp k (6000 * m) (by omega)] at h
  obtain ⟨h3, h⟩ := andB_spec h
  obtain ⟨h4, h5⟩ := andB_spec h
  have h3 : 254 * (nrc + 2 * t) ≤ (output t rp (6000 * m)).length := Nat.le_of_ble_eq_true h3
  have h6 := accLoop_spec _ nrc 0 _ (by omega) h4
  rw [length_flat, h2, List.drop_zero, zero_add] at h6
  rw [reference, h6]
  simp only [Option.bind_some]
  have hlen : nrc + 2 * t ≤ (blocks (output t rp (6000 * m))).length := by
    rw [blocks, List.length_map, List.length_range, Nat.le_div_iff_mul_le (by omega)]; omega
  rw [if_pos (by rw [List.length_drop]; omega)]
  congr 2
  apply List.ext_getElem?
  intro i
  by_cases hi : i < 2 * t
  · rw [List.getElem?_take_of_lt hi, List.getElem?_drop, blocks_getElem _ _ (by omega)]
    have := Nat.eq_of_beq_eq_true (allN_spec h5 i hi)
    change blkN _ _ (nrc + i) = _ at this
    rw [this, unpack, List.getElem?_map, List.getElem?_range hi]
    rfl
  · rw [List.getElem?_eq_none (by rw [List.length_take]; omega),
      List.getElem?_eq_none (by simp [unpack]; omega)]

end Spark.Poseidon
