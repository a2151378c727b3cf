import Verif.Model.Sha256

/-! Helper lemmas: every word gadget on encoded words is `pure` of the machine-word operation. -/

namespace Spark.Sha

open Circ

theorem enc_getElem {n : ℕ} (v : BitVec n) (i : ℕ) (h : i < n) : (enc v)[i] = bit (v.getLsbD i) := by
  simp only [enc, Vector.getElem_ofFn]

@[simp] theorem enc_getFin {n : ℕ} (v : BitVec n) (i : Fin n) : (enc v)[i] = bit (v.getLsbD i) := by
  exact enc_getElem v i.val i.isLt

theorem enc_injective {n : ℕ} : Function.Injective (enc (n := n)) := by
  intro a b h
  apply BitVec.eq_of_getLsbD_eq
  intro i hi
  have := congrArg (fun w : Word n => w[i]) h
  simp only [enc_getElem] at this
  exact bit_injective this

theorem bitsOf_eq_enc (n v : ℕ) : bitsOf n v = enc (BitVec.ofNat n v) := by
  ext i hi
  simp only [bitsOf, enc, Vector.getElem_ofFn, BitVec.getLsbD_ofNat, hi, decide_true, Bool.true_and]

theorem bit_mod_two (a : ℕ) : ((a % 2 : ℕ) : Fr) = bit (decide (a % 2 = 1)) := by
  rcases Nat.mod_two_eq_zero_or_one a with h | h <;> simp [h]

theorem constWord_eq (n a : ℕ) : constWord n a = enc (BitVec.ofNat n a) := by
  ext i hi
  simp only [constWord, enc, Vector.getElem_ofFn, BitVec.getLsbD_ofNat, hi, decide_true, Bool.true_and]
  rw [Nat.and_one_is_mod, bit_mod_two]
  congr 1
  rw [Nat.testBit_eq_decide_div_mod_eq, Nat.shiftRight_eq_div_pow]

theorem replicate_eq_enc (n : ℕ) : (Vector.replicate n 0 : Word n) = enc 0 := by
  ext i hi
  simp [enc]

theorem fromWord_enc {n : ℕ} (v : BitVec n) : fromWord (enc v) = (v.toNat : Fr) := by
  have : enc v = bitsOf n v.toNat := by rw [bitsOf_eq_enc]; simp
  rw [fromWord, this, bitsOf_toList, fromBinary_bits, natOfBits_range, Nat.mod_eq_of_lt v.isLt]

theorem asWord_natCast {n v : ℕ} (hn : n ≤ 253) (hv : v < 2 ^ n) :
    asWord n (v : Fr) = pure (enc (BitVec.ofNat n v)) := by
  rw [asWord, toBinary_natCast hn hv, bitsOf_eq_enc]

theorem asWord_enc {n : ℕ} (hn : n ≤ 253) (v : BitVec n) :
    asWord n (v.toNat : Fr) = pure (enc v) := by
  rw [asWord_natCast hn v.isLt]; simp

theorem ofFnM_pure {n : ℕ} {α : Type} (g : Fin n → α) :
    (Vector.ofFnM fun i => (pure (g i) : Circ α)) = pure (Vector.ofFn g) := by
  induction n with
  | zero => rw [Vector.ofFnM_zero]; congr 1
  | succ n ih =>
    rw [Vector.ofFnM_succ, ih, pure_bind, pure_bind]
    congr 1
    ext i hi
    rw [Vector.getElem_push, Vector.getElem_ofFn]
    split
    · simp
    · congr 1; apply Fin.ext; simp; omega

theorem ofFnM_sat {n : ℕ} {α : Type} (f : Fin n → Circ α) (v : Vector α n) :
    (Vector.ofFnM f).sat v ↔ ∀ i : Fin n, (f i).sat v[i] := by
  induction n with
  | zero =>
    rw [Vector.ofFnM_zero]
    simp only [sat_pure]
    exact ⟨fun _ i => i.elim0, fun _ => by ext i hi; omega⟩
  | succ n ih =>
    rw [Vector.ofFnM_succ]
    simp only [sat_bind, ih, sat_pure]
    constructor
    · rintro ⟨w, hw, a, ha, rfl⟩ i
      refine Fin.lastCases ?_ (fun j => ?_) i
      · simpa using ha
      · have := hw j
        simpa [Vector.getElem_push] using this
    · intro h
      refine ⟨Vector.ofFn fun i => v[i.castSucc], fun i => by simpa using h i.castSucc, v[Fin.last n], h _, ?_⟩
      ext i hi
      rw [Vector.getElem_push]
      split
      · simp
      · have : i = n := by omega
        subst this; simp

theorem ofFnM_congr {n : ℕ} {α : Type} {f : Fin n → Circ α} {g : Fin n → α}
    (h : ∀ i, f i = pure (g i)) : Vector.ofFnM f = pure (Vector.ofFn g) := by
  rw [← ofFnM_pure]; congr 1; funext i; exact h i

/-- fold of a bitwise gadget -/
theorem fold_bits {n : ℕ} (api : Fr → Fr → Circ Fr) (op : Bool → Bool → Bool)
    (hapi : ∀ a b, api (bit a) (bit b) = pure (bit (op a b))) (i : Fin n)
    (l : List (BitVec n)) (b : Bool) :
    (l.map enc).foldlM (fun r v => api r v[i]) (bit b) =
      pure (bit (l.foldl (fun r v => op r (v.getLsbD i)) b)) := by
  induction l generalizing b with
  | nil => rfl
  | cons v l ih =>
    simp only [List.map_cons, List.foldlM_cons, List.foldl_cons]
    rw [enc_getFin, hapi, pure_bind, ih]

/-- conjunction of a list of words -/
def bvAnd {n : ℕ} (l : List (BitVec n)) : BitVec n := l.foldl (· &&& ·) (BitVec.allOnes n)
/-- disjunction of a list of words -/
def bvOr {n : ℕ} (l : List (BitVec n)) : BitVec n := l.foldl (· ||| ·) 0
/-- exclusive or of a list of words -/
def bvXor {n : ℕ} (l : List (BitVec n)) : BitVec n := l.foldl (· ^^^ ·) 0

theorem getLsbD_fold {n : ℕ} (bop : BitVec n → BitVec n → BitVec n) (op : Bool → Bool → Bool)
    (i : ℕ) (h : ∀ a b, (bop a b).getLsbD i = op (a.getLsbD i) (b.getLsbD i))
    (l : List (BitVec n)) (a : BitVec n) :
    (l.foldl bop a).getLsbD i = l.foldl (fun r v => op r (v.getLsbD i)) (a.getLsbD i) := by
  induction l generalizing a with
  | nil => rfl
  | cons v l ih => simp only [List.foldl_cons]; rw [ih, h]

theorem wAnd_enc {n : ℕ} (l : List (BitVec n)) : wAnd (l.map enc) = pure (enc (bvAnd l)) := by
  refine ofFnM_congr fun i => ?_
  have := fold_bits apiAnd (· && ·) apiAnd_bit i l true
  rw [bit_true] at this
  rw [this, bvAnd, getLsbD_fold _ (· && ·) i (by simp) l]
  simp

theorem wOr_enc {n : ℕ} (l : List (BitVec n)) : wOr (l.map enc) = pure (enc (bvOr l)) := by
  refine ofFnM_congr fun i => ?_
  have := fold_bits apiOr (· || ·) apiOr_bit i l false
  rw [bit_false] at this
  rw [this, bvOr, getLsbD_fold _ (· || ·) i (by simp) l]
  simp

theorem wXor_enc {n : ℕ} (l : List (BitVec n)) : wXor (l.map enc) = pure (enc (bvXor l)) := by
  refine ofFnM_congr fun i => ?_
  have := fold_bits apiXor (· ^^ ·) apiXor_bit i l false
  rw [bit_false] at this
  rw [this, bvXor, getLsbD_fold _ (· ^^ ·) i (by simp) l]
  simp

theorem wNot_enc {n : ℕ} (v : BitVec n) : wNot (enc v) = pure (enc (~~~v)) := by
  refine ofFnM_congr fun i => ?_
  have := apiXor_bit (v.getLsbD i) true
  rw [bit_true] at this
  rw [enc_getFin, this]
  simp

theorem goIndex_enc {n : ℕ} (v : BitVec n) (k : ℕ) (h : k < n) :
    goIndex (enc v) k = pure (bit (v.getLsbD k)) := by
  rw [goIndex, dif_pos ⟨by omega, by simpa using h⟩]
  simp only [Int.toNat_natCast, enc_getElem]

theorem rotl_get {n : ℕ} (v : BitVec n) (s : ℕ) (i : ℕ) (hi : i < n) :
    (v.rotateLeft s).getLsbD i = v.getLsbD ((i + n - s % n) % n) := by
  have hs : s % n < n := Nat.mod_lt _ (by omega)
  rw [BitVec.getLsbD_rotateLeft]
  by_cases h : i < s % n
  · rw [decide_eq_true h, cond_true]
    have : (i + n - s % n) % n = n - s % n + i := by
      rw [show i + n - s % n = n - s % n + i by omega, Nat.mod_eq_of_lt (by omega)]
    rw [this]
  · rw [decide_eq_false h, cond_false]
    have : (i + n - s % n) % n = i - s % n := by
      rw [show i + n - s % n = (i - s % n) + n by omega, Nat.add_mod_right, Nat.mod_eq_of_lt (by omega)]
    simp [hi, this]

/-- left rotation by `s ≤ n` -/
theorem lrot_enc {n : ℕ} (v : BitVec n) (s : ℕ) (hs : s ≤ n) :
    lrot (enc v) s = pure (enc (v.rotateLeft s)) := by
  refine ofFnM_congr fun i => ?_
  have hi := i.isLt
  have e : ((i.val : ℤ) - s + n).tmod n = (((i.val + n - s) % n : ℕ) : ℤ) := by
    rw [show ((i.val : ℤ) - s + n) = ((i.val + n - s : ℕ) : ℤ) by omega, ← Int.ofNat_tmod]
  rw [e, goIndex_enc _ _ (Nat.mod_lt _ (by omega)), rotl_get _ _ _ hi]
  congr 3
  rcases hs.lt_or_eq with h | h
  · rw [Nat.mod_eq_of_lt h]
  · subst h; simp

/-- right rotation: a negative shift -/
theorem lrot_neg_enc {n : ℕ} (v : BitVec n) (s : ℕ) :
    lrot (enc v) (-s) = pure (enc (v.rotateRight s)) := by
  refine ofFnM_congr fun i => ?_
  have hi := i.isLt
  have e : ((i.val : ℤ) - -s + n).tmod n = (((i.val + s) % n : ℕ) : ℤ) := by
    rw [show ((i.val : ℤ) - -s + n) = ((i.val + s + n : ℕ) : ℤ) by push_cast; ring, ← Int.ofNat_tmod,
      Nat.add_mod_right]
  rw [e, goIndex_enc _ _ (Nat.mod_lt _ (by omega)), BitVec.getLsbD_rotateRight]
  have hs : s % n < n := Nat.mod_lt _ (by omega)
  rw [Nat.add_mod, Nat.mod_eq_of_lt hi]
  by_cases h : i.val < n - s % n
  · rw [decide_eq_true h, cond_true, Nat.mod_eq_of_lt (a := i.val + s % n) (by omega), Nat.add_comm]
  · rw [decide_eq_false h, cond_false]
    have : (i.val + s % n) % n = i.val - (n - s % n) := by
      rw [Nat.mod_eq_sub_mod (by omega), Nat.mod_eq_of_lt (by omega)]; omega
    simp [hi, this]

/-- shifts above the width in `lrot` panic -/
theorem lrot_fail {n : ℕ} (w : Word n) (s : ℕ) (hn : 2 ≤ n) (hs : n < s) : lrot w s = fail := by
  have key : ∀ i : ℕ, i < n → 0 ≤ ((i : ℤ) - s + n).tmod n → i + n < s → (n : ℤ) ∣ ((i : ℤ) - s + n) := by
    intro i hi h1 h2
    have h3 : ((i : ℤ) - s + n).tmod n ≤ 0 := by
      rw [show ((i : ℤ) - s + n) = -((s - i - n : ℕ) : ℤ) by omega, Int.neg_tmod]
      have : 0 ≤ ((s - i - n : ℕ) : ℤ).tmod n := Int.tmod_nonneg _ (by omega)
      omega
    exact Int.dvd_of_tmod_eq_zero (by omega)
  have idx : ∀ (k : ℤ) (x : Fr), (goIndex w k).sat x → 0 ≤ k := by
    intro k x h
    rw [goIndex] at h
    split at h
    · next hk => exact hk.1
    · exact h.elim
  refine eq_fail fun a ha => ?_
  rw [lrot, ofFnM_sat] at ha
  have h0 := idx _ _ (ha ⟨0, by omega⟩)
  have h1 := idx _ _ (ha ⟨1, by omega⟩)
  have d0 := key 0 (by omega) h0 (by omega)
  have hs2 : n + n ≤ s := by
    obtain ⟨c, hc⟩ := d0
    have : c ≤ -1 := by
      by_contra h
      have : 0 ≤ (n : ℤ) * c := mul_nonneg (by omega) (by omega)
      omega
    push_cast at hc
    nlinarith
  have d1 := key 1 (by omega) h1 (by omega)
  have := dvd_sub d1 d0
  rw [show ((1 : ℕ) : ℤ) - s + n - (((0 : ℕ) : ℤ) - s + n) = 1 by push_cast; ring] at this
  have := Int.le_of_dvd one_pos this
  omega

theorem rshift_enc {n : ℕ} (v : BitVec n) (s : ℕ) (hs : s ≤ n) :
    rshift (enc v) s = pure (enc (v >>> s)) := by
  rw [rshift, if_pos hs]
  congr 1
  ext i hi
  simp only [Vector.getElem_ofFn, enc, BitVec.getLsbD_ushiftRight]
  by_cases h : i < n - s
  · rw [dif_pos h, Nat.add_comm]
  · rw [dif_neg h, BitVec.getLsbD_of_ge _ _ (by omega), bit_false]

theorem lshift_enc {n : ℕ} (v : BitVec n) (s : ℕ) (hs : s ≤ n) :
    lshift (enc v) s = pure (enc (v <<< s)) := by
  rw [lshift, if_pos hs]
  congr 1
  ext i hi
  simp only [Vector.getElem_ofFn, enc, BitVec.getLsbD_shiftLeft]
  by_cases h : i < s
  · simp [h]
  · simp [h, hi]

/-- sum of words modulo `2^32` -/
def bvSum {n : ℕ} (l : List (BitVec n)) : BitVec n := l.foldl (· + ·) 0

theorem foldl_add_cast (l : List (BitVec 32)) (a : ℕ) :
    ((l.map enc).map fromWord).foldl (· + ·) (a : Fr) = ((a + (l.map BitVec.toNat).sum : ℕ) : Fr) := by
  induction l generalizing a with
  | nil => simp
  | cons v l ih =>
    simp only [List.map_cons, List.foldl_cons, List.sum_cons, fromWord_enc]
    rw [← Nat.cast_add, ih, Nat.add_assoc]

theorem sum_toNat_le (l : List (BitVec 32)) : (l.map BitVec.toNat).sum ≤ l.length * (2 ^ 32 - 1) := by
  induction l with
  | nil => simp
  | cons v l ih =>
    have := v.isLt
    simp only [List.map_cons, List.sum_cons, List.length_cons]; omega

theorem foldl_bv_add (l : List (BitVec 32)) (a : BitVec 32) :
    (l.foldl (· + ·) a) = BitVec.ofNat 32 (a.toNat + (l.map BitVec.toNat).sum) := by
  induction l generalizing a with
  | nil => simp
  | cons v l ih =>
    simp only [List.foldl_cons, List.map_cons, List.sum_cons]
    rw [ih]
    apply BitVec.eq_of_toNat_eq
    simp only [BitVec.toNat_add, BitVec.toNat_ofNat]
    omega

theorem testBit_mod32 (m : ℕ) {i : ℕ} (hi : i < 32) : (m % 2 ^ 32).testBit i = m.testBit i := by
  rw [Nat.testBit_mod_two_pow]; simp [hi]

theorem two_le_pow (k : ℕ) : k + 2 ≤ 2 ^ (1 + k) := by
  have := @Nat.lt_two_pow_self k
  rw [pow_add]; omega

theorem sum_lt (x y z k : ℕ) (hx : x < 2 ^ 32) (hy : y < 2 ^ 32) (hz : z ≤ k * (2 ^ 32 - 1)) :
    x + y + z < 2 ^ (33 + k) := by
  have h2 := two_le_pow k
  rw [show 33 + k = 32 + (1 + k) by omega, pow_add]
  generalize 2 ^ (1 + k) = q at *
  omega

/-- the low 32 of `k` digits -/
theorem low32 (k : ℕ) (hk : 32 ≤ k) (m : ℕ) :
    (Vector.ofFn fun i : Fin 32 => (bitsOf k m)[i.val]'(by omega)) = enc (BitVec.ofNat 32 m) := by
  ext i hi
  rw [Vector.getElem_ofFn, enc_getElem _ _ hi, BitVec.getLsbD_ofNat, bitsOf, Vector.getElem_ofFn]
  simp only [hi, decide_true, Bool.true_and]

theorem wAdd_enc (a b : BitVec 32) (l : List (BitVec 32)) (hl : l.length ≤ 220) :
    wAdd (enc a) (enc b) (l.map enc) = pure (enc (l.foldl (· + ·) (a + b))) := by
  have hlt := sum_lt _ _ _ _ a.isLt b.isLt (sum_toNat_le l)
  unfold wAdd
  simp only [fromWord_enc, ← Nat.cast_add, foldl_add_cast]
  rw [toBinary_natCast (by simp; omega) (by simpa using hlt), pure_bind, low32 _ (by omega), foldl_bv_add]
  congr 2
  apply BitVec.eq_of_toNat_eq
  rw [BitVec.toNat_ofNat, BitVec.toNat_ofNat, BitVec.toNat_add, Nat.mod_add_mod]

theorem toUint32_enc (v : BitVec 8) : toUint32 (enc v) = enc (v.setWidth 32) := by
  ext i hi
  simp only [toUint32, Vector.getElem_ofFn, enc, BitVec.getLsbD_setWidth, hi, decide_true, Bool.true_and]
  split
  · rfl
  · rw [BitVec.getLsbD_of_ge _ _ (by omega), bit_false]

theorem toUint8_enc {n : ℕ} (h : 8 ≤ n) (v : BitVec n) : toUint8 h (enc v) = enc (v.setWidth 8) := by
  ext i hi
  simp only [toUint8, Vector.getElem_ofFn, enc, BitVec.getLsbD_setWidth, hi, decide_true, Bool.true_and]

theorem putUint32_enc (b : List (Word 8)) (v : BitVec 32) (hb : 4 ≤ b.length) :
    putUint32 b (enc v) = pure
      ([enc ((v >>> 24).setWidth 8), enc ((v >>> 16).setWidth 8), enc ((v >>> 8).setWidth 8),
        enc (v.setWidth 8)] ++ b.drop 4) := by
  rw [putUint32, if_neg (by omega)]
  simp only [rshift_enc _ _ (show 24 ≤ 32 by decide), rshift_enc _ _ (show 16 ≤ 32 by decide),
    rshift_enc _ _ (show 8 ≤ 32 by decide), pure_bind, toUint8_enc]

theorem putUint64_enc (b : List (Word 8)) (v : BitVec 64) (hb : 8 ≤ b.length) :
    putUint64 b (enc v) = pure
      ([enc ((v >>> 56).setWidth 8), enc ((v >>> 48).setWidth 8), enc ((v >>> 40).setWidth 8),
        enc ((v >>> 32).setWidth 8), enc ((v >>> 24).setWidth 8), enc ((v >>> 16).setWidth 8),
        enc ((v >>> 8).setWidth 8), enc (v.setWidth 8)] ++ b.drop 8) := by
  rw [putUint64, if_neg (by omega)]
  simp only [rshift_enc _ _ (show 56 ≤ 64 by decide), rshift_enc _ _ (show 48 ≤ 64 by decide),
    rshift_enc _ _ (show 40 ≤ 64 by decide), rshift_enc _ _ (show 32 ≤ 64 by decide),
    rshift_enc _ _ (show 24 ≤ 64 by decide), rshift_enc _ _ (show 16 ≤ 64 by decide),
    rshift_enc _ _ (show 8 ≤ 64 by decide), pure_bind, toUint8_enc]

end Spark.Sha
