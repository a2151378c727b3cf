import Verif.Lemmas.Sha256Digest
import Verif.Model.Expand
import Verif.Spec.Rfc9380

/-! Helper lemmas for `ExpandMsgXmd` and `HashToField`. -/

namespace Spark.H2C

open Circ Sha Fips Rfc

theorem hash_spec (p : List Byte) : hash (p.map byteVar) = pure ((sha256 p).map byteVar) := by
  obtain ⟨d, h1, h2⟩ := Write_spec _ _ p rep_new
  rw [List.nil_append] at h2
  rw [hash, h1, pure_bind, Digest.Sum, checkSum_spec d p h2]
  simp only [pure_bind]

theorem sha256_length (m : List Byte) : (sha256 m).length = 32 := by
  simp [sha256, beBytes_length]

theorem u8_eq (n : ℕ) : u8 n = byteVar (BitVec.ofNat 8 n) := by
  simp [u8, byteVar]

theorem dst_length : dst.length = 43 := by decide +kernel

theorem ascii_length : (ascii dstString).length = 43 := by decide +kernel

theorem dstVars_eq : dstVars = (ascii dstString).map byteVar := by
  have h : ∀ c ∈ dst, c < 256 := by decide +kernel
  rw [dstVars, List.take_of_length_le dst_length.le, ascii, List.map_map]
  have : dst = dstString.toList.map Char.toNat := rfl
  rw [this, List.map_map]
  apply List.map_congr_left
  intro c hc
  have := h c.toNat (by rw [this]; exact List.mem_map_of_mem hc)
  simp only [Function.comp, byteVar, BitVec.toNat_ofNat]
  rw [Nat.mod_eq_of_lt (by omega)]

theorem xorByte_spec (a b : Byte) : xorByte (byteVar a) (byteVar b) = pure (byteVar (a ^^^ b)) := by
  have hx := wXor_enc [a, b]
  simp only [List.map_cons, List.map_nil, bvXor, List.foldl_cons, List.foldl_nil] at hx
  rw [show (0 : BitVec 8) ^^^ a = a from BitVec.zero_xor] at hx
  simp only [xorByte, byteVar, asWord_enc (show 8 ≤ 253 by decide), pure_bind, hx, fromWord_enc]

theorem mapM_pure {α β : Type} (l : List α) (f : α → Circ β) (g : α → β) (h : ∀ a ∈ l, f a = pure (g a)) :
    l.mapM f = pure (l.map g) := by
  induction l with
  | nil => rfl
  | cons a l ih =>
    rw [List.mapM_cons, h a List.mem_cons_self, pure_bind, ih (fun b hb => h b (List.mem_cons_of_mem _ hb)),
      pure_bind]
    rfl

theorem zip_xor_spec (a b : List Byte) :
    ((a.map byteVar).zip (b.map byteVar)).mapM (fun ab => xorByte ab.1 ab.2) =
      pure ((strxor a b).map byteVar) := by
  induction a generalizing b with
  | nil => rfl
  | cons x a ih =>
    cases b with
    | nil => rfl
    | cons y b =>
      simp only [List.map_cons, List.zip_cons_cons, List.mapM_cons, xorByte_spec, pure_bind, ih]
      rfl

theorem foldlM_range' {σ : Type} (f : σ → ℕ → Circ σ) (g : ℕ → σ) (a n : ℕ)
    (h : ∀ k < n, f (g k) (a + k) = pure (g (k + 1))) :
    (List.range' a n).foldlM f (g 0) = pure (g n) := by
  induction n generalizing a g with
  | zero => rfl
  | succ n ih =>
    rw [List.range'_succ, List.foldlM_cons]
    have h0 := h 0 (by omega)
    rw [Nat.add_zero] at h0
    rw [h0, pure_bind]
    refine ih (fun k => g (k + 1)) (a + 1) (fun k hk => ?_)
    have := h (k + 1) (by omega)
    rwa [show a + (k + 1) = a + 1 + k by omega] at this

/-- `DST || I2OSP(len(DST), 1)` -/
abbrev dstP : List Byte := ascii dstString ++ I2OSP (ascii dstString).length 1

theorem dstP_eq : dstVars ++ [u8 sizeDomain] = dstP.map byteVar := by
  rw [dstP, ascii_length, List.map_append, ← dstVars_eq]
  congr 1

theorem bVal_length (b0 : List Byte) (D : List Byte) (i : ℕ) : (bVal b0 D i).length = 32 := by
  cases i <;> exact sha256_length _

/-- first `i` output blocks -/
def outBlocks (b0 : List Byte) (i : ℕ) : List Byte := (List.range i).flatMap (bVal b0 dstP)

theorem outBlocks_succ (b0 : List Byte) (i : ℕ) :
    outBlocks b0 (i + 1) = outBlocks b0 i ++ bVal b0 dstP i := by
  simp [outBlocks, List.range_succ]

theorem outBlocks_length (b0 : List Byte) (i : ℕ) : (outBlocks b0 i).length = 32 * i := by
  induction i with
  | zero => rfl
  | succ i ih => rw [outBlocks_succ, List.length_append, ih, bVal_length]; omega

theorem expandLoop_spec (b0 : List Byte) (n k : ℕ) (hk : 32 * (k + 2) ≤ n) :
    expandLoop (b0.map byteVar) n
        ((bVal b0 dstP k).map byteVar,
          (outBlocks b0 (k + 1)).map byteVar ++ List.replicate (n - 32 * (k + 1)) (u8 0)) (2 + k) =
      pure ((bVal b0 dstP (k + 1)).map byteVar,
        (outBlocks b0 (k + 2)).map byteVar ++ List.replicate (n - 32 * (k + 2)) (u8 0)) := by
  unfold expandLoop
  simp only [zip_xor_spec, pure_bind]
  have hpre : (strxor b0 (bVal b0 dstP k)).map byteVar ++ [u8 (2 + k)] ++ dstVars ++ [u8 sizeDomain] =
      (strxor b0 (bVal b0 dstP k) ++ I2OSP (k + 2) 1 ++ dstP).map byteVar := by
    rw [List.append_assoc _ dstVars, dstP_eq, u8_eq]
    simp [I2OSP, beBytes, Nat.add_comm]
  rw [hpre, hash_spec, pure_bind]
  have hb : sha256 (strxor b0 (bVal b0 dstP k) ++ I2OSP (k + 2) 1 ++ dstP) = bVal b0 dstP (k + 1) := rfl
  rw [hb]
  congr 2
  have hl : ((outBlocks b0 (k + 1)).map byteVar).length = 32 * (k + 1) := by
    rw [List.length_map, outBlocks_length]
  have hl2 : ((bVal b0 dstP (k + 1)).map byteVar).length = 32 := by rw [List.length_map, bVal_length]
  rw [copyInto, hl2, show 2 + k - 1 = k + 1 by omega,
    show min (min (32 * (2 + k)) n - 32 * (k + 1)) 32 = 32 by omega,
    List.take_left' hl, List.take_of_length_le hl2.le, List.drop_append, hl,
    List.drop_of_length_le (by omega), List.nil_append, List.drop_replicate, outBlocks_succ b0 (k + 1),
    List.map_append]
  congr 2
  omega

/-- main lemma for `ExpandMsgXmd` -/
theorem expandMsgXmd_eq (msg : Vector Byte 32) (count : ℕ) (hc : 1 ≤ count) :
    expandMsgXmd (msg.map byteVar) count =
      pure ((outBlocks (sha256 (I2OSP 0 64 ++ msg.toList ++ I2OSP (count * 64) 2 ++ I2OSP 0 1 ++ dstP))
        (2 * count)).map byteVar) := by
  have hpre : List.replicate 64 (u8 0) ++ (msg.map byteVar).toList ++ [u8 ((count * L) >>> 8), u8 (count * L), u8 0]
      ++ dstVars ++ [u8 sizeDomain] =
      (I2OSP 0 64 ++ msg.toList ++ I2OSP (count * 64) 2 ++ I2OSP 0 1 ++ dstP).map byteVar := by
    rw [List.append_assoc _ dstVars, dstP_eq]
    have h64 : (I2OSP 0 64) = List.replicate 64 0 := by decide +kernel
    rw [h64]
    simp [I2OSP, beBytes, L, u8_eq, Nat.shiftRight_eq_div_pow, Vector.toList_map]
  unfold expandMsgXmd
  simp only []
  rw [hpre, hash_spec, pure_bind]
  generalize sha256 (I2OSP 0 64 ++ msg.toList ++ I2OSP (count * 64) 2 ++ I2OSP 0 1 ++ dstP) = b0
  have hpre1 : b0.map byteVar ++ [u8 1] ++ dstVars ++ [u8 sizeDomain] =
      (b0 ++ I2OSP 1 1 ++ dstP).map byteVar := by
    rw [List.append_assoc _ dstVars, dstP_eq, u8_eq]
    simp [I2OSP, beBytes]
  rw [hpre1, hash_spec, pure_bind, if_neg (by unfold L; omega)]
  have hb : sha256 (b0 ++ I2OSP 1 1 ++ dstP) = bVal b0 dstP 0 := rfl
  rw [hb]
  have := foldlM_range' (expandLoop (b0.map byteVar) (count * L))
    (fun k => ((bVal b0 dstP k).map byteVar,
      (outBlocks b0 (k + 1)).map byteVar ++ List.replicate (count * L - 32 * (k + 1)) (u8 0))) 2
    (2 * count - 1) (fun k hk => expandLoop_spec b0 _ k (by unfold L; omega))
  have h1 : outBlocks b0 (0 + 1) = bVal b0 dstP 0 := by simp [outBlocks]
  simp only [h1] at this
  rw [show (count * L + 32 - 1) / 32 - 1 = 2 * count - 1 by unfold L; omega,
    show count * L - 32 = count * L - 32 * (0 + 1) by omega, this, pure_bind]
  simp only []
  rw [show 2 * count - 1 + 1 = 2 * count by omega, show count * L - 32 * (2 * count) = 0 by unfold L; omega]
  simp

theorem expandSpec_eq (msg : List Byte) (count : ℕ) (hc2 : count ≤ 127) :
    expandMessageXmd msg (ascii dstString) (count * 64) =
      some (outBlocks (sha256 (I2OSP 0 64 ++ msg ++ I2OSP (count * 64) 2 ++ I2OSP 0 1 ++ dstP)) (2 * count)) := by
  unfold expandMessageXmd
  simp only []
  rw [if_neg (by rw [ascii_length]; omega), show (count * 64 + 31) / 32 = 2 * count by omega]
  congr 1
  rw [List.take_of_length_le]
  · rfl
  · exact (outBlocks_length _ _).le.trans (by omega)

/-! ### hash_to_field -/

theorem toBinary8_byte (b : Byte) : toBinary 8 (byteVar b) = pure (enc b) :=
  asWord_enc (by decide) b

theorem getUint64_spec (v : List Byte) :
    getUint64From8Bytes (v.map byteVar) = pure ((OS2IP v : ℕ) : Fr) := by
  have h : (v.map byteVar).mapM (toBinary 8) = pure (v.map enc) := by
    induction v with
    | nil => rfl
    | cons a v ih => simp only [List.map_cons, List.mapM_cons, toBinary8_byte, ih, pure_bind]
  rw [getUint64From8Bytes, h, pure_bind]
  congr 1
  have enc_list : ∀ b : Byte, (enc b).toList = ((List.range 8).map fun i => b.toNat.testBit i).map bit := by
    intro b
    have : enc b = bitsOf 8 b.toNat := by rw [bitsOf_eq_enc]; simp
    rw [this, bitsOf_toList]
  have hval : ∀ v : List Byte, ((v.map enc).flatMap Vector.toList) =
      (v.flatMap fun b => (List.range 8).map fun i => b.toNat.testBit i).map bit := by
    intro v
    induction v with
    | nil => rfl
    | cons a v ih => simp only [List.map_cons, List.flatMap_cons, List.map_append, ih, enc_list]
  rw [← List.map_reverse, hval, fromBinary_bits]
  congr 1
  have happ : ∀ a b : List Bool, natOfBits (a ++ b) = natOfBits a + 2 ^ a.length * natOfBits b := by
    intro a b
    induction a with
    | nil => simp [natOfBits]
    | cons x a ih => simp only [List.cons_append, natOfBits, ih, List.length_cons, pow_succ]; ring
  have hrev : ∀ v : List Byte, natOfBits (v.flatMap fun b => (List.range 8).map fun i => b.toNat.testBit i) =
      v.foldr (fun b acc => acc * 256 + b.toNat) 0 := by
    intro v
    induction v with
    | nil => rfl
    | cons a v ih =>
      rw [List.flatMap_cons, happ, ih, natOfBits_range, Nat.mod_eq_of_lt a.isLt]
      simp only [List.length_map, List.length_range, List.foldr_cons]
      ring
  rw [hrev, List.foldr_reverse]
  rfl

theorem OS2IP_append (a b : List Byte) : OS2IP (a ++ b) = OS2IP a * 256 ^ b.length + OS2IP b := by
  induction b using List.reverseRecOn with
  | nil => simp [OS2IP]
  | append_singleton b x ih =>
    rw [← List.append_assoc]
    have h : ∀ l : List Byte, OS2IP (l ++ [x]) = OS2IP l * 256 + x.toNat := by
      intro l; simp [OS2IP]
    rw [h, h, ih, List.length_append, pow_add]
    simp
    ring

theorem OS2IP_lt (a : List Byte) : OS2IP a < 256 ^ a.length := by
  induction a using List.reverseRecOn with
  | nil => simp [OS2IP]
  | append_singleton b x ih =>
    rw [OS2IP_append, List.length_append, pow_add]
    have := x.isLt
    simp [OS2IP] at *
    omega

/-- eight big-endian words of a 64-byte string, as consumed by `HashToField`, recombine to its value -/
theorem limbs_of_chunk (c : List Byte) (hc : c.length = 64) :
    limbsVal ((List.range 8).map fun j => ((OS2IP ((c.drop (64 - 8 * (j + 1))).take 8) : ℕ) : Fr)) = OS2IP c := by
  have hv : ∀ j, (((OS2IP ((c.drop (64 - 8 * (j + 1))).take 8) : ℕ) : Fr)).val =
      OS2IP ((c.drop (64 - 8 * (j + 1))).take 8) := by
    intro j
    rw [ZMod.val_natCast, Nat.mod_eq_of_lt]
    refine lt_of_lt_of_le (OS2IP_lt _) ?_
    refine le_trans (Nat.pow_le_pow_right (by norm_num) (show _ ≤ 8 by simp)) ?_
    exact le_trans (by norm_num) frOrder_gt.le
  have split : ∀ k, k ≤ 8 → ∀ d : List Byte, d.length = 8 * k →
      OS2IP d = ((List.range k).map fun j => OS2IP ((d.drop (8 * k - 8 * (j + 1))).take 8)).foldr
        (fun x acc => x + 2 ^ 64 * acc) 0 := by
    intro k
    induction k with
    | zero => intro _ d hd; have : d = [] := List.eq_nil_of_length_eq_zero (by omega); subst this; rfl
    | succ k ih =>
      intro hk d hd
      have e : d = d.take (8 * k) ++ d.drop (8 * k) := (List.take_append_drop _ _).symm
      have hl : (d.drop (8 * k)).length = 8 := by rw [List.length_drop]; omega
      conv_lhs => rw [e, OS2IP_append, hl]
      rw [ih (by omega) (d.take (8 * k)) (by rw [List.length_take]; omega)]
      rw [List.range_succ_eq_map, List.map_cons, List.foldr_cons, List.map_map]
      rw [show 8 * (k + 1) - 8 * (0 + 1) = 8 * k by omega, List.take_of_length_le hl.le]
      have hm : (List.map (fun j => OS2IP (List.take 8 (List.drop (8 * k - 8 * (j + 1)) (List.take (8 * k) d)))) (List.range k)) =
          List.map ((fun j => OS2IP (List.take 8 (List.drop (8 * (k + 1) - 8 * (j + 1)) d))) ∘ Nat.succ) (List.range k) := by
        apply List.map_congr_left
        intro j hj
        rw [List.mem_range] at hj
        simp only [Function.comp]
        congr 1
        rw [List.drop_take, List.take_take, show 8 * (k + 1) - 8 * (j.succ + 1) = 8 * k - 8 * (j + 1) by omega]
        congr 1
        omega
      rw [hm]
      norm_num
      ring
  rw [split 8 le_rfl c hc, limbsVal]
  rw [List.foldr_map, List.foldr_map]
  congr 1
  funext j acc
  rw [hv]

end Spark.H2C
