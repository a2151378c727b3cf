import Verif.Lemmas.Sha256Words
import Verif.Spec.Sha256

/-! Helper lemmas: the compression function. -/

namespace Spark.Sha

open Circ Fips

/-- iterate a loop body with an invariant -/
theorem foldlM_finRange {σ : Type} {n : ℕ} (f : σ → Fin n → Circ σ) (g : ℕ → σ)
    (h : ∀ i : Fin n, f (g i) i = pure (g (i + 1))) :
    (List.finRange n).foldlM f (g 0) = pure (g n) := by
  have key : ∀ k, k ≤ n → ((List.finRange n).take k).foldlM f (g 0) = pure (g k) := by
    intro k
    induction k with
    | zero => intro _; rfl
    | succ k ih =>
      intro hk
      have hlt : k < (List.finRange n).length := by simpa using hk
      rw [List.take_succ_eq_append_getElem hlt, List.foldlM_append, ih (by omega)]
      simp only [List.foldlM_cons, List.foldlM_nil, pure_bind, List.getElem_finRange, bind_pure]
      exact h ⟨k, by omega⟩
  have := key n le_rfl
  rwa [List.take_of_length_le (by simp)] at this

/-- encoding of the working variables -/
def encH (s : Vars) : HState where
  a := enc s.a
  b := enc s.b
  c := enc s.c
  d := enc s.d
  e := enc s.e
  f := enc s.f
  g := enc s.g
  h := enc s.h

theorem rotr_eq (x : W32) (k : ℕ) (hk : k < 32) : x.rotateRight k = ROTR k x := by
  rw [BitVec.rotateRight_def, ROTR, Nat.mod_eq_of_lt hk]

theorem lrot_rotr (x : W32) (k : ℕ) (hk : k < 32) : lrot (enc x) (-k) = pure (enc (ROTR k x)) := by
  rw [lrot_neg_enc, rotr_eq _ _ hk]

theorem wXor2 (a b : BitVec 32) : wXor [enc a, enc b] = pure (enc (a ^^^ b)) := by
  have := wXor_enc [a, b]; simpa [bvXor] using this
theorem wXor3 (a b c : BitVec 32) : wXor [enc a, enc b, enc c] = pure (enc (a ^^^ b ^^^ c)) := by
  have := wXor_enc [a, b, c]; simpa [bvXor] using this
theorem wAnd2 (a b : BitVec 32) : wAnd [enc a, enc b] = pure (enc (a &&& b)) := by
  have := wAnd_enc [a, b]
  simpa only [List.map_cons, List.map_nil, bvAnd, List.foldl_cons, List.foldl_nil, BitVec.allOnes_and] using this
theorem wOr4 (a b c d : BitVec 32) :
    wOr [enc a, enc b, enc c, enc d] = pure (enc (a ||| b ||| c ||| d)) := by
  have := wOr_enc [a, b, c, d]; simpa [bvOr] using this
theorem wAdd0 (a b : BitVec 32) : wAdd (enc a) (enc b) [] = pure (enc (a + b)) := by
  have := wAdd_enc a b [] (by simp); simpa using this
theorem wAdd2 (a b c d : BitVec 32) : wAdd (enc a) (enc b) [enc c, enc d] = pure (enc (a + b + c + d)) := by
  have := wAdd_enc a b [c, d] (by simp); simpa using this
theorem wAdd3 (a b c d e : BitVec 32) :
    wAdd (enc a) (enc b) [enc c, enc d, enc e] = pure (enc (a + b + c + d + e)) := by
  have := wAdd_enc a b [c, d, e] (by simp); simpa using this

theorem beWord_eq (a b c d : Byte) :
    (a.setWidth 32 <<< 24) ||| (b.setWidth 32 <<< 16) ||| (c.setWidth 32 <<< 8) ||| d.setWidth 32
      = beWord a b c d := by
  apply BitVec.eq_of_getLsbD_eq
  intro i hi
  simp only [beWord, BitVec.getLsbD_or, BitVec.getLsbD_shiftLeft, BitVec.getLsbD_setWidth,
    BitVec.getLsbD_append]
  by_cases h1 : i < 8
  · simp [h1, show i < 16 by omega, show i < 24 by omega, hi]
  · by_cases h2 : i < 16
    · simp [h1, h2, show i < 24 by omega, hi, show i - 8 < 8 by omega, show i - 8 < 32 by omega,
        BitVec.getLsbD_of_ge d i (by omega)]
    · by_cases h3 : i < 24
      · simp [h1, h2, h3, hi, show ¬ i - 8 < 8 by omega,
          show i - 16 < 32 by omega, BitVec.getLsbD_of_ge d i (by omega),
          BitVec.getLsbD_of_ge c (i - 8) (by omega), show i - 8 - 8 = i - 16 by omega, show ¬ 8 ≤ i - 16 by omega]
      · simp [h1, h2, h3, hi, show ¬ i - 8 < 8 by omega, show ¬ i - 8 - 8 < 8 by omega,
          show i - 24 < 32 by omega, BitVec.getLsbD_of_ge d i (by omega),
          BitVec.getLsbD_of_ge c (i - 8) (by omega), BitVec.getLsbD_of_ge b (i - 16) (by omega),
          show i - 8 - 8 - 8 = i - 24 by omega]

/-- schedule array after `k` entries have been computed -/
def gW (B : List Byte) (w : Vector (Word 32) 64) (k : ℕ) : Vector (Word 32) 64 :=
  Vector.ofFn fun i => if i.val < k then enc (W B i) else w[i]

theorem gW_zero (B : List Byte) (w : Vector (Word 32) 64) : gW B w 0 = w := by
  ext i hi : 1
  simp [gW]

theorem gW_set (B : List Byte) (w : Vector (Word 32) 64) (k : ℕ) (hk : k < 64) :
    (gW B w k).set k (enc (W B k)) hk = gW B w (k + 1) := by
  ext i hi : 1
  rw [Vector.getElem_set]
  simp only [gW, Vector.getElem_ofFn]
  by_cases h : k = i
  · subst h; simp
  · rw [if_neg h]
    by_cases h2 : i < k
    · rw [if_pos h2, if_pos (by omega)]
    · rw [if_neg h2, if_neg (by omega)]

theorem gW_get (B : List Byte) (w : Vector (Word 32) 64) (k i : ℕ) (hi : i < 64) (h : i < k) :
    (gW B w k)[i] = enc (W B i) := by
  simp [gW, h]

theorem loadStep_spec (B : List Byte) (hB : B.length = 64) (p : Vector (Word 8) 64)
    (hp : p.toList = B.map enc) (w : Vector (Word 32) 64) (i : Fin 16) :
    loadStep p (gW B w i) i = pure (gW B w (i + 1)) := by
  have hi := i.isLt
  have hget : ∀ k (hk : k < 64), p[k] = enc (B.getD k 0) := by
    intro k hk
    have h1 : p[k] = p.toList[k]'(by simpa using hk) := by simp
    rw [h1]
    simp only [hp, List.getElem_map, List.getD_eq_getElem?_getD, List.getElem?_eq_getElem (hB ▸ hk),
      Option.getD_some]
  unfold loadStep
  simp only [hget, toUint32_enc, lshift_enc _ _ (show 24 ≤ 32 by decide),
    lshift_enc _ _ (show 16 ≤ 32 by decide), lshift_enc _ _ (show 8 ≤ 32 by decide), pure_bind, wOr4,
    beWord_eq]
  rw [← gW_set B w i (by omega)]
  have : W B i = blockWord B i := by rw [W, if_pos hi]
  rw [this, blockWord]

theorem expandStep_spec (B : List Byte) (w : Vector (Word 32) 64) (k : Fin 48) :
    expandStep (gW B w (16 + k)) k = pure (gW B w (16 + (k + 1))) := by
  have hk := k.isLt
  unfold expandStep
  simp only [gW_get B w (16 + k) (k + 14) (by omega) (by omega),
    gW_get B w (16 + k) (k + 1) (by omega) (by omega),
    gW_get B w (16 + k) (k + 9) (by omega) (by omega),
    gW_get B w (16 + k) k (by omega) (by omega)]
  have l17 := lrot_rotr (W B (k + 14)) 17 (by decide)
  have l19 := lrot_rotr (W B (k + 14)) 19 (by decide)
  have l7 := lrot_rotr (W B (k + 1)) 7 (by decide)
  have l18 := lrot_rotr (W B (k + 1)) 18 (by decide)
  push_cast at l17 l19 l7 l18
  simp only [l17, l19, l7, l18, rshift_enc _ _ (show 10 ≤ 32 by decide),
    rshift_enc _ _ (show 3 ≤ 32 by decide), pure_bind, wXor3, wAdd2]
  have : W B (16 + k) = smallSigma1 (W B (k + 14)) + W B (k + 9) + smallSigma0 (W B (k + 1)) + W B k := by
    rw [W, if_neg (by omega)]
    rw [show 16 + k.val - 2 = k + 14 by omega, show 16 + k.val - 7 = k + 9 by omega,
      show 16 + k.val - 15 = k + 1 by omega, show 16 + k.val - 16 = k by omega]
  rw [← Nat.add_assoc, ← gW_set B w (16 + k) (by omega), this]
  simp only [smallSigma0, smallSigma1, SHR, Nat.add_comm]

theorem kTable_eq (i : Fin 64) : kTable[i] = K.getD i 0 := by
  revert i; decide +kernel

theorem roundStep_spec (B : List Byte) (w : Vector (Word 32) 64)
    (hw : ∀ i : Fin 64, w[i] = enc (W B i)) (s : Vars) (i : Fin 64) :
    roundStep w (encH (rounds B s i)) i = pure (encH (rounds B s (i + 1))) := by
  unfold roundStep
  rw [rounds]
  generalize rounds B s i = v
  have h6 := lrot_rotr v.e 6 (by decide)
  have h11 := lrot_rotr v.e 11 (by decide)
  have h25 := lrot_rotr v.e 25 (by decide)
  have h2 := lrot_rotr v.a 2 (by decide)
  have h13 := lrot_rotr v.a 13 (by decide)
  have h22 := lrot_rotr v.a 22 (by decide)
  push_cast at h6 h11 h25 h2 h13 h22
  simp only [encH, h6, h11, h25, h2, h13, h22, pure_bind, wXor3, wXor2, wAnd2, wNot_enc, hw, constWord_eq,
    kTable_eq, wAdd3, wAdd0]
  rfl

theorem chunkStep_spec (B : List Byte) (hB : B.length = 64) (p : Vector (Word 8) 64)
    (hp : p.toList = B.map enc) (w : Vector (Word 32) 64) (s : Vars) :
    ∃ w', chunkStep w (encH s) p = pure (w', encH (compress s B)) := by
  have h1 : (List.finRange 16).foldlM (loadStep p) w = pure (gW B w 16) := by
    have := foldlM_finRange (loadStep p) (gW B w) (loadStep_spec B hB p hp w)
    rwa [gW_zero] at this
  have h2 : (List.finRange 48).foldlM expandStep (gW B w 16) = pure (gW B w 64) :=
    foldlM_finRange expandStep (fun k => gW B w (16 + k)) (expandStep_spec B w)
  have h3 : (List.finRange 64).foldlM (roundStep (gW B w 64)) (encH s) = pure (encH (rounds B s 64)) :=
    foldlM_finRange _ (fun k => encH (rounds B s k))
      (roundStep_spec B _ (fun i => gW_get B w 64 i i.isLt i.isLt) s)
  refine ⟨gW B w 64, ?_⟩
  unfold chunkStep
  rw [h1, pure_bind, h2, pure_bind, h3, pure_bind]
  have hc : compress s B = ⟨s.a + (rounds B s 64).a, s.b + (rounds B s 64).b, s.c + (rounds B s 64).c,
      s.d + (rounds B s 64).d, s.e + (rounds B s 64).e, s.f + (rounds B s 64).f,
      s.g + (rounds B s 64).g, s.h + (rounds B s 64).h⟩ := by
    unfold compress
    generalize rounds B s 64 = r
    simp only [Vars.mk.injEq]
    refine ⟨BitVec.add_comm _ _, BitVec.add_comm _ _, BitVec.add_comm _ _, BitVec.add_comm _ _,
      BitVec.add_comm _ _, BitVec.add_comm _ _, BitVec.add_comm _ _, BitVec.add_comm _ _⟩
  rw [hc]
  generalize rounds B s 64 = r
  simp only [encH, wAdd0, pure_bind]

theorem chunkLoop_spec (p : List Byte) : ∀ (w : Vector (Word 32) 64) (s : Vars),
    chunkLoop w (encH s) (p.map enc) = pure (encH ((blocks p).foldl compress s)) := by
  induction p using blocks.induct with
  | case1 p h ih =>
    intro w s
    rw [chunkLoop, dif_pos (by simpa using h), blocks, if_pos h, List.foldl_cons]
    obtain ⟨w', hw'⟩ := chunkStep_spec (p.take 64) (by simp [h])
      ⟨((p.map enc).take 64).toArray, by simp [h]⟩ (by simp [List.map_take]) w s
    rw [hw', pure_bind]
    have := ih w' (compress s (p.take 64))
    rw [← this, List.map_drop]
  | case2 p h =>
    intro w s
    rw [chunkLoop, dif_neg (by simpa using h), blocks, if_neg h]
    rfl

theorem blockGeneric_spec (p : List Byte) (s : Vars) :
    blockGeneric (encH s) (p.map enc) = pure (encH ((blocks p).foldl compress s)) := by
  unfold blockGeneric
  have := asWord_natCast (n := 32) (v := 0) (by decide) (by decide)
  rw [Nat.cast_zero] at this
  rw [this, pure_bind, chunkLoop_spec]

end Spark.Sha
