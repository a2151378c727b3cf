import Verif.Lemmas.Sha256Block

/-! Helper lemmas: the streaming state machine. -/

namespace Spark.Sha

open Circ Fips

theorem blocks_append (a : List Byte) (b : List Byte) (h : 64 ∣ a.length) :
    blocks (a ++ b) = blocks a ++ blocks b := by
  induction a using blocks.induct with
  | case1 a h1 ih =>
    rw [blocks, if_pos (by simp; omega), List.take_append_of_le_length h1, List.drop_append_of_le_length h1,
      ih (by rw [List.length_drop]; omega)]
    conv_rhs => rw [blocks, if_pos h1]
    simp
  | case2 a h1 =>
    have : a = [] := List.eq_nil_of_length_eq_zero (by omega)
    subst this
    rw [blocks.eq_def []]; simp

theorem blocks_short (a : List Byte) (h : a.length < 64) : blocks a = [] := by
  rw [blocks, if_neg (by omega)]

/-- the buffer and chaining value after having read `m0 ++ t`, `t` still in the buffer -/
structure RepC (d : Digest) (m0 t : List Byte) : Prop where
  dvd : 64 ∣ m0.length
  lt : t.length < 64
  h : d.h = encH ((blocks m0).foldl compress initVars)
  nx : d.nx = t.length
  x : ∀ i (hi : i < t.length), d.x[i]'(by omega) = enc t[i]

/-- the digest object after having read `m` -/
def Rep (d : Digest) (m : List Byte) : Prop :=
  (∃ m0 t, m = m0 ++ t ∧ RepC d m0 t) ∧ d.len = m.length % 2 ^ 64

theorem initH_eq : initH = encH initVars := by
  simp only [initH, encH, constWord_eq]; rfl

theorem rep_new : Rep Digest.new [] := by
  refine ⟨⟨[], [], rfl, ⟨by simp, by simp, ?_, rfl, by simp⟩⟩, rfl⟩
  rw [blocks_short _ (by simp)]
  exact initH_eq

theorem goCopy_get (x : Vector (Word 8) 64) (off : ℕ) (p : List Byte) (i : ℕ) (hi : i < 64) :
    (goCopy x off (p.map enc)).1[i] =
      if h : off ≤ i ∧ i - off < p.length then enc p[i - off] else x[i] := by
  simp only [goCopy, Vector.getElem_ofFn, List.length_map]
  by_cases h : off ≤ i ∧ i - off < p.length
  · rw [dif_pos h, if_pos (by omega), List.getD_eq_getElem?_getD,
      List.getElem?_eq_getElem (by simpa using h.2)]
    simp
  · rw [dif_neg h, if_neg (by omega)]; rfl

theorem fillBuf_spec (d : Digest) (m0 t p : List Byte) (hd : RepC d m0 t) :
    ∃ d' m0' t' p', fillBuf d (p.map enc) = pure (d', p'.map enc) ∧ RepC d' m0' t' ∧ d'.len = d.len ∧
      m0 ++ t ++ p = m0' ++ t' ++ p' ∧ (p' = [] ∨ t' = []) := by
  obtain ⟨hdvd, hlt, hh, hnx, hx⟩ := hd
  unfold fillBuf
  by_cases h0 : 0 < d.nx
  swap
  · rw [if_neg h0]
    have : t = [] := List.eq_nil_of_length_eq_zero (by omega)
    exact ⟨d, m0, t, p, rfl, ⟨hdvd, hlt, hh, hnx, hx⟩, rfl, rfl, Or.inr this⟩
  rw [if_pos h0]
  have hn : (goCopy d.x d.nx (p.map enc)).2 = min (64 - t.length) p.length := by
    simp [goCopy, hnx]
  by_cases hfull : 64 - t.length ≤ p.length
  · -- buffer becomes full
    have hn' : (goCopy d.x d.nx (p.map enc)).2 = 64 - t.length := by rw [hn]; omega
    have hlist : (goCopy d.x d.nx (p.map enc)).1.toList = (t ++ p.take (64 - t.length)).map enc := by
      apply List.ext_getElem
      · simp; omega
      · intro i h1 h2
        have hi : i < 64 := by simpa using h1
        rw [Vector.getElem_toList, goCopy_get _ _ _ _ hi]
        simp only [List.getElem_map, List.getElem_append]
        by_cases hc : i < t.length
        · rw [dif_neg (by omega), dif_pos hc, hx i hc]
        · rw [dif_pos (by omega), dif_neg hc]
          simp [hnx]
    simp only [hn']
    rw [if_pos (by omega), hlist, hh, blockGeneric_spec, pure_bind]
    rw [← List.map_drop]
    refine ⟨_, m0 ++ (t ++ p.take (64 - t.length)), [], p.drop (64 - t.length), rfl, ?_, rfl,
      ?_, Or.inr rfl⟩
    · have hl : (t ++ p.take (64 - t.length)).length = 64 := by simp; omega
      refine ⟨by rw [List.length_append, hl]; omega, by simp, ?_, rfl, by simp⟩
      rw [blocks_append _ _ hdvd, List.foldl_append]
    · simp
  · have hn' : (goCopy d.x d.nx (p.map enc)).2 = p.length := by rw [hn]; omega
    simp only [hn']
    rw [if_neg (by omega)]
    have hdrop : (p.map enc).drop p.length = ([] : List Byte).map enc := by simp
    rw [hdrop]
    refine ⟨_, m0, t ++ p, [], rfl, ?_, rfl, by simp, Or.inl rfl⟩
    refine ⟨hdvd, by simp; omega, hh, by simp [hnx], ?_⟩
    intro i hi
    rw [List.length_append] at hi
    rw [goCopy_get _ _ _ _ (by omega)]
    rw [List.getElem_append]
    by_cases hc : i < t.length
    · rw [dif_neg (by omega), dif_pos hc, hx i hc]
    · rw [dif_pos (by omega), dif_neg hc]
      simp [hnx]

theorem repC_len {d : Digest} {m0 t : List Byte} {n : ℕ} (h : RepC d m0 t) :
    RepC { d with len := n } m0 t := ⟨h.dvd, h.lt, h.h, h.nx, h.x⟩

/-- after `write` of `p` the state represents the message extended by `p` -/
theorem write_spec (d : Digest) (m p : List Byte) (hd : Rep d m) :
    ∃ d', d.write (p.map enc) = pure d' ∧ Rep d' (m ++ p) := by
  obtain ⟨⟨m0, t, rfl, hc⟩, hlen⟩ := hd
  unfold Digest.write
  set d1 : Digest := { d with len := (d.len + (p.map enc).length) % 2 ^ 64 } with hd1
  have hlen1 : d1.len = (m0 ++ t ++ p).length % 2 ^ 64 := by
    simp only [hd1, hlen, List.length_map, List.length_append, Nat.mod_add_mod]
  obtain ⟨d2, m1, t1, p1, e1, hc2, hl2, heq, hor⟩ := fillBuf_spec d1 m0 t p (repC_len hc)
  simp only [e1, pure_bind]
  rw [hlen1] at hl2
  rw [heq] at hl2 ⊢
  clear e1 hlen1 hlen hc heq hd1
  clear d1
  by_cases hbig : 64 ≤ p1.length
  · have ht1 : t1 = [] := by
      rcases hor with h | h
      · simp [h] at hbig
      · exact h
    subst ht1
    rw [if_pos (by simpa using hbig)]
    set n := p1.length - p1.length % 64 with hn
    simp only [List.length_map, ← hn]
    rw [← List.map_take, hc2.h, blockGeneric_spec]
    simp only [pure_bind]
    rw [← List.map_drop]
    have hdr : (p1.drop n).length = p1.length % 64 := by
      rw [List.length_drop, hn]; have := Nat.mod_le p1.length 64; omega
    have htk : (p1.take n).length = n := by rw [List.length_take]; omega
    have hdvd : 64 ∣ (m1 ++ p1.take n).length := by
      rw [List.length_append, htk]; exact dvd_add hc2.dvd (by omega)
    have hsplit : m1 ++ [] ++ p1 = (m1 ++ p1.take n) ++ p1.drop n := by simp
    by_cases hpos : 0 < (p1.drop n).length
    · rw [if_pos (by simpa using hpos)]
      refine ⟨_, rfl, ⟨⟨_, _, hsplit, hdvd, by omega, ?_, ?_, ?_⟩, hl2⟩⟩
      · rw [blocks_append _ _ hc2.dvd, List.foldl_append]
      · simp [goCopy]; omega
      · intro i hi
        rw [goCopy_get _ _ _ _ (by omega), dif_pos (by simpa using hi)]
        rfl
    · rw [if_neg (by simpa using hpos)]
      refine ⟨_, rfl, ⟨⟨_, _, hsplit, hdvd, by omega, ?_, ?_, ?_⟩, hl2⟩⟩
      · rw [blocks_append _ _ hc2.dvd, List.foldl_append]
      · rw [hc2.nx, List.length_nil]; omega
      · intro i hi; omega
  · rw [if_neg (by simpa using hbig)]
    simp only [pure_bind, List.length_map]
    by_cases hpos : 0 < p1.length
    · have ht1 : t1 = [] := by
        rcases hor with h | h
        · simp [h] at hpos
        · exact h
      subst ht1
      rw [if_pos hpos]
      refine ⟨_, rfl, ⟨⟨m1, p1, by simp, hc2.dvd, by omega, hc2.h, ?_, ?_⟩, hl2⟩⟩
      · simp [goCopy]; omega
      · intro i hi
        rw [goCopy_get _ _ _ _ (by omega), dif_pos (by simpa using hi)]
        rfl
    · rw [if_neg hpos]
      have : p1 = [] := List.eq_nil_of_length_eq_zero (by omega)
      subst this
      exact ⟨_, rfl, ⟨m1, t1, by simp, hc2⟩, hl2⟩

theorem mapM_asWord (p : List Byte) :
    (p.map byteVar).mapM (asWord 8) = pure (p.map enc) := by
  induction p with
  | nil => rfl
  | cons b p ih =>
    simp only [List.map_cons, List.mapM_cons, ih, byteVar, asWord_enc (show 8 ≤ 253 by decide), pure_bind]

theorem Write_spec (d : Digest) (m p : List Byte) (hd : Rep d m) :
    ∃ d', d.Write (p.map byteVar) = pure d' ∧ Rep d' (m ++ p) := by
  obtain ⟨d', h1, h2⟩ := write_spec d m p hd
  refine ⟨d', ?_, h2⟩
  rw [Digest.Write, mapM_asWord, pure_bind, h1]

theorem beBytes4 (v : BitVec 32) :
    beBytes 4 v.toNat = [(v >>> 24).setWidth 8, (v >>> 16).setWidth 8, (v >>> 8).setWidth 8, v.setWidth 8] := by
  simp only [beBytes, List.cons.injEq, and_true]
  refine ⟨?_, ?_, ?_, ?_⟩ <;>
  · apply BitVec.eq_of_toNat_eq
    simp [Nat.shiftRight_eq_div_pow]

theorem beBytes8 (v : BitVec 64) :
    beBytes 8 v.toNat = [(v >>> 56).setWidth 8, (v >>> 48).setWidth 8, (v >>> 40).setWidth 8,
      (v >>> 32).setWidth 8, (v >>> 24).setWidth 8, (v >>> 16).setWidth 8, (v >>> 8).setWidth 8,
      v.setWidth 8] := by
  simp only [beBytes, List.cons.injEq, and_true]
  refine ⟨?_, ?_, ?_, ?_, ?_, ?_, ?_, ?_⟩ <;>
  · apply BitVec.eq_of_toNat_eq
    simp [Nat.shiftRight_eq_div_pow]

theorem beBytes8_mod (n : ℕ) : beBytes 8 (n % 2 ^ 64) = beBytes 8 n := by
  simp only [beBytes, List.cons.injEq, and_true]
  refine ⟨?_, ?_, ?_, ?_, ?_, ?_, ?_, ?_⟩ <;>
  · apply BitVec.eq_of_toNat_eq
    simp only [BitVec.toNat_ofNat]
    omega

theorem beBytes_length (k n : ℕ) : (beBytes k n).length = k := by
  induction k with
  | zero => rfl
  | succ k ih => simp [beBytes, ih]

/-- digest bytes of a chaining value -/
theorem putDigest (v : BitVec 32) (pre post : List (Word 8)) (hpost : 4 ≤ post.length) :
    ((pre ++ post).take pre.length ++ ·) <$> putUint32 ((pre ++ post).drop pre.length) (enc v) =
      pure (pre ++ (beBytes 4 v.toNat).map enc ++ post.drop 4) := by
  simp only [List.take_left', List.drop_left', putUint32_enc _ _ hpost, map_pure, beBytes4]
  simp

theorem checkSum_spec (d : Digest) (m : List Byte) (hd : Rep d m) :
    d.checkSum = pure ((sha256 m).map byteVar) := by
  have hlen := hd.2
  have hmod : d.len % 64 = m.length % 64 := by rw [hlen]; omega
  have htmp : (constWord 8 0x80 :: List.replicate 63 (constWord 8 0))
      = (((0x80 : Byte) :: List.replicate 63 (0 : Byte)).map enc) := by
    simp only [constWord_eq, List.map_cons, List.map_replicate]; rfl
  unfold Digest.checkSum
  simp only [htmp]
  -- padding
  have hpad : ∃ d1, (if d.len % 64 < 56 then
        d.write (((((0x80 : Byte) :: List.replicate 63 (0 : Byte)).map enc)).take (56 - d.len % 64))
      else d.write (((((0x80 : Byte) :: List.replicate 63 (0 : Byte)).map enc)).take (64 + 56 - d.len % 64))) = pure d1
      ∧ Rep d1 (m ++ [0x80] ++ List.replicate (padZeros m.length) 0) := by
    have tk : ∀ k, 1 ≤ k → k ≤ 64 → (((0x80 : Byte) :: List.replicate 63 (0 : Byte)).take k) =
        [0x80] ++ List.replicate (k - 1) 0 := by
      intro k h1 h2
      obtain ⟨j, rfl⟩ : ∃ j, k = j + 1 := ⟨k - 1, by omega⟩
      simp only [List.take_succ_cons, List.take_replicate, Nat.add_sub_cancel, List.singleton_append]
      congr 2; omega
    rw [List.append_assoc]
    by_cases h : d.len % 64 < 56
    · rw [if_pos h, ← List.map_take, tk _ (by omega) (by omega),
        show 56 - d.len % 64 - 1 = padZeros m.length by unfold padZeros; omega]
      exact write_spec d m _ hd
    · rw [if_neg h, ← List.map_take, tk _ (by omega) (by omega),
        show 64 + 56 - d.len % 64 - 1 = padZeros m.length by unfold padZeros; omega]
      exact write_spec d m _ hd
  obtain ⟨d1, e1, r1⟩ := hpad
  rw [e1, pure_bind]
  -- length
  have hl : (d.len <<< 3) % 2 ^ 64 = (8 * m.length) % 2 ^ 64 := by
    rw [hlen, Nat.shiftLeft_eq]; omega
  rw [hl, asWord_natCast (by decide) (Nat.mod_lt _ (by decide)), pure_bind,
    putUint64_enc _ _ (by simp), pure_bind]
  have hb := beBytes8 (BitVec.ofNat 64 (8 * m.length % 2 ^ 64))
  rw [BitVec.toNat_ofNat, Nat.mod_mod, beBytes8_mod] at hb
  have h8 : ∀ (a b : List Byte), a.length = 8 → (a.map enc ++ (b.map enc).drop 8).take 8 = a.map enc := by
    intro a b ha
    rw [List.take_append_of_le_length (by simp [ha]), List.take_of_length_le (by simp [ha])]
  have hb2 := congrArg (List.map enc) hb
  simp only [List.map_cons, List.map_nil] at hb2
  rw [← hb2, h8 _ _ (beBytes_length _ _)]
  obtain ⟨d2, e2, r2⟩ := write_spec d1 _ (beBytes 8 (8 * m.length)) r1
  rw [e2, pure_bind]
  have hp : m ++ [0x80] ++ List.replicate (padZeros m.length) 0 ++ beBytes 8 (8 * m.length) = pad m := rfl
  rw [hp] at r2
  obtain ⟨⟨m0, t, hm, hc⟩, -⟩ := r2
  have hpl : (pad m).length % 64 = 0 := by
    have := (pad_zeros_min m.length).1
    simp only [pad, List.length_append, List.length_cons, List.length_nil, List.length_replicate,
      beBytes_length]
    omega
  have ht : t = [] := by
    apply List.eq_nil_of_length_eq_zero
    have h1 := hc.lt
    have h2 := hc.dvd
    rw [hm, List.length_append] at hpl
    omega
  subst ht
  rw [List.append_nil] at hm
  rw [if_neg (by simpa using hc.nx), hc.h, ← hm]
  unfold sha256
  generalize (blocks (pad m)).foldl compress initVars = H
  -- digest bytes
  simp only [encH]
  have step0 : putUint32 (List.replicate 32 (Vector.replicate 8 (0 : Fr))) (enc H.a) =
      pure ((beBytes 4 H.a.toNat).map enc ++ List.replicate 28 (Vector.replicate 8 (0 : Fr))) := by
    rw [putUint32_enc _ _ (by simp), beBytes4]
    rfl
  rw [step0, pure_bind]
  have step : ∀ (v : BitVec 32) (l : List Byte) (k j : ℕ), l.length = k →
      (((l.map enc ++ List.replicate (j + 4) (Vector.replicate 8 (0 : Fr))).take k ++ ·) <$>
        putUint32 ((l.map enc ++ List.replicate (j + 4) (Vector.replicate 8 (0 : Fr))).drop k) (enc v) : Circ _) =
      pure ((l ++ beBytes 4 v.toNat).map enc ++ List.replicate j (Vector.replicate 8 (0 : Fr))) := by
    intro v l k j hk
    have := putDigest v (l.map enc) (List.replicate (j + 4) (Vector.replicate 8 (0 : Fr))) (by simp)
    rw [List.length_map, hk] at this
    rw [this]
    simp
  have L := beBytes_length
  rw [step H.b _ 4 24 (by simp [L]), pure_bind, step H.c _ 8 20 (by simp [L]), pure_bind,
    step H.d _ 12 16 (by simp [L]), pure_bind, step H.e _ 16 12 (by simp [L]), pure_bind,
    step H.f _ 20 8 (by simp [L]), pure_bind, step H.g _ 24 4 (by simp [L]), pure_bind,
    step H.h _ 28 0 (by simp [L]), pure_bind]
  congr 1
  simp only [List.replicate_zero, List.append_nil, List.map_map, List.flatMap_cons, List.flatMap_nil,
    List.append_assoc]
  apply List.map_congr_left
  intro b _
  simp [fromWord_enc, byteVar]

end Spark.Sha
