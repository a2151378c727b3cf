import Verif.Lemmas.Expand

/-!
# Properties C07 - C09: `ExpandMsgXmd` and `HashToField`
-/

namespace Spark.H2C

open Circ Sha Fips Rfc

/-- **C07.** For every 32-byte message and every count from 1 to 127, `ExpandMsgXmd` returns exactly
(honestly and in every satisfying assignment) the `64·count` bytes of RFC 9380 `expand_message_xmd`. -/
theorem c07_expand_msg_xmd (msg : Vector Byte 32) (count : ℕ) (h1 : 1 ≤ count) (h2 : count ≤ 127) :
    ∃ out, expandMessageXmd msg.toList (ascii dstString) (64 * count) = some out ∧
      out.length = 64 * count ∧
      (expandMsgXmd (msg.map byteVar) count).Exact (out.map byteVar) := by
  refine ⟨_, by rw [Nat.mul_comm]; exact expandSpec_eq _ _ h2, ?_, exact_iff_pure.2 (expandMsgXmd_eq msg count h1)⟩
  rw [outBlocks_length]; omega

/-- the length tag really is the 43-byte tag and the hypotheses hold for the count used by `HashToG2` -/
example : (ascii dstString).length = 43 ∧ 1 ≤ 4 ∧ 4 ≤ 127 := by decide +kernel

/-- **C07** (out of range): count 0 panics; above 127 RFC 9380 aborts, the code does not. -/
theorem c07_out_of_range (msg : Vector Byte 32) (count : ℕ) :
    (count = 0 → ¬ (expandMsgXmd (msg.map byteVar) count).Satisfiable) ∧
    (128 ≤ count → expandMessageXmd msg.toList (ascii dstString) (64 * count) = none ∧
      (expandMsgXmd (msg.map byteVar) count).Satisfiable) := by
  constructor
  · rintro rfl
    rw [not_satisfiable_iff]
    refine eq_fail fun a ha => ?_
    simp [expandMsgXmd] at ha
  · intro h
    constructor
    · unfold expandMessageXmd
      simp only []
      rw [if_pos (by omega)]
    · exact (exact_iff_pure.2 (expandMsgXmd_eq msg count (by omega))).satisfiable

/-- **C07** (input check): if some entry of the message array is not a byte, no assignment satisfies the
constraints. -/
theorem c07_non_byte (msg : Vector Fr 32) (count : ℕ) (h : ∃ i : Fin 32, 256 ≤ msg[i].val) :
    ¬ (expandMsgXmd msg count).Satisfiable := by
  obtain ⟨i, hi⟩ := h
  have key : ∀ p : List Fr, (∃ v ∈ p, 256 ≤ v.val) → hash p = fail := by
    intro p hp
    have : p.mapM (asWord 8) = fail := by
      induction p with
      | nil => simp at hp
      | cons a p ih =>
        rw [List.mapM_cons]
        obtain ⟨v, hv, hlt⟩ := hp
        rcases List.mem_cons.1 hv with rfl | hv
        · have : asWord 8 v = fail := toBinary_of_le (by simpa using hlt)
          rw [this, fail_bind]
        · rw [ih ⟨v, hv, hlt⟩]
          exact eq_fail fun a ha => by simp at ha
    rw [hash, Digest.Write, this, fail_bind, fail_bind]
  rw [not_satisfiable_iff, expandMsgXmd]
  simp only []
  rw [key _ ⟨msg[i], by simp, hi⟩, fail_bind]

theorem elems_run (emx : List Byte) (count i : ℕ) (hlen : emx.length = 64 * count) (hi : i < count) :
    (hashToFieldElem (emx.map byteVar) i) = hint (some ((OS2IP (chunk 64 i emx) : ℕ) : Fp)) := by
  have hl : (chunk 64 i emx).length = 64 := by
    rw [chunk, List.length_take, List.length_drop]; omega
  have hm : ((List.range 8).mapM fun j =>
      getUint64From8Bytes (((emx.map byteVar).drop (64 * (i + 1) - 8 * (j + 1))).take 8)) =
      (pure ((List.range 8).map fun j =>
        ((OS2IP (((chunk 64 i emx).drop (64 - 8 * (j + 1))).take 8) : ℕ) : Fr)) : Circ (List Fr)) := by
    apply mapM_pure
    intro j hj
    rw [List.mem_range] at hj
    rw [← List.map_drop, ← List.map_take, getUint64_spec]
    congr 3
    rw [chunk, List.drop_take, List.take_take, List.drop_drop]
    congr 1
    · omega
    · congr 1; omega
  rw [hashToFieldElem, hm, pure_bind, getRawLimbsBy8Uint64, limbs_of_chunk _ hl]

/-- honest run of a list of hints -/
theorem mapM_hint_run {α β : Type} (l : List α) (f : α → Circ β) (g : α → β)
    (h : ∀ a ∈ l, f a = hint (some (g a))) : (l.mapM f).run = some (l.map g) := by
  induction l with
  | nil => rfl
  | cons a l ih =>
    rw [List.mapM_cons, h a List.mem_cons_self]
    simp [ih (fun b hb => h b (List.mem_cons_of_mem _ hb))]

/-- a list of hints can be anything of the right length -/
theorem mapM_hint_sat {α β : Type} (l : List α) (f : α → Circ β) (g : α → β)
    (h : ∀ a ∈ l, f a = hint (some (g a))) (out : List β) : (l.mapM f).sat out ↔ out.length = l.length := by
  induction l generalizing out with
  | nil => simp
  | cons a l ih =>
    rw [List.mapM_cons, h a List.mem_cons_self]
    simp only [sat_bind, sat_hint, true_and, sat_pure, List.length_cons]
    have ih' := ih (fun b hb => h b (List.mem_cons_of_mem _ hb))
    constructor
    · rintro ⟨b, out', ho, rfl⟩
      simp [(ih' out').1 ho]
    · intro ho
      cases out with
      | nil => simp at ho
      | cons b out => exact ⟨b, out, (ih' out).2 (by simpa using ho), rfl⟩

/-- **C08.** With honest hints, `HashToField(msg, 2·n)` returns the `n` elements of Fp2 of RFC 9380
`hash_to_field(msg, n)`, for `1 ≤ n ≤ 63`. -/
theorem c08_hash_to_field_honest (msg : Vector Byte 32) (n : ℕ) (h1 : 1 ≤ n) (h2 : n ≤ 63) :
    (hashToField (msg.map byteVar) (2 * n)).run = hashToFieldFp2 msg.toList (ascii dstString) n ∧
      ((hashToField (msg.map byteVar) (2 * n)).run.isSome) := by
  have hs := expandSpec_eq msg.toList (2 * n) (by omega)
  have hm := expandMsgXmd_eq msg (2 * n) (by omega)
  generalize outBlocks _ (2 * (2 * n)) = out at hs hm
  have hout : out.length = 64 * (2 * n) := by
    obtain ⟨o, ho, hl, -⟩ := c07_expand_msg_xmd msg (2 * n) (by omega) (by omega)
    rw [Nat.mul_comm 64, hs] at ho
    cases ho; exact hl
  have hrun := mapM_hint_run (List.range (2 * n)) (hashToFieldElem (out.map byteVar))
    (fun i => ((OS2IP (chunk 64 i out) : ℕ) : Fp))
    (fun i hi => elems_run out _ i hout (List.mem_range.1 hi))
  have key : (hashToField (msg.map byteVar) (2 * n)).run = some ((List.range n).map fun i =>
      (⟨(OS2IP (chunk 64 (2 * i) out) : Fp), (OS2IP (chunk 64 (2 * i + 1) out) : Fp)⟩ : E2 Fp)) := by
    rw [hashToField, hm, pure_bind, run_bind, hrun]
    simp only [Option.bind_some, run_pure, Option.some.injEq, Nat.mul_div_cancel_left n (show 0 < 2 by decide)]
    apply List.map_congr_left
    intro i hi
    rw [List.mem_range] at hi
    rw [List.getD_eq_getElem?_getD, List.getD_eq_getElem?_getD, List.getElem?_map, List.getElem?_map,
      List.getElem?_range (by omega), List.getElem?_range (by omega)]
    simp [Nat.mul_comm]
  constructor
  · rw [key, hashToFieldFp2, Nat.mul_comm n 2, hs]
    rfl
  · rw [key]; rfl

/-- **C09 is false of the code**: for every byte message, *every* list of `n` elements of Fp2 is the
result of some satisfying assignment of `HashToField(msg, 2·n)` - the prover chooses the hash. -/
theorem c09_hash_to_field_unconstrained (msg : Vector Byte 32) (n : ℕ) (h1 : 1 ≤ n)
    (target : List (E2 Fp)) (ht : target.length = n) :
    (hashToField (msg.map byteVar) (2 * n)).sat target := by
  have hm := expandMsgXmd_eq msg (2 * n) (by omega)
  have hlen := outBlocks_length (sha256 (I2OSP 0 64 ++ msg.toList ++ I2OSP (2 * n * 64) 2 ++ I2OSP 0 1 ++ dstP))
    (2 * (2 * n))
  generalize outBlocks _ (2 * (2 * n)) = out at hm hlen
  rw [hashToField, hm, pure_bind, sat_bind]
  refine ⟨target.flatMap fun e => [e.A0, e.A1], ?_, ?_⟩
  · refine (mapM_hint_sat _ _ (fun i => ((OS2IP (chunk 64 i out) : ℕ) : Fp))
      (fun i hi => elems_run out (2 * n) i (by rw [hlen]; ring) (List.mem_range.1 hi)) _).2 ?_
    rw [List.length_range, ← ht]
    clear hlen hm ht h1
    induction target with
    | nil => rfl
    | cons e t ih => rw [List.flatMap_cons, List.length_append, ih]; simp; omega
  · rw [sat_pure, Nat.mul_div_cancel_left n (show 0 < 2 by decide)]
    apply List.ext_getElem
    · simp [ht]
    · intro i hi hi2
      rw [List.getElem_map, List.getElem_range]
      have : ∀ (l : List (E2 Fp)) (i : ℕ) (h : i < l.length),
          (l.flatMap fun e => [e.A0, e.A1]).getD (i * 2) 0 = l[i].A0 ∧
          (l.flatMap fun e => [e.A0, e.A1]).getD (i * 2 + 1) 0 = l[i].A1 := by
        intro l
        induction l with
        | nil => intro i h; simp at h
        | cons e l ih =>
          intro i h
          cases i with
          | zero => exact ⟨rfl, rfl⟩
          | succ i =>
            have := ih i (by simpa using h)
            rw [List.flatMap_cons, List.getElem_cons_succ]
            rw [show (i + 1) * 2 = i * 2 + 1 + 1 by ring]
            exact this
      obtain ⟨h3, h4⟩ := this target i hi
      rw [h3, h4]

/-- **C09 is false of the code** (negated claim): there are two satisfying assignments for the same
message with different hash results, for every message. -/
theorem c09_not_bound (msg : Vector Byte 32) :
    ¬ ∃ f : Vector Byte 32 → List (E2 Fp), ∀ out, (hashToField (msg.map byteVar) 4).sat out → out = f msg := by
  rintro ⟨f, hf⟩
  have h0 := hf _ (c09_hash_to_field_unconstrained msg 2 (by omega) [0, 0] rfl)
  have h1 := hf _ (c09_hash_to_field_unconstrained msg 2 (by omega) [1, 0] rfl)
  rw [← h0] at h1
  have : (1 : E2 Fp) = 0 := by injection h1
  exact one_ne_zero this

/-- **C09** (what remains): the honest result is determined by the message (C08), and the length of the
result is fixed. -/
theorem c09_length_partial (msg : Vector Byte 32) (n : ℕ) (out : List (E2 Fp))
    (h : (hashToField (msg.map byteVar) (2 * n)).sat out) : out.length = n := by
  rw [hashToField, sat_bind] at h
  obtain ⟨emx, -, h⟩ := h
  rw [sat_bind] at h
  obtain ⟨u, -, h⟩ := h
  rw [sat_pure] at h
  rw [h]; simp

end Spark.H2C
