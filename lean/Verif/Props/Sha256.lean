import Verif.Lemmas.Sha256Digest

/-!
# Properties C01 - C06: the SHA-256 gadget

`Circ.Exact c a` says: the honest solver succeeds with result `a`, and in every satisfying assignment
the result is `a`.  `Fips.sha256` is the specification of `Spec/Sha256.lean`.
-/

namespace Spark.Sha

open Circ Fips

/-- **C01.** `New`, `Write(msg)`, `Sum()` yields exactly the SHA-256 digest of `msg`, for every byte
string (FIPS 180-4 is defined for lengths below `2^61` bytes; no bound is needed here). -/
theorem c01_sha256_correct (msg : List Byte) :
    (do let d ← Digest.new.Write (msg.map byteVar)
        let (out, _) ← d.Sum
        pure out : Circ (List Fr)).Exact ((sha256 msg).map byteVar) := by
  obtain ⟨d, h1, h2⟩ := Write_spec _ _ msg rep_new
  rw [List.nil_append] at h2
  rw [exact_iff_pure, h1, pure_bind, Digest.Sum, checkSum_spec d msg h2]
  simp only [pure_bind]

theorem writes_spec (ws : List (List Byte)) (d : Digest) (m : List Byte) (hd : Rep d m) :
    ∃ d', ws.foldlM (fun d p => d.Write (p.map byteVar)) d = pure d' ∧ Rep d' (m ++ ws.flatten) := by
  induction ws generalizing d m with
  | nil => exact ⟨d, rfl, by simpa using hd⟩
  | cons w ws ih =>
    obtain ⟨d1, h1, h2⟩ := Write_spec d m w hd
    obtain ⟨d2, h3, h4⟩ := ih d1 _ h2
    refine ⟨d2, ?_, by simpa using h4⟩
    rw [List.foldlM_cons, h1, pure_bind, h3]

/-- **C02.** The digest depends only on the concatenation of the written byte strings. -/
theorem c02_split_independent (ws : List (List Byte)) :
    (do let d ← ws.foldlM (fun d p => d.Write (p.map byteVar)) Digest.new
        let (out, _) ← d.Sum
        pure out : Circ (List Fr)).Exact ((sha256 ws.flatten).map byteVar) := by
  obtain ⟨d, h1, h2⟩ := writes_spec ws _ _ rep_new
  rw [List.nil_append] at h2
  rw [exact_iff_pure, h1, pure_bind, Digest.Sum, checkSum_spec d _ h2]
  simp only [pure_bind]

/-- Two ways to split the same message give the same circuit outcome. -/
theorem c02_same_concat (ws ws' : List (List Byte)) (h : ws.flatten = ws'.flatten) :
    (do let d ← ws.foldlM (fun d p => d.Write (p.map byteVar)) Digest.new
        let (out, _) ← d.Sum
        pure out : Circ (List Fr)) =
    (do let d ← ws'.foldlM (fun d p => d.Write (p.map byteVar)) Digest.new
        let (out, _) ← d.Sum
        pure out : Circ (List Fr)) := by
  rw [(c02_split_independent ws).eq_pure, (c02_split_independent ws').eq_pure, h]

example : ([[1, 2], [], [3]] : List (List Byte)).flatten = ([[], [1], [2, 3]] : List (List Byte)).flatten ∧
    ([[1, 2], [], [3]] : List (List Byte)) ≠ [[], [1], [2, 3]] := by decide

/-- A call on the digest object. -/
inductive Call
  | write (p : List Byte)
  | sum
  | reset

/-- Running a history of calls on a digest object, collecting what the `Sum` calls return. -/
def runCalls : Digest → List Call → Circ (List (List Fr))
  | _, [] => pure []
  | d, .write p :: cs => do let d ← d.Write (p.map byteVar); runCalls d cs
  | d, .sum :: cs => do let (out, d) ← d.Sum; let r ← runCalls d cs; pure (out :: r)
  | d, .reset :: cs => runCalls d.reset cs

/-- What the `Sum` calls should return: the hash of everything written since the last reset. -/
def expectedSums : List Byte → List Call → List (List Byte)
  | _, [] => []
  | m, .write p :: cs => expectedSums (m ++ p) cs
  | m, .sum :: cs => sha256 m :: expectedSums m cs
  | _, .reset :: cs => expectedSums [] cs

theorem rep_reset (d : Digest) : Rep d.reset [] := by
  refine ⟨⟨[], [], rfl, ⟨by simp, by simp, ?_, rfl, by simp⟩⟩, rfl⟩
  rw [blocks_short _ (by simp)]
  exact initH_eq

/-- **C03.** For every interleaving of `Write`, `Sum` and `Reset`, every `Sum` returns the hash of what
was written since the last `Reset`; in particular `Sum` does not disturb later results and the
consistency panic (`d.nx != 0`, a `fail` of the model) is never reached. -/
theorem c03_sum_nondestructive (cs : List Call) :
    (runCalls Digest.new cs).Exact ((expectedSums [] cs).map (List.map byteVar)) := by
  rw [exact_iff_pure]
  have key : ∀ (cs : List Call) (d : Digest) (m : List Byte), Rep d m →
      runCalls d cs = pure ((expectedSums m cs).map (List.map byteVar)) := by
    intro cs
    induction cs with
    | nil => intro d m _; rfl
    | cons c cs ih =>
      intro d m hd
      cases c with
      | write p =>
        obtain ⟨d', h1, h2⟩ := Write_spec d m p hd
        rw [runCalls, h1, pure_bind, ih d' _ h2, expectedSums]
      | sum =>
        rw [runCalls, Digest.Sum, checkSum_spec d m hd]
        simp only [pure_bind]
        rw [ih d m hd, pure_bind, expectedSums, List.map_cons]
      | reset =>
        rw [runCalls, ih _ _ (rep_reset d), expectedSums]
  exact key cs _ _ rep_new

example : expectedSums [] [.write [1], .sum, .sum, .write [2], .reset, .write [3], .sum] =
    [sha256 [1], sha256 [1], sha256 [3]] := rfl

/-- **C04.** Writing a list containing a variable that is not a byte makes the constraints
unsatisfiable, whatever the state of the digest and whatever the prover does. -/
theorem c04_non_bytes_rejected (d : Digest) (p : List Fr) (h : ∃ v ∈ p, 256 ≤ v.val) :
    ¬ (d.Write p).Satisfiable := by
  have key : p.mapM (asWord 8) = fail := by
    induction p with
    | nil => simp at h
    | cons a p ih =>
      rw [List.mapM_cons]
      obtain ⟨v, hv, hlt⟩ := h
      rcases List.mem_cons.1 hv with rfl | hv
      · have : asWord 8 v = fail := toBinary_of_le (by simpa using hlt)
        rw [this, fail_bind]
      · rw [ih ⟨v, hv, hlt⟩]
        exact eq_fail fun a ha => by simp at ha
  rw [not_satisfiable_iff, Digest.Write, key, fail_bind]

/-- Conversely byte inputs are always accepted: `Write` succeeds on a fresh digest exactly for lists of
values below 256. -/
theorem c04_accepts_exactly_bytes (p : List Fr) :
    (Digest.new.Write p).Satisfiable ↔ ∀ v ∈ p, v.val < 256 := by
  constructor
  · intro h v hv
    by_contra hlt
    exact c04_non_bytes_rejected _ p ⟨v, hv, by omega⟩ h
  · intro h
    have : p = (p.map fun v => BitVec.ofNat 8 v.val).map byteVar := by
      rw [List.map_map]
      conv_lhs => rw [← List.map_id p]
      apply List.map_congr_left
      intro v hv
      have := h v hv
      simp only [id, Function.comp, byteVar, BitVec.toNat_ofNat]
      rw [Nat.mod_eq_of_lt (by omega), ZMod.natCast_zmod_val]
    obtain ⟨d, h1, -⟩ := Write_spec _ _ (p.map fun v => BitVec.ofNat 8 v.val) rep_new
    rw [this, h1]
    exact (exact_pure d).satisfiable

example : 256 ≤ (300 : Fr).val := by decide +kernel
example : ((300 : Fr).val < 256) = False := by
  rw [eq_iff_iff]; decide +kernel

section words
variable {n : ℕ}

/-- **C05** (`and`): bitwise conjunction of any number of words of any width. -/
theorem c05_and (l : List (BitVec n)) :
    (wAnd (l.map enc)).Exact (enc (l.foldl (· &&& ·) (BitVec.allOnes n))) :=
  exact_iff_pure.2 (wAnd_enc l)

/-- **C05** (`or`). -/
theorem c05_or (l : List (BitVec n)) : (wOr (l.map enc)).Exact (enc (l.foldl (· ||| ·) 0)) :=
  exact_iff_pure.2 (wOr_enc l)

/-- **C05** (`xor`). -/
theorem c05_xor (l : List (BitVec n)) : (wXor (l.map enc)).Exact (enc (l.foldl (· ^^^ ·) 0)) :=
  exact_iff_pure.2 (wXor_enc l)

/-- **C05** (`not`). -/
theorem c05_not (v : BitVec n) : (wNot (enc v)).Exact (enc (~~~v)) := exact_iff_pure.2 (wNot_enc v)

/-- **C05** (`lrot`, positive shift up to the width): rotation to the left. -/
theorem c05_lrot (v : BitVec n) (s : ℕ) (hs : s ≤ n) : (lrot (enc v) s).Exact (enc (v.rotateLeft s)) :=
  exact_iff_pure.2 (lrot_enc v s hs)

/-- **C05** (`lrot`, negative shift): rotation to the right, by any amount. -/
theorem c05_lrot_neg (v : BitVec n) (s : ℕ) : (lrot (enc v) (-s)).Exact (enc (v.rotateRight s)) :=
  exact_iff_pure.2 (lrot_neg_enc v s)

/-- **C05** (`lrot`, out of range): a positive shift above the width panics. -/
theorem c05_lrot_out_of_range (w : Word n) (s : ℕ) (hn : 2 ≤ n) (hs : n < s) :
    ¬ (lrot w s).Satisfiable :=
  not_satisfiable_iff.2 (lrot_fail w s hn hs)

/-- **C05** (`rshift`). -/
theorem c05_rshift (v : BitVec n) (s : ℕ) (hs : s ≤ n) : (rshift (enc v) s).Exact (enc (v >>> s)) :=
  exact_iff_pure.2 (rshift_enc v s hs)

/-- **C05** (`lshift`). -/
theorem c05_lshift (v : BitVec n) (s : ℕ) (hs : s ≤ n) : (lshift (enc v) s).Exact (enc (v <<< s)) :=
  exact_iff_pure.2 (lshift_enc v s hs)

end words

/-- **C05** (`add`): addition modulo `2^32` of `2 + |l|` words.  The bound keeps the requested number of
binary digits (33 + |l|) below the bit length of the scalar field. -/
theorem c05_add (a b : BitVec 32) (l : List (BitVec 32)) (hl : l.length ≤ 220) :
    (wAdd (enc a) (enc b) (l.map enc)).Exact (enc (l.foldl (· + ·) (a + b))) :=
  exact_iff_pure.2 (wAdd_enc a b l hl)

/-- **C05** (encoding): distinct words have distinct bit variables, so the statements above determine
the machine word; decomposing and recomposing a word is the identity. -/
theorem c05_encoding (v v' : BitVec 64) :
    (enc v = enc v' ↔ v = v') ∧ fromWord (enc v) = (v.toNat : Fr) ∧
      (asWord 64 (v.toNat : Fr)).Exact (enc v) :=
  ⟨enc_injective.eq_iff, fromWord_enc v, exact_iff_pure.2 (asWord_enc (by decide) v)⟩

example : ([0xffffffff#32, 2#32].foldl (· + ·) (0xffffffff#32 + 1#32)) = 1#32 := by decide

/-- **C06** (`PutUint32`). -/
theorem c06_putUint32 (b : List (Word 8)) (v : BitVec 32) (hb : 4 ≤ b.length) :
    (putUint32 b (enc v)).Exact ((beBytes 4 v.toNat).map enc ++ b.drop 4) := by
  rw [exact_iff_pure, putUint32_enc b v hb, beBytes4]; rfl

/-- **C06** (`PutUint64`). -/
theorem c06_putUint64 (b : List (Word 8)) (v : BitVec 64) (hb : 8 ≤ b.length) :
    (putUint64 b (enc v)).Exact ((beBytes 8 v.toNat).map enc ++ b.drop 8) := by
  rw [exact_iff_pure, putUint64_enc b v hb, beBytes8]; rfl

/-- **C06** (short destination): both functions panic. -/
theorem c06_short (b : List (Word 8)) (v : Word 32) (v' : Word 64) :
    (b.length < 4 → ¬ (putUint32 b v).Satisfiable) ∧ (b.length < 8 → ¬ (putUint64 b v').Satisfiable) := by
  constructor
  · intro h; rw [not_satisfiable_iff, putUint32, if_pos h]
  · intro h; rw [not_satisfiable_iff, putUint64, if_pos h]

example : beBytes 4 0x01020304 = [1, 2, 3, 4] := by decide

end Spark.Sha
