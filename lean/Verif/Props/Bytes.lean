import Verif.Model.Bytes
import Verif.Lemmas.Expand

/-!
# C75: eight bytes as a 64-bit integer
-/

namespace Spark.H2C
open Spark Circ Sha Fips Rfc

theorem mapM_bytes (v : List Byte) : (v.map byteVar).mapM (toBinary 8) = pure (v.map enc) := by
  induction v with
  | nil => rfl
  | cons a v ih => simp only [List.map_cons, List.mapM_cons, toBinary8_byte, ih, pure_bind]

theorem mapM_nonbyte {p : List Fr} (hp : ∃ v ∈ p, 256 ≤ v.val) : p.mapM (toBinary 8) = fail := by
  induction p with
  | nil => simp at hp
  | cons a p ih =>
    rw [List.mapM_cons]
    obtain ⟨v, hv, hlt⟩ := hp
    rcases List.mem_cons.1 hv with rfl | hv
    · have : toBinary 8 v = fail := toBinary_of_le (by simpa using hlt)
      rw [this, fail_bind]
    · rw [ih ⟨v, hv, hlt⟩]
      exact eq_fail fun a ha => by simp at ha

theorem natOfBits_testBit (l : List Bool) (i : ℕ) : (natOfBits l).testBit i = l.getD i false := by
  induction l generalizing i with
  | nil => simp [natOfBits]
  | cons b l ih =>
    rcases i with _ | i
    · cases b <;> simp [natOfBits, Nat.testBit_zero, Nat.add_mod]
    · rw [List.getD_cons_succ, ← ih, Nat.testBit_succ, natOfBits]
      congr 1
      cases b <;> simp <;> omega

/-- the bits of a list of bytes, first byte and lowest bit first -/
def byteBits (v : List Byte) : List Bool := v.flatMap fun b => (List.range 8).map fun i => b.toNat.testBit i

theorem byteBits_enc (v : List Byte) : (v.map enc).flatMap Vector.toList = (byteBits v).map bit := by
  have enc_list : ∀ b : Byte, (enc b).toList = ((List.range 8).map fun i => b.toNat.testBit i).map bit := by
    intro b
    have : enc b = bitsOf 8 b.toNat := by rw [bitsOf_eq_enc]; simp
    rw [this, bitsOf_toList]
  induction v with
  | nil => rfl
  | cons a v ih => rw [List.map_cons, List.flatMap_cons, ih, enc_list, byteBits, byteBits, List.flatMap_cons,
      List.map_append]

theorem byteBits_length (v : List Byte) : (byteBits v).length = 8 * v.length := by
  induction v with
  | nil => rfl
  | cons a v ih => rw [byteBits, List.flatMap_cons, List.length_append, ← byteBits, ih]; simp; omega

theorem natOfBits_append (a b : List Bool) : natOfBits (a ++ b) = natOfBits a + 2 ^ a.length * natOfBits b := by
  induction a with
  | nil => simp [natOfBits]
  | cons x a ih => simp only [List.cons_append, natOfBits, ih, List.length_cons, pow_succ]; ring

theorem natOfBits_byteBits (v : List Byte) : natOfBits (byteBits v.reverse) = OS2IP v := by
  have hrev : ∀ v : List Byte, natOfBits (byteBits v) = v.foldr (fun b acc => acc * 256 + b.toNat) 0 := by
    intro v
    induction v with
    | nil => rfl
    | cons a v ih =>
      rw [byteBits, List.flatMap_cons, natOfBits_append, ← byteBits, ih, natOfBits_range, Nat.mod_eq_of_lt a.isLt]
      simp only [List.length_map, List.length_range, List.foldr_cons]
      ring
  rw [hrev, List.foldr_reverse]
  rfl

/-- **C75, integer.** Eight bytes become the integer they denote in big-endian order; other values are refused. -/
theorem c75_uint64 :
    (∀ v : Vector Byte 8, getUint64From8Bytes (v.toList.map byteVar) = pure ((OS2IP v.toList : ℕ) : Fr)) ∧
    ∀ v : Vector Fr 8, (∃ i : Fin 8, 256 ≤ v[i].val) → ¬ (getUint64From8Bytes v.toList).Satisfiable := by
  refine ⟨fun v => getUint64_spec v.toList, fun v ⟨i, hi⟩ => ?_⟩
  rw [not_satisfiable_iff, getUint64From8Bytes, mapM_nonbyte ⟨v[i], by simp, hi⟩, fail_bind]

/-- **C75, bits.** Bit `k` of the result is bit `k` of that integer. -/
theorem c75_bits :
    (∀ v : Vector Byte 8, get64BitsFrom8Bytes (v.map byteVar) =
      pure ((List.range 64).map fun k => if (OS2IP v.toList).testBit k then 1 else 0)) ∧
    ∀ v : Vector Fr 8, (∃ i : Fin 8, 256 ≤ v[i].val) → ¬ (get64BitsFrom8Bytes v).Satisfiable := by
  refine ⟨fun v => ?_, fun v ⟨i, hi⟩ => ?_⟩
  · have e : (v.map byteVar).toList = v.toList.map byteVar := Vector.toList_map
    rw [get64BitsFrom8Bytes, e, mapM_bytes, pure_bind, ← List.map_reverse, byteBits_enc]
    congr 1
    refine List.ext_getElem (by simp [byteBits_length]) fun k h1 h2 => ?_
    rw [List.getElem_map, List.getElem_map, List.getElem_range, ← natOfBits_byteBits, natOfBits_testBit,
      List.getD_eq_getElem?_getD, List.getElem?_eq_getElem (by simpa using h1)]
    rfl
  · rw [not_satisfiable_iff, get64BitsFrom8Bytes, mapM_nonbyte ⟨v[i], by simp, hi⟩, fail_bind]

example : OS2IP [1, 2, 3, 4, 5, 6, 7, 8] = 0x0102030405060708 := by decide +kernel

end Spark.H2C
