import Verif.Lemmas.Parse

/-!
# C73: the table parsers read back what is written
-/

namespace Spark.ParseProps
open Spark Parse

/-- **C73, one dimension.** If a text is, up to square brackets anywhere, a comma-separated list of hexadecimal numerals
(with or without `0x`, surrounded by white space), `parseOneDimensionArray` returns exactly these numbers. -/
theorem c73_one (s : List Char) (ns : List ℕ) (h : Row (s.filter fun c => c != '[' && c != ']') ns) :
    parseOne s = some (ns.map fun n => (n : ℤ)) := parseOne_row s ns h

/-- **C73, two dimensions.** If a text is, up to spaces and line breaks anywhere, `[[row],[row],…,[row]]`, where each row
is a comma-separated list of hexadecimal numerals, `parseTwoDimensionArray` returns exactly these numbers. -/
theorem c73_two (s r : List Char) (nss : List (List ℕ)) (h : Rows r nss)
    (hs : s.filter (fun c => c != ' ' && c != '\n') = ['[', '['] ++ r ++ [']', ']'])
    (hsp : ∀ c ∈ s, IsBlank c → c = ' ' ∨ c = '\n') :
    parseTwo s = some (nss.map fun ns => ns.map fun n => (n : ℤ)) := by
  rw [parseTwo]
  have : removeAll ' ' (removeAll '\n' (trimSpace s)) = ['[', '['] ++ r ++ [']', ']'] := by
    rw [removeAll, removeAll, List.filter_filter, ← hs, ← filter_trim s fun c hc h => hsp c hc ((isSpace_iff c).1 h)]
  rw [this]
  exact rows_parse h _ (by simp)

/-- **C73, what is accepted.** `parseOneDimensionArray` returns `zs` exactly for the texts that are, up to square brackets
anywhere, a comma-separated list of hexadecimal numerals with optional sign with these values; on every other text it panics. -/
theorem c73_exact (s : List Char) :
    (∀ zs, parseOne s = some zs ↔ SignedRow (s.filter fun c => c != '[' && c != ']') zs) ∧
    (parseOne s = none ↔ ¬ ∃ zs, SignedRow (s.filter fun c => c != '[' && c != ']') zs) := by
  refine ⟨parseOne_iff s, ?_⟩
  rw [Option.eq_none_iff_forall_ne_some, not_exists]
  exact forall_congr' fun zs => not_congr (parseOne_iff s zs)

/-- **C73, two dimensions, what is accepted.** `parseTwoDimensionArray` returns `zss` exactly for the texts that are, up to
spaces and line breaks anywhere, pieces separated by `],[` of this kind; on every other text it panics. -/
theorem c73_two_exact (s : List Char) :
    (∀ zss, parseTwo s = some zss ↔ SignedRows (s.filter fun c => c != ' ' && c != '\n') zss) ∧
    (parseTwo s = none ↔ ¬ ∃ zss, SignedRows (s.filter fun c => c != ' ' && c != '\n') zss) := by
  refine ⟨parseTwo_iff s, ?_⟩
  rw [Option.eq_none_iff_forall_ne_some, not_exists]
  exact forall_congr' fun zss => not_congr (parseTwo_iff s zss)

/-- For instance an empty entry (a trailing comma). -/
theorem c73_trailing_comma (r : List Char) (ns : List ℕ) (h : Row r ns) : parseOne (r ++ [',']) = none := by
  rw [parseOne]
  have : removeAll ']' (removeAll '[' (r ++ [','])) = r ++ [','] := by
    rw [removeAll, removeAll, List.filter_filter, List.filter_eq_self]
    intro c hc
    rcases List.mem_append.1 hc with hc | hc
    · have := h.chars c hc
      simp [this.1, this.2]
    · rw [List.mem_singleton.1 hc]; decide
  rw [parse_trim, this, trailing h]

example : parseOne "[0x1f, 0xA,7 ]".toList = some [31, 10, 7] := by decide +kernel
example : parseOne "[0x-1f]".toList = some [-31] ∧ parseOne "[-0x1f]".toList = none := by decide +kernel
example : parseTwo "[[0x1f, 0xA],\n [7]]".toList = some [[31, 10], [7]] := by decide +kernel

/-- the hypotheses of `c73_two` on that text -/
example : Rows "0x1f,0xA],[7".toList [[31, 10], [7]] ∧
    "[[0x1f, 0xA],\n [7]]".toList.filter (fun c => c != ' ' && c != '\n') = ['[', '['] ++ "0x1f,0xA],[7".toList ++
      [']', ']'] ∧
    ∀ c ∈ "[[0x1f, 0xA],\n [7]]".toList, IsBlank c → c = ' ' ∨ c = '\n' := by
  refine ⟨?_, by decide +kernel, by simp [IsBlank]⟩
  have n1 : Numeral ['1', 'f'] 31 := Numeral.snoc ['1'] 1 'f' 15 (.single '1' 1 (.inl rfl)) (.inl rfl)
  have n2 : Numeral ['A'] 10 := .single 'A' 10 (.inr rfl)
  have n3 : Numeral ['7'] 7 := .single '7' 7 (.inl rfl)
  exact Rows.cons _ [31, 10] _ [[7]] (.cons _ 31 _ [10] (.mk [] _ [] 31 true (by simp) (by simp) n1)
    (.last _ 10 (.mk [] _ [] 10 true (by simp) (by simp) n2))) (.last _ [7] (.last _ 7 (.mk [] _ [] 7 false (by simp) (by simp) n3)))

end Spark.ParseProps
