import Mathlib.Data.Nat.Notation
import Mathlib.Data.Int.Notation

/-!
# Specification: the text of a table of hexadecimal numbers
-/

namespace Spark.ParseProps

/-- the 25 characters with Unicode's property White_Space: tab, line feed, vertical tab, form feed, carriage return, space, next
line, no-break space, Ogham space mark, the spaces U+2000 to U+200A, line and paragraph separator, narrow no-break space, medium
mathematical space, ideographic space -/
def IsBlank (c : Char) : Prop :=
  c.toNat ∈ [0x9, 0xA, 0xB, 0xC, 0xD, 0x20, 0x85, 0xA0, 0x1680, 0x2000, 0x2001, 0x2002, 0x2003, 0x2004, 0x2005, 0x2006, 0x2007,
    0x2008, 0x2009, 0x200A, 0x2028, 0x2029, 0x202F, 0x205F, 0x3000]

/-- `c` is the hexadecimal digit `d`, in either case -/
def IsDigit (c : Char) (d : ℕ) : Prop :=
  "0123456789abcdef".toList[d]? = some c ∨ "0123456789ABCDEF".toList[d]? = some c

/-- `ds` is a non-empty hexadecimal numeral (digits of either case) with value `n` -/
inductive Numeral : List Char → ℕ → Prop
  | single (c : Char) (d : ℕ) : IsDigit c d → Numeral [c] d
  | snoc (ds : List Char) (n : ℕ) (c : Char) (d : ℕ) : Numeral ds n → IsDigit c d →
      Numeral (ds ++ [c]) (n * 16 + d)

/-- one entry of a table: a numeral with or without `0x`, surrounded by white space -/
inductive Entry : List Char → ℕ → Prop
  | mk (pre ds post : List Char) (n : ℕ) (prefixed : Bool) : (∀ c ∈ pre, IsBlank c) → (∀ c ∈ post, IsBlank c) →
      Numeral ds n → Entry (pre ++ (if prefixed then ['0', 'x'] else []) ++ ds ++ post) n

/-- entries separated by commas -/
inductive Row : List Char → List ℕ → Prop
  | last (e : List Char) (n : ℕ) : Entry e n → Row e [n]
  | cons (e : List Char) (n : ℕ) (r : List Char) (ns : List ℕ) : Entry e n → Row r ns → Row (e ++ ',' :: r) (n :: ns)

/-- rows separated by `],[` -/
inductive Rows : List Char → List (List ℕ) → Prop
  | last (r : List Char) (ns : List ℕ) : Row r ns → Rows r [ns]
  | cons (r : List Char) (ns : List ℕ) (rs : List Char) (nss : List (List ℕ)) : Row r ns → Rows rs nss →
      Rows (r ++ [']', ',', '['] ++ rs) (ns :: nss)

/-- a numeral with an optional sign -/
inductive Signed : List Char → ℤ → Prop
  | plain (ds : List Char) (n : ℕ) : Numeral ds n → Signed ds n
  | plus (ds : List Char) (n : ℕ) : Numeral ds n → Signed ('+' :: ds) n
  | minus (ds : List Char) (n : ℕ) : Numeral ds n → Signed ('-' :: ds) (-n)

/-- a signed numeral with or without `0x` in front of the sign, surrounded by white space -/
inductive SignedEntry : List Char → ℤ → Prop
  | mk (pre t post : List Char) (z : ℤ) (prefixed : Bool) : (∀ c ∈ pre, IsBlank c) → (∀ c ∈ post, IsBlank c) →
      Signed t z → SignedEntry (pre ++ (if prefixed then ['0', 'x'] else []) ++ t ++ post) z

/-- signed entries separated by commas -/
inductive SignedRow : List Char → List ℤ → Prop
  | last (e : List Char) (z : ℤ) : SignedEntry e z → SignedRow e [z]
  | cons (e : List Char) (z : ℤ) (r : List Char) (zs : List ℤ) : SignedEntry e z → SignedRow r zs →
      SignedRow (e ++ ',' :: r) (z :: zs)

/-- pieces separated by `],[` (which does not occur within a piece), each a row up to square brackets anywhere -/
inductive SignedRows : List Char → List (List ℤ) → Prop
  | last (p : List Char) (zs : List ℤ) : ¬ [']', ',', '['] <:+: p →
      SignedRow (p.filter fun c => c != '[' && c != ']') zs → SignedRows p [zs]
  | cons (p : List Char) (zs : List ℤ) (r : List Char) (zss : List (List ℤ)) : ¬ [']', ',', '['] <:+: p →
      SignedRow (p.filter fun c => c != '[' && c != ']') zs → SignedRows r zss →
      SignedRows (p ++ [']', ',', '['] ++ r) (zs :: zss)

end Spark.ParseProps
