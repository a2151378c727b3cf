import Mathlib.Data.Nat.Basic
import Mathlib.Data.List.DropRight

/-!
# Model of the parsers of the Poseidon constant tables

Strings are lists of characters (Go's strings are UTF-8; invalid encodings are not modelled).
-/

namespace Spark.Parse

/-- `unicode.IsSpace`, Latin-1 and the table `White_Space` (used by constants.go:15, 20, 31) -/
def isSpace (c : Char) : Bool :=
  c == '\t' || c == '\n' || c == '\x0b' || c == '\x0c' || c == '\r' || c == ' ' || c == '\u0085' || c == '\u00a0' ||
    c == '\u1680' || ('\u2000' ≤ c && c ≤ '\u200a') || ('\u2028' ≤ c && c ≤ '\u2029') || c == '\u202f' ||
    c == '\u205f' || c == '\u3000'

/-- `strings.TrimSpace` (constants.go:15, 20, 31) -/
def trimSpace (s : List Char) : List Char := (s.dropWhile isSpace).rdropWhile isSpace

/-- `strings.ReplaceAll(s, c, "")` for a single character `c` (constants.go:13-14, 32-33) -/
def removeAll (c : Char) (s : List Char) : List Char := s.filter (· != c)

/-- put a character in front of the first piece; part of `strings.Split` (constants.go:16, 34) -/
def consHead (x : Char) : List (List Char) → List (List Char)
  | [] => [[x]]
  | p :: ps => (x :: p) :: ps

/-- `strings.Split(s, ",")` (constants.go:16) -/
def splitComma : List Char → List (List Char)
  | [] => [[]]
  | x :: xs => if x = ',' then [] :: splitComma xs else consHead x (splitComma xs)

/-- `strings.Split(s, "],[")` (constants.go:34) -/
def splitRows : List Char → List (List Char)
  | ']' :: ',' :: '[' :: xs => [] :: splitRows xs
  | [] => [[]]
  | x :: xs => consHead x (splitRows xs)

/-- `strings.TrimPrefix(s, "0x")` (constants.go:20) -/
def trimPrefix : List Char → List Char
  | '0' :: 'x' :: s => s
  | s => s

/-- the value of a hexadecimal digit; part of `SetString` (constants.go:21) -/
def hexDigit (c : Char) : Option ℕ :=
  if '0' ≤ c ∧ c ≤ '9' then some (c.toNat - '0'.toNat)
  else if 'a' ≤ c ∧ c ≤ 'f' then some (c.toNat - 'a'.toNat + 10)
  else if 'A' ≤ c ∧ c ≤ 'F' then some (c.toNat - 'A'.toNat + 10)
  else none

/-- a non-empty sequence of hexadecimal digits; part of `SetString` (constants.go:21) -/
def hexNat (s : List Char) : Option ℕ :=
  if s = [] then none else s.foldlM (fun acc c => (hexDigit c).map fun d => acc * 16 + d) 0

/-- `new(big.Int).SetString(s, 16)` (constants.go:21): an optional sign and at least one digit -/
def setString16 : List Char → Option ℤ
  | '+' :: s => (hexNat s).map fun n => (n : ℤ)
  | '-' :: s => (hexNat s).map fun n => -(n : ℤ)
  | s => (hexNat s).map fun n => (n : ℤ)

/-- constants.go:12-28 `parseOneDimensionArray`; `none` is the panic -/
def parseOne (s : List Char) : Option (List ℤ) :=
  let ss := trimSpace (removeAll ']' (removeAll '[' s))
  (splitComma ss).mapM fun v => setString16 (trimPrefix (trimSpace v))

/-- constants.go:30-40 `parseTwoDimensionArray` -/
def parseTwo (s : List Char) : Option (List (List ℤ)) :=
  let ss := removeAll ' ' (removeAll '\n' (trimSpace s))
  (splitRows ss).mapM parseOne

end Spark.Parse
