import Verif.Model.Parse
import Verif.Spec.Table
import Mathlib.Tactic.Ring

/-!
# Helper lemmas for the table parsers
-/

namespace Spark.ParseProps
open Spark Parse

theorem char_eq_iff (c d : Char) : c = d ↔ c.toNat = d.toNat :=
  ⟨congrArg _, fun h => by rw [← Char.ofNat_toNat c, h, Char.ofNat_toNat]⟩

theorem isSpace_iff (c : Char) : isSpace c = true ↔ IsBlank c := by
  simp only [isSpace, IsBlank, Bool.or_eq_true, Bool.and_eq_true, decide_eq_true_eq, beq_iff_eq, List.mem_cons,
    List.not_mem_nil, or_false, char_eq_iff, Char.le_def]
  have h : ∀ a b : Char, a.val ≤ b.val ↔ a.toNat ≤ b.toNat := fun a b => Iff.rfl
  simp only [h, show '\t'.toNat = 0x9 from rfl, show '\n'.toNat = 0xA from rfl, show '\x0b'.toNat = 0xB from rfl,
    show '\x0c'.toNat = 0xC from rfl, show '\r'.toNat = 0xD from rfl, show ' '.toNat = 0x20 from rfl,
    show '\u0085'.toNat = 0x85 from rfl, show '\u00a0'.toNat = 0xA0 from rfl, show '\u1680'.toNat = 0x1680 from rfl,
    show '\u2000'.toNat = 0x2000 from rfl, show '\u200a'.toNat = 0x200A from rfl, show '\u2028'.toNat = 0x2028 from rfl,
    show '\u2029'.toNat = 0x2029 from rfl, show '\u202f'.toNat = 0x202F from rfl, show '\u205f'.toNat = 0x205F from rfl,
    show '\u3000'.toNat = 0x3000 from rfl]
  omega

theorem IsDigit.hex {c : Char} {d : ℕ} (h : IsDigit c d) : hexDigit c = some d := by
  have hd : d < 16 := by
    by_contra hd
    rcases h with h | h <;> rw [List.getElem?_eq_none (by simpa using hd)] at h <;> cases h
  have key : ∀ d : Fin 16, (("0123456789abcdef".toList[d.val]?).bind hexDigit = some d.val) ∧
      (("0123456789ABCDEF".toList[d.val]?).bind hexDigit = some d.val) := by decide
  have := key ⟨d, hd⟩
  rcases h with h | h
  · have := this.1; dsimp only at this; rwa [h] at this
  · have := this.2; dsimp only at this; rwa [h] at this

theorem digit_lt {c : Char} {d : ℕ} (h : hexDigit c = some d) : 48 ≤ c.toNat ∧ c.toNat ≤ 102 ∧ d < 16 := by
  rw [hexDigit] at h
  have e : '9'.toNat = 57 ∧ '0'.toNat = 48 ∧ 'f'.toNat = 102 ∧ 'a'.toNat = 97 ∧ 'F'.toNat = 70 ∧ 'A'.toNat = 65 :=
    ⟨rfl, rfl, rfl, rfl, rfl, rfl⟩
  split at h
  · next h' =>
    have h1 : c.toNat ≤ '9'.toNat := h'.2
    have h0 : '0'.toNat ≤ c.toNat := h'.1
    simp only [Option.some.injEq] at h
    omega
  · split at h
    · next h' =>
      have h1 : c.toNat ≤ 'f'.toNat := h'.2
      have h0 : 'a'.toNat ≤ c.toNat := h'.1
      simp only [Option.some.injEq] at h
      omega
    · split at h
      · next h' =>
        have h1 : c.toNat ≤ 'F'.toNat := h'.2
        have h0 : 'A'.toNat ≤ c.toNat := h'.1
        simp only [Option.some.injEq] at h
        omega
      · cases h

theorem digit_ne {c : Char} {d : ℕ} (h : hexDigit c = some d) : isSpace c = false ∧ c ≠ ',' ∧ c ≠ '[' ∧ c ≠ ']' ∧
    c ≠ 'x' ∧ c ≠ '+' ∧ c ≠ '-' := by
  have hne : ∀ k : Char, hexDigit k = none → c ≠ k := fun k hk e => by rw [e, hk] at h; cases h
  refine ⟨?_, hne _ (by decide), hne _ (by decide), hne _ (by decide), hne _ (by decide), hne _ (by decide),
    hne _ (by decide)⟩
  have hlt := digit_lt h
  rw [← Bool.not_eq_true, isSpace_iff, IsBlank]
  simp only [List.mem_cons, List.not_mem_nil, or_false]
  omega

theorem Numeral.digits {ds : List Char} {n : ℕ} (h : Numeral ds n) : ds ≠ [] ∧ ∀ c ∈ ds, ∃ d, hexDigit c = some d := by
  induction h with
  | single c d h => exact ⟨by simp, by simpa using ⟨d, h.hex⟩⟩
  | snoc ds n c d _ h ih =>
    refine ⟨by simp, fun x hx => ?_⟩
    rcases List.mem_append.1 hx with hx | hx
    · exact ih.2 x hx
    · rw [List.mem_singleton.1 hx]; exact ⟨d, h.hex⟩

theorem Numeral.value {ds : List Char} {n : ℕ} (h : Numeral ds n) : hexNat ds = some n := by
  rw [hexNat, if_neg h.digits.1]
  induction h with
  | single c d h => simp [h.hex]
  | snoc ds n c d _ h ih => rw [List.foldlM_append, ih]; simp [h.hex]

theorem Numeral.setString {ds : List Char} {n : ℕ} (h : Numeral ds n) : setString16 ds = some (n : ℤ) := by
  have hd := h.digits
  have hv := h.value
  rcases ds with _ | ⟨c, ds⟩
  · exact absurd rfl hd.1
  obtain ⟨d, hc⟩ := hd.2 c List.mem_cons_self
  have hne := digit_ne hc
  rw [setString16.eq_def]
  split
  · next e => exact absurd (List.cons.inj e).1 hne.2.2.2.2.2.1
  · next e => exact absurd (List.cons.inj e).1 hne.2.2.2.2.2.2
  · rw [hv]; rfl

theorem Numeral.trim {ds : List Char} {n : ℕ} (h : Numeral ds n) : trimPrefix ds = ds := by
  have hd := h.digits
  rw [trimPrefix.eq_def]
  split
  · next s =>
    obtain ⟨d, hc⟩ := hd.2 'x' (by simp)
    exact absurd rfl (digit_ne hc).2.2.2.2.1
  · rfl

theorem dropWhile_of {p : Char → Bool} {pre s : List Char} (h : ∀ c ∈ pre, p c = true) :
    (pre ++ s).dropWhile p = s.dropWhile p := by
  induction pre with
  | nil => rfl
  | cons a pre ih =>
    rw [List.cons_append, List.dropWhile_cons, if_pos (h a List.mem_cons_self)]
    exact ih fun c hc => h c (List.mem_cons_of_mem _ hc)

theorem rdropWhile_of {p : Char → Bool} {s post : List Char} (h : ∀ c ∈ post, p c = true) :
    (s ++ post).rdropWhile p = s.rdropWhile p := by
  rw [List.rdropWhile, List.reverse_append, dropWhile_of fun c hc => h c (List.mem_reverse.1 hc), List.rdropWhile]

/-- text without white space at either end -/
def Solid (s : List Char) : Prop := s ≠ [] ∧ (∀ c, s.head? = some c → isSpace c = false) ∧
  (∀ c, s.getLast? = some c → isSpace c = false)

theorem trimSpace_of {pre s post : List Char} (h1 : ∀ c ∈ pre, isSpace c) (h2 : ∀ c ∈ post, isSpace c)
    (hs : Solid s) : trimSpace (pre ++ s ++ post) = s := by
  obtain ⟨hne, hh, hl⟩ := hs
  rw [trimSpace, List.append_assoc, dropWhile_of h1]
  obtain ⟨c, t, rfl⟩ := List.exists_cons_of_ne_nil hne
  rw [List.cons_append, List.dropWhile_cons, if_neg (by rw [hh c rfl]; exact Bool.false_ne_true), ← List.cons_append,
    rdropWhile_of h2, List.rdropWhile]
  obtain ⟨t', d, e⟩ := (List.eq_nil_or_concat (c :: t)).resolve_left (by simp)
  rw [List.concat_eq_append] at e
  rw [e, List.reverse_append, List.reverse_singleton, List.singleton_append, List.dropWhile_cons,
    if_neg (by rw [hl d (by rw [e]; simp)]; exact Bool.false_ne_true), List.reverse_cons, List.reverse_reverse]

theorem numeral_solid {ds : List Char} {n : ℕ} (h : Numeral ds n) (b : Bool) :
    Solid ((if b then ['0', 'x'] else []) ++ ds) := by
  obtain ⟨hne, hd⟩ := h.digits
  refine ⟨by simp [hne], fun c hc => ?_, fun c hc => ?_⟩
  · cases b
    · obtain ⟨d, h⟩ := hd c (List.mem_of_mem_head? (by simpa using hc))
      exact (digit_ne h).1
    · simp at hc
      rw [← hc]; decide
  · rw [List.getLast?_append_of_ne_nil _ hne] at hc
    obtain ⟨d, h⟩ := hd c (List.mem_of_getLast? hc)
    exact (digit_ne h).1

theorem Entry.parse {e : List Char} {n : ℕ} (h : Entry e n) :
    setString16 (trimPrefix (trimSpace e)) = some (n : ℤ) := by
  obtain ⟨pre, ds, post, n, b, h1, h2, hn⟩ := h
  replace h1 : ∀ c ∈ pre, isSpace c := fun c hc => (isSpace_iff c).2 (h1 c hc)
  replace h2 : ∀ c ∈ post, isSpace c := fun c hc => (isSpace_iff c).2 (h2 c hc)
  have : pre ++ (if b then ['0', 'x'] else []) ++ ds ++ post = pre ++ ((if b then ['0', 'x'] else []) ++ ds) ++ post := by
    simp
  rw [this, trimSpace_of h1 h2 (numeral_solid hn b)]
  cases b
  · rw [if_neg (by simp), List.nil_append, hn.trim, hn.setString]
  · rw [if_pos rfl]
    exact hn.setString

theorem space_ne {c : Char} (h : isSpace c = true) : c ≠ ',' ∧ c ≠ '[' ∧ c ≠ ']' := by
  refine ⟨?_, ?_, ?_⟩ <;> rintro rfl <;> revert h <;> decide

theorem Entry.chars {e : List Char} {n : ℕ} (h : Entry e n) : ∀ c ∈ e, c ≠ ',' ∧ c ≠ '[' ∧ c ≠ ']' := by
  obtain ⟨pre, ds, post, n, b, h1, h2, hn⟩ := h
  replace h1 : ∀ c ∈ pre, isSpace c := fun c hc => (isSpace_iff c).2 (h1 c hc)
  replace h2 : ∀ c ∈ post, isSpace c := fun c hc => (isSpace_iff c).2 (h2 c hc)
  intro c hc
  simp only [List.mem_append] at hc
  rcases hc with ((hc | hc) | hc) | hc
  · exact space_ne (h1 c hc)
  · cases b
    · simp at hc
    · simp at hc
      rcases hc with rfl | rfl <;> decide
  · obtain ⟨d, h⟩ := hn.digits.2 c hc
    exact ⟨(digit_ne h).2.1, (digit_ne h).2.2.1, (digit_ne h).2.2.2.1⟩
  · exact space_ne (h2 c hc)

theorem splitComma_single {e : List Char} (h : ∀ c ∈ e, c ≠ ',') : splitComma e = [e] := by
  induction e with
  | nil => rfl
  | cons a e ih =>
    rw [splitComma, if_neg (h a List.mem_cons_self), ih fun c hc => h c (List.mem_cons_of_mem _ hc)]
    rfl

theorem splitComma_cons {e r : List Char} (h : ∀ c ∈ e, c ≠ ',') : splitComma (e ++ ',' :: r) = e :: splitComma r := by
  induction e with
  | nil => rw [List.nil_append, splitComma, if_pos rfl]
  | cons a e ih =>
    rw [List.cons_append, splitComma, if_neg (h a List.mem_cons_self), ih fun c hc => h c (List.mem_cons_of_mem _ hc)]
    rfl

theorem Row.parse {r : List Char} {ns : List ℕ} (h : Row r ns) :
    (splitComma r).mapM (fun v => setString16 (trimPrefix (trimSpace v))) = some (ns.map fun n => (n : ℤ)) := by
  induction h with
  | last e n h =>
    rw [splitComma_single fun c hc => (h.chars c hc).1, List.mapM_cons, h.parse]
    rfl
  | cons e n r ns h _ ih =>
    rw [splitComma_cons fun c hc => (h.chars c hc).1, List.mapM_cons, h.parse, ih]
    rfl

theorem Row.chars {r : List Char} {ns : List ℕ} (h : Row r ns) : ∀ c ∈ r, c ≠ '[' ∧ c ≠ ']' := by
  induction h with
  | last e n h => exact fun c hc => (h.chars c hc).2
  | cons e n r ns h _ ih =>
    intro c hc
    rcases List.mem_append.1 hc with hc | hc
    · exact (h.chars c hc).2
    · rcases List.mem_cons.1 hc with rfl | hc
      · decide
      · exact ih c hc

/-! white space at the ends of a row -/

theorem trim_consHead (x : Char) (hx : isSpace x) (l : List (List Char)) (hl : l ≠ []) :
    (consHead x l).map trimSpace = l.map trimSpace := by
  obtain ⟨p, ps, rfl⟩ := List.exists_cons_of_ne_nil hl
  rw [consHead, List.map_cons, List.map_cons]
  congr 1
  rw [trimSpace, List.dropWhile_cons, if_pos hx, trimSpace]

theorem splitComma_ne (s : List Char) : splitComma s ≠ [] := by
  rcases s with _ | ⟨x, s⟩
  · simp [splitComma]
  · rw [splitComma]
    split
    · simp
    · rcases splitComma s with _ | ⟨p, ps⟩ <;> simp [consHead]

theorem trim_left (s : List Char) :
    (splitComma (s.dropWhile isSpace)).map trimSpace = (splitComma s).map trimSpace := by
  induction s with
  | nil => rfl
  | cons x s ih =>
    rw [List.dropWhile_cons]
    split
    · next h =>
      rw [ih, splitComma, if_neg (space_ne h).1, trim_consHead x h _ (splitComma_ne s)]
    · rfl

theorem trimSpace_snoc (p : List Char) (x : Char) (hx : isSpace x) : trimSpace (p ++ [x]) = trimSpace p := by
  rw [trimSpace, trimSpace, List.dropWhile_append]
  split
  · next h =>
    have : p.dropWhile isSpace = [] := by simpa using h
    rw [this, List.dropWhile_cons, if_pos hx]
    rfl
  · rw [rdropWhile_of (by simpa using hx)]

theorem splitComma_snoc (s : List Char) (x : Char) (hx : x ≠ ',') :
    ∃ ps p, splitComma s = ps ++ [p] ∧ splitComma (s ++ [x]) = ps ++ [p ++ [x]] := by
  induction s with
  | nil => exact ⟨[], [], rfl, by simp [splitComma, hx, consHead]⟩
  | cons a s ih =>
    obtain ⟨ps, p, h1, h2⟩ := ih
    rw [List.cons_append, splitComma, splitComma, h1, h2]
    split
    · exact ⟨[] :: ps, p, rfl, rfl⟩
    · rcases ps with _ | ⟨q, ps⟩
      · exact ⟨[], a :: p, rfl, rfl⟩
      · exact ⟨(a :: q) :: ps, p, rfl, rfl⟩

theorem trim_right (s : List Char) :
    (splitComma (s.rdropWhile isSpace)).map trimSpace = (splitComma s).map trimSpace := by
  induction s using List.reverseRecOn with
  | nil => rfl
  | append_singleton s x ih =>
    rw [List.rdropWhile_concat]
    split
    · next h =>
      obtain ⟨ps, p, h1, h2⟩ := splitComma_snoc s x (space_ne h).1
      rw [ih, h1, h2, List.map_append, List.map_append, List.map_singleton, List.map_singleton, trimSpace_snoc p x h]
    · rfl

theorem mapM_map' {α β γ : Type} (l : List α) (f : α → β) (g : β → Option γ) :
    (l.map f).mapM g = l.mapM fun x => g (f x) := by
  induction l with
  | nil => rfl
  | cons a l ih => rw [List.map_cons, List.mapM_cons, List.mapM_cons, ih]

theorem parse_trim (s : List Char) :
    ((splitComma (trimSpace s)).mapM fun v => setString16 (trimPrefix (trimSpace v))) =
      (splitComma s).mapM fun v => setString16 (trimPrefix (trimSpace v)) := by
  rw [← mapM_map' (splitComma (trimSpace s)) trimSpace fun v => setString16 (trimPrefix v),
    ← mapM_map' (splitComma s) trimSpace fun v => setString16 (trimPrefix v), trimSpace, trim_right, trim_left]

theorem parseOne_row (s : List Char) (ns : List ℕ) (h : Row (s.filter fun c => c != '[' && c != ']') ns) :
    parseOne s = some (ns.map fun n => (n : ℤ)) := by
  rw [parseOne]
  have : removeAll ']' (removeAll '[' s) = s.filter fun c => c != '[' && c != ']' := by
    rw [removeAll, removeAll, List.filter_filter]
    exact List.filter_congr fun c _ => Bool.and_comm _ _
  rw [parse_trim, this, h.parse]

theorem splitRows_single {r : List Char} (h : ∀ c ∈ r, c ≠ ']') : splitRows r = [r] := by
  induction r with
  | nil => rfl
  | cons a r ih =>
    have ha := h a List.mem_cons_self
    rw [splitRows.eq_def]
    split
    · next e => exact absurd (List.cons.inj e).1 ha
    · next e => cases e
    · next e =>
      obtain ⟨rfl, rfl⟩ := List.cons.inj e
      rw [ih fun c hc => h c (List.mem_cons_of_mem _ hc)]
      rfl

theorem splitRows_cons {r rs : List Char} (h : ∀ c ∈ r, c ≠ ']') :
    splitRows (r ++ [']', ',', '['] ++ rs) = r :: splitRows rs := by
  induction r with
  | nil => simp [splitRows]
  | cons a r ih =>
    have ha := h a List.mem_cons_self
    rw [splitRows.eq_def]
    split
    · next e => exact absurd (List.cons.inj e).1 ha
    · next e => cases e
    · next e =>
      obtain ⟨rfl, rfl⟩ := List.cons.inj e
      have := ih fun c hc => h c (List.mem_cons_of_mem _ hc)
      rw [List.append_eq, List.append_eq, this]
      rfl

theorem splitRows_close {r : List Char} (h : ∀ c ∈ r, c ≠ ']') : splitRows (r ++ [']', ']']) = [r ++ [']', ']']] := by
  induction r with
  | nil => simp [splitRows, consHead]
  | cons a r ih =>
    have ha := h a List.mem_cons_self
    rw [splitRows.eq_def]
    split
    · next e => exact absurd (List.cons.inj e).1 ha
    · next e => cases e
    · next e =>
      obtain ⟨rfl, rfl⟩ := List.cons.inj e
      have := ih fun c hc => h c (List.mem_cons_of_mem _ hc)
      rw [List.append_eq, this]
      rfl

theorem filter_row {r : List Char} {ns : List ℕ} (h : Row r ns) :
    r.filter (fun c => c != '[' && c != ']') = r := List.filter_eq_self.2 fun c hc => by
  have := h.chars c hc
  simp [this.1, this.2]

theorem rows_parse {r : List Char} {nss : List (List ℕ)} (h : Rows r nss) (l : List Char) (hl : ∀ c ∈ l, c = '[') :
    (splitRows (l ++ r ++ [']', ']'])).mapM parseOne = some (nss.map fun ns => ns.map fun n => (n : ℤ)) := by
  have hl' : l.filter (fun c => c != '[' && c != ']') = [] := List.filter_eq_nil_iff.2 fun c hc => by simp [hl c hc]
  have hlr : ∀ {r : List Char} {ns : List ℕ}, Row r ns → ∀ c ∈ l ++ r, c ≠ ']' := fun hr c hc => by
    rcases List.mem_append.1 hc with hc | hc
    · rw [hl c hc]; decide
    · exact (hr.chars c hc).2
  induction h generalizing l with
  | last r ns hr =>
    rw [splitRows_close (hlr hr), List.mapM_cons, parseOne_row _ ns]
    · rfl
    · rw [List.filter_append, List.filter_append, hl', filter_row hr]
      simpa using hr
  | cons r ns rs nss hr _ ih =>
    have e : l ++ (r ++ [']', ',', '['] ++ rs) ++ [']', ']'] = l ++ r ++ [']', ',', '['] ++ (rs ++ [']', ']']) := by simp
    rw [e, splitRows_cons (hlr hr), List.mapM_cons, parseOne_row _ ns, ← List.nil_append rs,
      ih [] (by simp) rfl fun hr c hc => (hr.chars c (by simpa using hc)).2]
    · rfl
    · rw [List.filter_append, hl', filter_row hr]
      simpa using hr

theorem filter_trim (s : List Char) (hs : ∀ c ∈ s, isSpace c = true → c = ' ' ∨ c = '\n') :
    (trimSpace s).filter (fun c => c != ' ' && c != '\n') = s.filter fun c => c != ' ' && c != '\n' := by
  have key : ∀ t : List Char, (∀ c ∈ t, isSpace c = true → c = ' ' ∨ c = '\n') →
      (t.dropWhile isSpace).filter (fun c => c != ' ' && c != '\n') = t.filter fun c => c != ' ' && c != '\n' := by
    intro t ht
    induction t with
    | nil => rfl
    | cons a t ih =>
      rw [List.dropWhile_cons]
      split
      · next h =>
        rw [ih fun c hc => ht c (List.mem_cons_of_mem _ hc), List.filter_cons, if_neg]
        rcases ht a List.mem_cons_self h with rfl | rfl <;> decide
      · rfl
  rw [trimSpace, List.rdropWhile, List.filter_reverse, key, List.filter_reverse, List.reverse_reverse, key s hs]
  intro c hc
  exact hs c ((List.dropWhile_sublist _).mem (List.mem_reverse.1 hc))

theorem trailing {r : List Char} {ns : List ℕ} (h : Row r ns) :
    ((splitComma (r ++ [','])).mapM fun v => setString16 (trimPrefix (trimSpace v))) = none := by
  induction h with
  | last e n h =>
    rw [splitComma_cons fun c hc => (h.chars c hc).1, List.mapM_cons, h.parse]
    rfl
  | cons e n r ns h _ ih =>
    rw [List.append_assoc, List.cons_append, splitComma_cons fun c hc => (h.chars c hc).1, List.mapM_cons, h.parse, ih]
    rfl

/-! ## the converse: what the parsers accept -/

theorem hexDigit_iff (c : Char) (d : ℕ) : hexDigit c = some d ↔ IsDigit c d := by
  refine ⟨fun h => ?_, IsDigit.hex⟩
  rw [hexDigit] at h
  have hv : c = Char.ofNat c.toNat := (Char.ofNat_toNat c).symm
  have key : ∀ k : Fin 128, ∀ d : Fin 16, hexDigit (Char.ofNat k) = some d.val → IsDigit (Char.ofNat k) d.val := by
    unfold IsDigit; decide +kernel
  have hlt : c.toNat < 128 ∧ d < 16 := by
    have := digit_lt (c := c) (d := d) (by rw [hexDigit]; exact h)
    omega
  have := key ⟨c.toNat, hlt.1⟩ ⟨d, hlt.2⟩
  simp only at this
  rw [← hv, hexDigit] at this
  exact this h

theorem hexNat_iff (s : List Char) (n : ℕ) : hexNat s = some n ↔ Numeral s n := by
  refine ⟨fun h => ?_, Numeral.value⟩
  induction s using List.reverseRecOn generalizing n with
  | nil => cases h
  | append_singleton s c ih =>
    rw [hexNat, if_neg (by simp), List.foldlM_append] at h
    cases hf : s.foldlM (fun acc c => (hexDigit c).map fun d => acc * 16 + d) 0 with
    | none => rw [hf] at h; cases h
    | some m =>
      rw [hf] at h
      cases hd : hexDigit c with
      | none => simp [hd] at h
      | some d =>
        simp [hd] at h
        have hdig := (hexDigit_iff c d).1 hd
        rcases s with _ | ⟨a, s⟩
        · have hm : m = 0 := (Option.some.inj hf).symm
          subst hm
          rw [← h, Nat.zero_mul, Nat.zero_add]
          exact .single c d hdig
        · have := ih m (by rw [hexNat, if_neg (by simp), hf])
          rw [← h, Nat.mul_comm]
          first | exact .snoc _ m c d this hdig | (rw [Nat.mul_comm]; exact .snoc _ m c d this hdig)

theorem setString_iff (s : List Char) (z : ℤ) : setString16 s = some z ↔ Signed s z := by
  constructor
  · intro h
    rw [setString16.eq_def] at h
    split at h
    · next s =>
      cases hn : hexNat s with
      | none => rw [hn] at h; cases h
      | some n => rw [hn] at h; rw [← Option.some.inj h]; exact .plus _ n ((hexNat_iff _ _).1 hn)
    · next s =>
      cases hn : hexNat s with
      | none => rw [hn] at h; cases h
      | some n => rw [hn] at h; rw [← Option.some.inj h]; exact .minus _ n ((hexNat_iff _ _).1 hn)
    · cases hn : hexNat s with
      | none => rw [hn] at h; cases h
      | some n => rw [hn] at h; rw [← Option.some.inj h]; exact .plain _ n ((hexNat_iff _ _).1 hn)
  · rintro (⟨_, n, h⟩ | ⟨ds, n, h⟩ | ⟨ds, n, h⟩)
    · exact h.setString
    · rw [setString16, h.value]; rfl
    · rw [setString16, h.value]; rfl

/-- the characters of a signed numeral -/
theorem Signed.chars {t : List Char} {z : ℤ} (h : Signed t z) : t ≠ [] ∧
    ∀ c ∈ t, isSpace c = false ∧ c ≠ ',' ∧ c ≠ '[' ∧ c ≠ ']' ∧ c ≠ 'x' := by
  have key : ∀ {ds : List Char} {n : ℕ}, Numeral ds n → ∀ c ∈ ds, isSpace c = false ∧ c ≠ ',' ∧ c ≠ '[' ∧ c ≠ ']' ∧ c ≠ 'x' := by
    intro ds n h c hc
    obtain ⟨d, hd⟩ := h.digits.2 c hc
    obtain ⟨a, b, e, f, g, -⟩ := digit_ne hd
    exact ⟨a, b, e, f, g⟩
  rcases h with ⟨_, n, h⟩ | ⟨ds, n, h⟩ | ⟨ds, n, h⟩
  · exact ⟨h.digits.1, key h⟩
  · refine ⟨by simp, fun c hc => ?_⟩
    rcases List.mem_cons.1 hc with rfl | hc
    · decide
    · exact key h c hc
  · refine ⟨by simp, fun c hc => ?_⟩
    rcases List.mem_cons.1 hc with rfl | hc
    · decide
    · exact key h c hc

theorem trimSpace_split (s : List Char) : ∃ pre post, (∀ c ∈ pre, isSpace c) ∧ (∀ c ∈ post, isSpace c) ∧
    s = pre ++ trimSpace s ++ post := by
  refine ⟨s.takeWhile isSpace, ((s.dropWhile isSpace).reverse.takeWhile isSpace).reverse, fun c hc => ?_, fun c hc => ?_, ?_⟩
  · exact List.mem_takeWhile_imp hc
  · exact List.mem_takeWhile_imp (List.mem_reverse.1 hc)
  · rw [trimSpace, List.rdropWhile, List.append_assoc, ← List.reverse_append, List.takeWhile_append_dropWhile,
      List.reverse_reverse, List.takeWhile_append_dropWhile]

theorem entry_iff (e : List Char) (z : ℤ) : setString16 (trimPrefix (trimSpace e)) = some z ↔ SignedEntry e z := by
  constructor
  · intro h
    rw [setString_iff] at h
    obtain ⟨pre, post, h1, h2, he⟩ := trimSpace_split e
    have hp : ∃ b : Bool, trimSpace e = (if b then ['0', 'x'] else []) ++ trimPrefix (trimSpace e) := by
      rw [trimPrefix.eq_def]
      split
      · next s hs => exact ⟨true, hs⟩
      · exact ⟨false, rfl⟩
    obtain ⟨b, hb⟩ := hp
    rw [he, hb]
    have := SignedEntry.mk pre _ post z b (fun c hc => (isSpace_iff c).1 (h1 c hc)) (fun c hc => (isSpace_iff c).1 (h2 c hc)) h
    simpa only [List.append_assoc] using this
  · rintro ⟨pre, t, post, z, b, h1, h2, h⟩
    have hs : Solid ((if b then ['0', 'x'] else []) ++ t) := by
      refine ⟨by simp [h.chars.1], fun c hc => ?_, fun c hc => ?_⟩
      · cases b
        · exact (h.chars.2 c (List.mem_of_mem_head? (by simpa using hc))).1
        · simp at hc
          rw [← hc]; decide
      · rw [List.getLast?_append_of_ne_nil _ h.chars.1] at hc
        exact (h.chars.2 c (List.mem_of_getLast? hc)).1
    have : pre ++ (if b then ['0', 'x'] else []) ++ t ++ post = pre ++ ((if b then ['0', 'x'] else []) ++ t) ++ post := by
      simp
    rw [this, trimSpace_of (fun c hc => (isSpace_iff c).2 (h1 c hc)) (fun c hc => (isSpace_iff c).2 (h2 c hc)) hs]
    have ht : trimPrefix t = t := by
      rw [trimPrefix.eq_def]
      split
      · exact absurd rfl (h.chars.2 'x' (by simp)).2.2.2.2
      · rfl
    cases b
    · rw [if_neg (by simp), List.nil_append, ht, setString_iff]
      exact h
    · rw [if_pos rfl]
      exact (setString_iff _ _).2 h

theorem SignedEntry.comma {e : List Char} {z : ℤ} (h : SignedEntry e z) : ∀ c ∈ e, c ≠ ',' := by
  obtain ⟨pre, t, post, z, b, h1, h2, h⟩ := h
  intro c hc
  simp only [List.mem_append] at hc
  rcases hc with ((hc | hc) | hc) | hc
  · exact (space_ne ((isSpace_iff c).2 (h1 c hc))).1
  · cases b
    · simp at hc
    · simp at hc
      rcases hc with rfl | rfl <;> decide
  · exact (h.chars.2 c hc).2.1
  · exact (space_ne ((isSpace_iff c).2 (h2 c hc))).1

theorem comma_split (r : List Char) : (∀ c ∈ r, c ≠ ',') ∨ ∃ e r', (∀ c ∈ e, c ≠ ',') ∧ r = e ++ ',' :: r' := by
  induction r with
  | nil => left; simp
  | cons a r ih =>
    by_cases ha : a = ','
    · right; exact ⟨[], r, by simp, by rw [ha]; rfl⟩
    · rcases ih with h | ⟨e, r', h, rfl⟩
      · left
        intro c hc
        rcases List.mem_cons.1 hc with rfl | hc
        · exact ha
        · exact h c hc
      · right
        refine ⟨a :: e, r', fun c hc => ?_, rfl⟩
        rcases List.mem_cons.1 hc with rfl | hc
        · exact ha
        · exact h c hc

theorem row_iff (r : List Char) (zs : List ℤ) :
    (splitComma r).mapM (fun v => setString16 (trimPrefix (trimSpace v))) = some zs ↔ SignedRow r zs := by
  constructor
  · intro h
    induction hn : r.length using Nat.strong_induction_on generalizing r zs with
    | _ n ih =>
      rcases comma_split r with hc | ⟨e, r', he, rfl⟩
      · rw [splitComma_single hc, List.mapM_cons, List.mapM_nil] at h
        cases hz : setString16 (trimPrefix (trimSpace r)) with
        | none => rw [hz] at h; cases h
        | some z =>
          rw [hz] at h
          rw [← Option.some.inj h]
          exact .last r z ((entry_iff _ _).1 hz)
      · rw [splitComma_cons he, List.mapM_cons] at h
        cases hz : setString16 (trimPrefix (trimSpace e)) with
        | none => rw [hz] at h; cases h
        | some z =>
          rw [hz] at h
          cases hr : (splitComma r').mapM (fun v => setString16 (trimPrefix (trimSpace v))) with
          | none => rw [hr] at h; cases h
          | some zs' =>
            rw [hr] at h
            rw [← Option.some.inj h]
            exact .cons e z r' zs' ((entry_iff _ _).1 hz) (ih r'.length (by rw [← hn]; simp; omega) r' zs' hr rfl)
  · intro h
    induction h with
    | last e z h => rw [splitComma_single h.comma, List.mapM_cons, (entry_iff _ _).2 h]; rfl
    | cons e z r zs h _ ih => rw [splitComma_cons h.comma, List.mapM_cons, (entry_iff _ _).2 h, ih]; rfl

theorem parseOne_iff (s : List Char) (zs : List ℤ) :
    parseOne s = some zs ↔ SignedRow (s.filter fun c => c != '[' && c != ']') zs := by
  rw [parseOne]
  have : removeAll ']' (removeAll '[' s) = s.filter fun c => c != '[' && c != ']' := by
    rw [removeAll, removeAll, List.filter_filter]
    exact List.filter_congr fun c _ => Bool.and_comm _ _
  rw [parse_trim, this, row_iff]

/-! two dimensions -/

theorem consHead_cons (x : Char) (p : List Char) (ps : List (List Char)) : consHead x (p :: ps) = (x :: p) :: ps := rfl

theorem splitRows_ne (s : List Char) : splitRows s ≠ [] := by
  rw [splitRows.eq_def]
  split
  · simp
  · simp
  · next x xs _ => rcases splitRows xs with _ | ⟨p, ps⟩ <;> simp [consHead]

/-- a separator does not begin here -/
theorem splitRows_step (x : Char) (xs : List Char) (h : ¬ [']', ',', '['] <+: x :: xs) :
    splitRows (x :: xs) = consHead x (splitRows xs) := by
  rw [splitRows.eq_def]
  split
  · next r e =>
    rw [e] at h
    exact absurd ⟨r, rfl⟩ h
  · next e => cases e
  · next e =>
    obtain ⟨rfl, rfl⟩ := List.cons.inj e
    rfl

theorem splitRows_whole {p : List Char} (h : ¬ [']', ',', '['] <:+: p) : splitRows p = [p] := by
  induction p with
  | nil => rfl
  | cons x xs ih =>
    rw [splitRows_step x xs fun hp => h hp.isInfix, ih fun hi => h (hi.trans (List.suffix_cons x xs).isInfix)]
    rfl

theorem splitRows_sep {p : List Char} (r : List Char) (h : ¬ [']', ',', '['] <:+: p) :
    splitRows (p ++ [']', ',', '['] ++ r) = p :: splitRows r := by
  induction p with
  | nil => simp [splitRows]
  | cons x xs ih =>
    have hx : ¬ [']', ',', '['] <+: x :: (xs ++ [']', ',', '['] ++ r) := by
      rintro ⟨t, ht⟩
      rcases xs with _ | ⟨a, _ | ⟨b, xs⟩⟩
      · simp at ht
      · simp at ht
      · simp at ht
        obtain ⟨rfl, rfl, rfl, -⟩ := ht
        exact h ⟨[], xs, by simp⟩
    rw [List.cons_append, List.cons_append, splitRows_step _ _ hx, ih fun hi => h (hi.trans (List.suffix_cons x xs).isInfix),
      consHead_cons]

theorem sep_split (s : List Char) : ¬ [']', ',', '['] <:+: s ∨
    ∃ p r, ¬ [']', ',', '['] <:+: p ∧ s = p ++ [']', ',', '['] ++ r := by
  induction s with
  | nil => left; simp
  | cons x s ih =>
    by_cases hp : [']', ',', '['] <+: x :: s
    · right
      obtain ⟨t, ht⟩ := hp
      exact ⟨[], t, by simp, ht.symm⟩
    · rcases ih with h | ⟨p, r, h, rfl⟩
      · left
        rw [List.infix_cons_iff]
        exact not_or.2 ⟨hp, h⟩
      · right
        refine ⟨x :: p, r, ?_, rfl⟩
        rw [List.infix_cons_iff]
        refine not_or.2 ⟨fun hq => hp ?_, h⟩
        exact hq.trans ⟨[']', ',', '['] ++ r, by simp⟩

theorem rows_iff (s : List Char) (zss : List (List ℤ)) : (splitRows s).mapM parseOne = some zss ↔ SignedRows s zss := by
  constructor
  · intro h
    induction hn : s.length using Nat.strong_induction_on generalizing s zss with
    | _ n ih =>
      rcases sep_split s with hc | ⟨p, r, hp, rfl⟩
      · rw [splitRows_whole hc, List.mapM_cons, List.mapM_nil] at h
        cases hz : parseOne s with
        | none => rw [hz] at h; cases h
        | some zs =>
          rw [hz] at h
          rw [← Option.some.inj h]
          exact .last s zs hc ((parseOne_iff _ _).1 hz)
      · rw [splitRows_sep r hp, List.mapM_cons] at h
        cases hz : parseOne p with
        | none => rw [hz] at h; cases h
        | some zs =>
          rw [hz] at h
          cases hr : (splitRows r).mapM parseOne with
          | none => rw [hr] at h; cases h
          | some zss' =>
            rw [hr] at h
            rw [← Option.some.inj h]
            exact .cons p zs r zss' hp ((parseOne_iff _ _).1 hz) (ih r.length (by rw [← hn]; simp; omega) r zss' hr rfl)
  · intro h
    induction h with
    | last p zs hp h => rw [splitRows_whole hp, List.mapM_cons, (parseOne_iff _ _).2 h]; rfl
    | cons p zs r zss hp h _ ih => rw [splitRows_sep r hp, List.mapM_cons, (parseOne_iff _ _).2 h, ih]; rfl

/-- what `parseOne` does, without the outer `TrimSpace` -/
theorem parseOne_eq (s : List Char) : parseOne s =
    (splitComma (s.filter fun c => c != '[' && c != ']')).mapM fun v => setString16 (trimPrefix (trimSpace v)) := by
  rw [parseOne]
  have : removeAll ']' (removeAll '[' s) = s.filter fun c => c != '[' && c != ']' := by
    rw [removeAll, removeAll, List.filter_filter]
    exact List.filter_congr fun c _ => Bool.and_comm _ _
  rw [parse_trim, this]

theorem parseOne_blank (x : Char) (hx : isSpace x) (s : List Char) : parseOne (x :: s) = parseOne s := by
  have hne := space_ne hx
  rw [parseOne_eq, parseOne_eq, List.filter_cons, if_pos (by simp [hne.2.1, hne.2.2]), splitComma, if_neg hne.1,
    ← mapM_map' _ trimSpace fun v => setString16 (trimPrefix v), trim_consHead x hx _ (splitComma_ne _),
    mapM_map' _ trimSpace fun v => setString16 (trimPrefix v)]

theorem parseOne_blank_end (x : Char) (hx : isSpace x) (s : List Char) : parseOne (s ++ [x]) = parseOne s := by
  have hne := space_ne hx
  rw [parseOne_eq, parseOne_eq, List.filter_append, List.filter_cons, if_pos (by simp [hne.2.1, hne.2.2]), List.filter_nil,
    ← mapM_map' _ trimSpace fun v => setString16 (trimPrefix v), ← mapM_map' _ trimSpace fun v => setString16 (trimPrefix v)]
  obtain ⟨ps, p, h1, h2⟩ := splitComma_snoc (s.filter fun c => c != '[' && c != ']') x hne.1
  rw [h1, h2, List.map_append, List.map_append, List.map_singleton, List.map_singleton, trimSpace_snoc p x hx]

theorem rows_blank (x : Char) (hx : isSpace x) (s : List Char) :
    (splitRows (x :: s)).mapM parseOne = (splitRows s).mapM parseOne := by
  have hne := space_ne hx
  rw [splitRows_step x s fun ⟨t, ht⟩ => hne.2.2 (List.cons.inj ht).1.symm]
  obtain ⟨p, ps, e⟩ := List.exists_cons_of_ne_nil (splitRows_ne s)
  rw [e, consHead_cons, List.mapM_cons, List.mapM_cons, parseOne_blank x hx]

theorem splitRows_snoc (s : List Char) (x : Char) (hx : x ≠ '[') :
    ∃ ps p, splitRows s = ps ++ [p] ∧ splitRows (s ++ [x]) = ps ++ [p ++ [x]] := by
  induction hn : s.length using Nat.strong_induction_on generalizing s with
  | _ n ih =>
    rcases sep_split s with hc | ⟨p, r, hp, rfl⟩
    · refine ⟨[], s, splitRows_whole hc, splitRows_whole fun hi => ?_⟩
      rcases List.infix_concat_iff.1 hi with h | h
      · obtain ⟨t, ht⟩ := h
        have := congrArg List.getLast? ht
        simp at this
        exact hx this.symm
      · exact hc h
    · obtain ⟨ps, q, h1, h2⟩ := ih r.length (by rw [← hn]; simp; omega) r rfl
      refine ⟨p :: ps, q, ?_, ?_⟩
      · rw [splitRows_sep r hp, h1]; rfl
      · rw [List.append_assoc, splitRows_sep _ hp, h2]; rfl

theorem rows_blank_end (x : Char) (hx : isSpace x) (s : List Char) :
    (splitRows (s ++ [x])).mapM parseOne = (splitRows s).mapM parseOne := by
  obtain ⟨ps, p, h1, h2⟩ := splitRows_snoc s x (space_ne hx).2.1
  rw [h1, h2, List.mapM_append, List.mapM_append, List.mapM_cons, List.mapM_cons, parseOne_blank_end x hx]

/-- white space at either end of the whole text does not matter -/
theorem parseTwo_eq (s : List Char) :
    parseTwo s = (splitRows (s.filter fun c => c != ' ' && c != '\n')).mapM parseOne := by
  have pre : ∀ pre t : List Char, (∀ c ∈ pre, isSpace c) →
      (splitRows ((pre ++ t).filter fun c => c != ' ' && c != '\n')).mapM parseOne =
        (splitRows (t.filter fun c => c != ' ' && c != '\n')).mapM parseOne := by
    intro pre t h
    induction pre with
    | nil => rfl
    | cons x pre ih =>
      rw [List.cons_append, List.filter_cons]
      split
      · rw [rows_blank x (h x List.mem_cons_self), ih fun c hc => h c (List.mem_cons_of_mem _ hc)]
      · exact ih fun c hc => h c (List.mem_cons_of_mem _ hc)
  have post : ∀ post t : List Char, (∀ c ∈ post, isSpace c) →
      (splitRows ((t ++ post).filter fun c => c != ' ' && c != '\n')).mapM parseOne =
        (splitRows (t.filter fun c => c != ' ' && c != '\n')).mapM parseOne := by
    intro post t h
    induction post using List.reverseRecOn with
    | nil => rw [List.append_nil]
    | append_singleton post x ih =>
      have hx := h x (by simp)
      rw [← List.append_assoc, List.filter_append, List.filter_cons, List.filter_nil]
      split
      · rw [rows_blank_end x hx, ih fun c hc => h c (by simp [hc])]
      · rw [List.append_nil, ih fun c hc => h c (by simp [hc])]
  obtain ⟨a, b, ha, hb, e⟩ := trimSpace_split s
  have : removeAll ' ' (removeAll '\n' (trimSpace s)) = (trimSpace s).filter fun c => c != ' ' && c != '\n' := by
    rw [removeAll, removeAll, List.filter_filter]
  rw [parseTwo, this]
  conv_rhs => rw [e]
  rw [post b _ hb, pre a _ ha]

theorem parseTwo_iff (s : List Char) (zss : List (List ℤ)) :
    parseTwo s = some zss ↔ SignedRows (s.filter fun c => c != ' ' && c != '\n') zss := by
  rw [parseTwo_eq, rows_iff]

end Spark.ParseProps
