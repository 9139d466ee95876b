import Verif.Model.Date
import Verif.Spec.Text

/-!
# Specification of dates (C27, C28, C51)

Uses from the model only the type of dates and the digit table.
-/

namespace Guessit.Spec

/-- A text of `m` to `M` digits. -/
def Digits (u : Uni) (m M : Nat) (ds : Str) : Prop := m ≤ ds.length ∧ ds.length ≤ M ∧ ∀ c ∈ ds, u.isDigit c = true

/-- A character that may separate the parts of a date. -/
def DateSep (c : Char) : Prop := c = '-' ∨ c = '/' ∨ c = ' ' ∨ c = '.'

/-- The same, or an `x` next to a four-digit year. -/
def DateSepX (c : Char) : Prop := DateSep c ∨ c = 'x' ∨ c = 'X'

/-- `st`, `nd`, `rd`, `th` in any case, or nothing. -/
def Ordinal (o : Str) : Prop := o = [] ∨ ∃ a b, o = [a, b] ∧
  ((a ∈ c!"sSſ" ∧ b ∈ c!"tT") ∨ (a ∈ c!"nN" ∧ b ∈ c!"dD") ∨ (a ∈ c!"rR" ∧ b ∈ c!"dD") ∨ (a ∈ c!"tT" ∧ b ∈ c!"hH"))

/-- A letter of the name of a month: what `[a-z]` takes when case is ignored. -/
def MonthLetter (c : Char) : Prop := c ∈ c!"abcdefghijklmnopqrstuvwxyzABCDEFGHIJKLMNOPQRSTUVWXYZİıſ\u212a"

/-- Texts that can be read as a date, and the text given to the date parser (the parts joined with dashes, or the whole
when the month is a word).  `compact` tells whether separators must surround the text. -/
inductive DateText (u : Uni) : (compact : Bool) → (text toParse : Str) → Prop
  | compact (ds : Str) : Digits u 8 8 ds ∨ Digits u 6 6 ds → DateText u true ds ds
  | triple (d1 d2 d3 : Str) (p q : Char) :
      (Digits u 2 2 d1 ∧ DateSep p ∧ Digits u 1 2 d2 ∧ DateSep q ∧ Digits u 1 2 d3) ∨
      (Digits u 1 2 d1 ∧ DateSep p ∧ Digits u 1 2 d2 ∧ DateSep q ∧ Digits u 2 2 d3) ∨
      (Digits u 4 4 d1 ∧ DateSepX p ∧ Digits u 1 2 d2 ∧ DateSep q ∧ Digits u 1 2 d3) ∨
      (Digits u 1 2 d1 ∧ DateSep p ∧ Digits u 1 2 d2 ∧ DateSepX q ∧ Digits u 4 4 d3) →
      DateText u false (d1 ++ p :: (d2 ++ q :: d3)) (d1 ++ '-' :: (d2 ++ '-' :: d3))
  | worded (d ord w y : Str) (p q : Char) : Digits u 1 2 d → Ordinal ord → DateSep p →
      3 ≤ w.length → w.length ≤ 10 → (∀ c ∈ w, MonthLetter c) → DateSep q → Digits u 4 4 y →
      DateText u false (d ++ ord ++ p :: (w ++ q :: y)) (d ++ ord ++ p :: (w ++ q :: y))

/-- What may surround a date: separators around a bare run of digits, anything but a digit otherwise. -/
def Surrounded (u : Uni) (compact : Bool) (s : Str) (a b : Nat) : Prop :=
  if compact then (∃ c, 0 < a ∧ s[a - 1]? = some c ∧ DateSep c) ∧ (∃ c, s[b]? = some c ∧ DateSep c)
  else (∀ c, 0 < a → s[a - 1]? = some c → u.isDigit c = false) ∧ (∀ c, s[b]? = some c → u.isDigit c = false)

/-- Flags the parser may be called with, given the options: an option that is set is obeyed, and a year-first date is not
day-first unless told so. -/
def FlagsAllowed (yearFirst dayFirst : Option Bool) (d y : Bool) : Prop :=
  (∀ b, yearFirst = some b → y = b) ∧ (∀ b, dayFirst = some b → d = b) ∧ (yearFirst = some true → dayFirst = none → d = false)

end Guessit.Spec
