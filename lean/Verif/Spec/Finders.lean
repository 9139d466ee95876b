import Verif.Spec.Text

/-!
# Specification vocabulary for the finders (C42, C45–C47, C49, C55)
-/

namespace Guessit.Spec

/-! ## identifiers (C45) -/

/-- ASCII letters, ASCII digits and the hyphen. -/
def IdChar (c : Char) : Prop := c.isAlpha = true ∨ c.isDigit = true ∨ c = '-'

inductive IdKind | digit | letter | hyphen
  deriving DecidableEq

def idKind (c : Char) : IdKind := if c.isDigit then .digit else if c.isAlpha then .letter else .hyphen

/-- How many neighbours of a list differ. -/
def changes {α : Type} [DecidableEq α] : List α → Nat
  | a :: b :: l => (if a = b then 0 else 1) + changes (b :: l)
  | _ => 0

/-- The alternation thresholds: reading the text after an imaginary letter, the kind of character changes more than
0.4 times per character; and among the letters alone, more than 0.4 of them differ from the letter before (the first one
counts). -/
structure LooksLikeId (t : Str) : Prop where
  kinds : 5 * changes (.letter :: t.map idKind) > 2 * t.length
  letters : t.filter Char.isAlpha = [] ∨
    5 * (1 + changes (t.filter Char.isAlpha)) > 2 * (t.filter Char.isAlpha).length

/-! ## expected texts (C42, C55) -/

/-- A character up to letter case (`lc`) and up to which separator it is. -/
def foldChar (lc : Char → Char) (c : Char) : Char := if c ∈ seps then ' ' else lc c

/-- Equal up to letter case and separators. -/
def SameText (lc : Char → Char) (a b : Str) : Prop := a.map (foldChar lc) = b.map (foldChar lc)

/-- The expected text occurs at position `i` of the input. -/
def OccursAt (lc : Char → Char) (input search : Str) (i : Nat) : Prop :=
  i + search.length ≤ input.length ∧ SameText lc (textOf input i (i + search.length)) search

/-- `[a, b)` is a word: a maximal run without separators. -/
abbrev IsWholeWord (s : Str) (a b : Nat) : Prop := IsRun (fun c => c ∉ seps) s a b

/-- `[a, b)` is a word, or two successive words joined by one hyphen, space or dot. -/
def WordOrPair (s : Str) (a b : Nat) : Prop :=
  IsWholeWord s a b ∨ ∃ m n c, IsWholeWord s a m ∧ IsWholeWord s n b ∧ textOf s m n = [c] ∧ (c = '-' ∨ c = ' ' ∨ c = '.')

/-- An entry that is not a regular expression. -/
def Plain (search : Str) : Prop := ¬ c!"re:" <+: search

end Guessit.Spec
