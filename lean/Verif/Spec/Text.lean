import Verif.Model.Text

/-!
# Specification of the text helpers (C17, C19–C22, C50)

Only the list of separators is shared with the model.
-/

namespace Guessit.Spec

/-- The word characters of a text, in order. -/
def wordChars (s : Str) : Str := s.filter fun c => decide (c ∉ seps)

/-- Position `i` holds a separator that follows a single isolated word character: the position before the character is
another separator, or the beginning of the text. -/
def AfterSingleChar (s : Str) (i : Nat) : Prop :=
  ∃ c x, s[i]? = some c ∧ c ∈ seps ∧ 1 ≤ i ∧ s[i - 1]? = some x ∧ x ∉ seps ∧
    (i = 1 ∨ ∃ y, s[i - 2]? = some y ∧ y ∈ seps)

/-- The separator `c` is used in an acronym of `s`: it follows a single isolated character, and so does the separator
two positions before or after, which is the same separator. -/
def AcronymSep (s : Str) (c : Char) : Prop :=
  ∃ i j, (j = i + 2 ∨ i = j + 2) ∧ AfterSingleChar s i ∧ AfterSingleChar s j ∧ s[i]? = some c ∧ s[j]? = some c

/-- `[a, b)` is a maximal non-empty run of characters satisfying `P`. -/
structure IsRun (P : Char → Prop) (s : Str) (a b : Nat) : Prop where
  lt : a < b
  le : b ≤ s.length
  all : ∀ i c, a ≤ i → i < b → s[i]? = some c → P c
  left : ∀ c, 0 < a → s[a - 1]? = some c → ¬ P c
  right : ∀ c, s[b]? = some c → ¬ P c

/-- The text of `[a, b)`. -/
def textOf (s : Str) (a b : Nat) : Str := (s.take b).drop a

end Guessit.Spec
