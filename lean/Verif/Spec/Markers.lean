import Verif.Py

/-!
# Specification of path elements and bracket groups (C23, C24)
-/

namespace Guessit.Spec

/-- A path separator. -/
def IsSlash (c : Char) : Prop := c = '/' ∨ c = '\\'

/-- `[a, b)` is a path element of `s`: it contains no slash and extends up to a slash or an end of the text on both
sides.  It may be empty (between two adjacent slashes). -/
structure IsElement (s : Str) (a b : Nat) : Prop where
  le : a ≤ b
  inside : b ≤ s.length
  none : ∀ i c, a ≤ i → i < b → s[i]? = some c → ¬ IsSlash c
  left : a = 0 ∨ ∃ c, s[a - 1]? = some c ∧ IsSlash c
  right : b = s.length ∨ ∃ c, s[b]? = some c ∧ IsSlash c

/-- Well-balanced bracketed text, whatever the kind of the brackets. -/
inductive Balanced (op cl : Char → Prop) : Str → Prop
  | nil : Balanced op cl []
  | char (c : Char) (w : Str) : ¬ op c → ¬ cl c → Balanced op cl w → Balanced op cl (c :: w)
  | group (o c : Char) (w w' : Str) : op o → cl c → Balanced op cl w → Balanced op cl w' →
      Balanced op cl (o :: (w ++ c :: w'))

/-- `[a, b)` is a bracketed group of `s`: an opening bracket, well-balanced text and a closing bracket. -/
def IsGroup (op cl : Char → Prop) (s : Str) (a b : Nat) : Prop :=
  ∃ pre o w c post, s = pre ++ (o :: (w ++ c :: post)) ∧ pre.length = a ∧ b = a + w.length + 2 ∧ op o ∧ cl c ∧
    Balanced op cl w

end Guessit.Spec
