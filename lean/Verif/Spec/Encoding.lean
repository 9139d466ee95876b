import Verif.Py

/-! # Specification vocabulary for C52: values without byte strings -/

namespace Guessit.Spec

/-- No byte string occurs in the value, at any depth, neither as a value nor as a key; every dictionary inside has
distinct keys. -/
inductive Textual : PyVal → Prop
  | none : Textual .none
  | bool (b) : Textual (.bool b)
  | int (n) : Textual (.int n)
  | str (s) : Textual (.str s)
  | other (i) : Textual (.other i)
  | list (xs) : (∀ x ∈ xs, Textual x) → Textual (.list xs)
  | dict (d) : Dict.WF d → (∀ e ∈ d, ∃ s, e.1 = .str s) → (∀ e ∈ d, Textual e.2) → Textual (.dict d)

end Guessit.Spec
