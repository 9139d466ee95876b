import Verif.Spec.Forms

/-! # A few more expressions (C136 to C138) -/

namespace Guessit.Spec

/-- `LAME` and a number of two digits at least, perhaps with one separator in it (not a slash), from `i` to `j`. -/
def LameAt (E : RxEnv) (s : Str) (i j : Nat) : Prop :=
  PhraseAt E s c!"lame" i ∧ ((i + 6 ≤ j ∧ AllOf s (Digit E) (i + 4) j) ∨
    ∃ a, i + 5 ≤ a ∧ AllOf s (Digit E) (i + 4) a ∧ CharAt s (Stands E ' ') a ∧ a + 2 ≤ j ∧ AllOf s (Digit E) (a + 1) j)

/-- `Repack` or `Rerip` from `i`, and digits behind it from `a` to `j`, perhaps none. -/
def RepackAt (E : RxEnv) (s : Str) (i a j : Nat) : Prop :=
  ((PhraseAt E s c!"repack" i ∧ a = i + 6) ∨ (PhraseAt E s c!"rerip" i ∧ a = i + 5)) ∧ a ≤ j ∧ AllOf s (Digit E) a j

/-- The words for seasons. -/
def seasonal : List Str := [c!"seasons", c!"season", c!"series", c!"serie"]

/-- The phrases around `complete`: perhaps `the`, perhaps a word for seasons before, perhaps one behind; and whether there is one. -/
def completePhrases : List (Str × Bool) :=
  [c!"the ", []].flatMap fun a => (seasonal.map (· ++ c!" ") ++ [[]]).flatMap fun b => (seasonal.map (c!" " ++ ·) ++ [[]]).map fun c =>
    (a ++ b ++ c!"complete" ++ c, decide (b ≠ [] ∨ c ≠ []))

end Guessit.Spec
