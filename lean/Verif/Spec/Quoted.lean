import Verif.Spec.Text

/-!
# Specification: texts that are taken from the name (C159)
-/

namespace Guessit.Spec

/-- The word characters of `w` are word characters of `t`, in the order in which `t` has them, except that an end of `t` may come first (as in
`Simpsons, The` and `The Simpsons`). -/
def WrittenWith (t w : Str) : Prop := ∃ x y, wordChars t = x ++ y ∧ (wordChars w).Sublist (y ++ x)

/-- `w` is taken from a stretch of the name `input`, up to case. -/
def TakenFrom (input : Str) (lower : Str → Str) (w : Str) : Prop := ∃ w' a b, lower w' = lower w ∧ WrittenWith ((input.take b).drop a) w'

/-- The properties whose text guessit does not choose. -/
def freeNames : List Str := [c!"title", c!"alternative_title", c!"episode_title", c!"bonus_title", c!"film_title", c!"release_group", c!"website", c!"crc32",
  c!"uuid"]

end Guessit.Spec
