import Verif.Model.Regex

/-!
# What a pattern text means (C46)

The part of the syntax of regular expressions `build_or_pattern` produces: literal characters, escaped characters,
`(?:…)`, `(?P<name>…)`, juxtaposition and `|`.  Every other atom (classes, repetitions, …) is left open: `X a r` says that
the text `a` is such an atom and denotes `r`.
-/

namespace Guessit.Spec

/-- The characters with a special meaning in a pattern. -/
def metaChars : Str := c!".^$*+?{}[]\\|()"

mutual
/-- The text is one atom denoting `r`. -/
inductive Atom (X : Str → Re → Prop) : Str → Re → Prop
  | lit (c : Char) : c ∉ metaChars → Atom X [c] (.lit c)
  | esc (c : Char) : c.isAlphanum = false → Atom X ['\\', c] (.lit c)
  | group (s : Str) (r : Re) : Alt X s r → Atom X (c!"(?:" ++ s ++ c!")") r
  | named (n s : Str) (r : Re) : n ≠ [] → '>' ∉ n → Alt X s r → Atom X (c!"(?P<" ++ n ++ c!">" ++ s ++ c!")") (.grp 1 r)
  | other (s : Str) (r : Re) : X s r → Atom X s r
/-- The text is a sequence of atoms denoting `r`. -/
inductive Seq (X : Str → Re → Prop) : Str → Re → Prop
  | nil : Seq X [] .eps
  | cons (a s : Str) (r q : Re) : Atom X a r → Seq X s q → Seq X (a ++ s) (.seq r q)
/-- The text is an alternation denoting `r`: a whole pattern. -/
inductive Alt (X : Str → Re → Prop) : Str → Re → Prop
  | one (s : Str) (r : Re) : Seq X s r → Alt X s r
  | or (s t : Str) (r q : Re) : Seq X s r → Alt X t q → Alt X (s ++ '|' :: t) (.alt r q)
end

/-- Starting at `i` of `s`, the pattern can match up to `j`. -/
def Matches (r : Re) (s : Str) (i j : Nat) : Prop := ∃ c, (j, c) ∈ r.exec s i []

end Guessit.Spec
