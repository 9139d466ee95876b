import Verif.Spec.Strings
import Verif.Spec.Vocabulary

/-! # Values written as words and phrases (C135 and after) -/

namespace Guessit.Spec

/-- In a phrase a space stands for one separator that is not a slash, `#` for a digit, `*` for any character but a line break, and every other
character for itself, in any case. -/
def Stands (E : RxEnv) (l c : Char) : Prop :=
  if l = ' ' then c ∈ signs ∧ c ≠ '/' ∧ c ≠ '\\' else if l = '#' then Digit E c else if l = '*' then c ≠ '\n' else E.same l c = true

/-- The phrase is written from `i`. -/
def PhraseAt (E : RxEnv) (s w : Str) (i : Nat) : Prop := ∀ k l, w[k]? = some l → CharAt s (Stands E l) (i + k)

/-- Digits and a few signs stand only for themselves. -/
def Themselves (E : RxEnv) : Prop := ∀ l ∈ c!"0123456789'&", ∀ c, E.same l c = true ↔ c = l

/-- Where a value may stand. -/
inductive Place where
  /-- between separators -/
  | apart
  | anywhere
  /-- before a separator -/
  | before
  deriving DecidableEq

def Place.Holds : Place → Str → Nat → Nat → Prop
  | .apart, s, i, j => Standing s i j
  | .anywhere, _, _, _ => True
  | .before, s, _, j => FreeAfter s j

/-- A value (or several), the words and the phrases for it; each list of phrases holds the ways to write one expression. -/
structure Listed where
  values : List Str
  words : List Str
  phrases : List (List Str)
  place : Place
  deriving DecidableEq

/-- One of its words or phrases is written from `i` to `j`. -/
def Listed.At (E : RxEnv) (low : Char → Char) (e : Listed) (s : Str) (i j : Nat) : Prop :=
  (∃ w ∈ e.words, Written low s w i ∧ j = i + w.length) ∨ ∃ ps ∈ e.phrases, ∃ w ∈ ps, PhraseAt E s w i ∧ j = i + w.length

/-- One of its words or phrases is written from `i` to `j`; the same word, or another way to write the same phrase, does not begin before and reach past `i`; and no longer way to
write the phrase begins at `i`. -/
def Listed.FreeAt (E : RxEnv) (low : Char → Char) (e : Listed) (s : Str) (i j : Nat) : Prop :=
  (∃ w ∈ e.words, Written low s w i ∧ j = i + w.length ∧ ∀ a, a < i → i < a + w.length → ¬ Written low s w a) ∨
  ∃ ps ∈ e.phrases, ∃ w ∈ ps, PhraseAt E s w i ∧ j = i + w.length ∧ (∀ x ∈ ps, PhraseAt E s x i → x.length ≤ w.length) ∧
    ∀ x ∈ ps, ∀ a, a < i → PhraseAt E s x a → a + x.length ≤ i

end Guessit.Spec
