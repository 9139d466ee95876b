import Verif.Spec.Phrases

/-! # Values written as parts of a phrase (C140 and after) -/

namespace Guessit.Spec

/-- A part of a phrase: the property it gives, its value, and where in the phrase it is. -/
structure Piece where
  name : Str
  value : Str
  first : Nat
  stop : Nat
  deriving DecidableEq

/-- What is asked of the text behind a phrase. -/
inductive Behind where
  | anything
  /-- one of some phrases follows -/
  | oneOf (ps : List Str)
  /-- that letter does not follow -/
  | not (c : Char)
  deriving DecidableEq

/-- A way to write something: the phrase, its parts, and what has to follow. -/
structure Way where
  text : Str
  parts : List Piece
  behind : Behind
  deriving DecidableEq

def Behind.Holds (E : RxEnv) (s : Str) : Behind → Nat → Prop
  | .anything, _ => True
  | .oneOf ps, j => ∃ p ∈ ps, PhraseAt E s p j
  | .not c, j => ¬ CharAt s (fun x => E.same c x = true) j

/-- It is written from `i`. -/
def Way.At (E : RxEnv) (w : Way) (s : Str) (i : Nat) : Prop := PhraseAt E s w.text i ∧ w.behind.Holds E s (i + w.text.length)

/-- Where it ends when it begins at `i`. -/
def Way.stop (w : Way) (i : Nat) : Nat := i + w.text.length

/-- It is the longest of these ways that is written from `i`. -/
def Way.LongestAt (E : RxEnv) (w : Way) (ws : List Way) (s : Str) (i : Nat) : Prop := w.At E s i ∧ ∀ x ∈ ws, x.At E s i → x.text.length ≤ w.text.length

/-- None of these ways is written from before `i` to after it. -/
def NoneAcross (E : RxEnv) (ws : List Way) (s : Str) (i : Nat) : Prop := ∀ x ∈ ws, ∀ a, a < i → x.At E s a → x.stop a ≤ i

/-- The part, found in a phrase from `i`. -/
def Piece.found (p : Piece) (i : Nat) : RxMatch Str := ⟨p.name, i + p.first, i + p.stop, .ok p.value⟩

end Guessit.Spec
