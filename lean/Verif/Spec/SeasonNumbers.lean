import Verif.Spec.SeasonWords

/-! # Numbers of seasons, and years (C165) -/

namespace Guessit.Spec

/-- Somewhere in the name are digits worth `n`, or a Roman numeral or a number word for `n` that stands between separators. -/
def NumberSomewhere (E : RxEnv) (s : Str) (n : Nat) : Prop := ∃ a b, Number E s a b n ∨ NumeralAt E s a b n

/-- The number lies between two numbers that are written in the name, or is one of them. -/
def BetweenWritten (E : RxEnv) (s : Str) (k : Int) : Prop := ∃ lo hi : Nat, NumberSomewhere E s lo ∧ NumberSomewhere E s hi ∧ (lo : Int) ≤ k ∧ k ≤ hi

/-- What a number of the dictionary is: for a year, one of the hundred and ten years from 1920 on. -/
def SeasonOrYear (E : RxEnv) (s : Str) (n : Str) (k : Int) : Prop := BetweenWritten E s k ∧ (n = c!"year" → 1920 ≤ k ∧ k < 2030)

end Guessit.Spec
