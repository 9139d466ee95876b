import Verif.Spec.SeasonWords

/-! # Versions and counts written in the name (C163, C164) -/

namespace Guessit.Spec

/-- Somewhere in the name the letter `v`, in either case, is followed by digits worth `k`. -/
def VersionWritten (E : RxEnv) (s : Str) (k : Int) : Prop := ∃ i j n : Nat, k = n ∧ VersionAt E s i j ∧ Number E s (i + 1) j n

/-- Somewhere in the name `of` or `sur` (with at most one separator) is followed by digits worth `k`, or by a numeral or number word for `k` that stands between separators. -/
def CountWritten (E : RxEnv) (s : Str) (k : Int) : Prop := ∃ i a b n : Nat, k = n ∧ WordThen E [c!"of", c!"sur"] s i a ∧ (Number E s a b n ∨ NumeralAt E s a b n)

end Guessit.Spec
