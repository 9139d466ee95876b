import Verif.Model.Markers
import Verif.Model.Matches

/-! # The markers of an input -/

namespace Guessit

/-- A marker without value of its own. -/
def mark (name : Str) (a b : Nat) : Mt := { id := 0, start := a, stop := b, name := some name }

/-- The markers for an input (rules/__init__.py:53-54, path.py:20-48, groups.py:11-55): path elements, then bracketed groups, as rebulk
keeps them (empty functional matches are dropped). -/
def marksOf (context : Dict) (opening closing input : Str) : List Mt :=
  (((markPath context input).filter fun p => decide (p.1 < p.2)).map fun p => mark c!"path" p.1.toNat p.2.toNat) ++
    ((markGroups opening closing input).map fun p => mark c!"group" p.1 p.2)

end Guessit
