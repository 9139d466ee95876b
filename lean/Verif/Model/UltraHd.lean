import Verif.Model.EpisodeTitle
import Verif.Model.Validators
import Verif.Model.Removers

/-!
# guessit/rules/properties/source.py: Ultra HD Blu-ray
-/

namespace Guessit

/-- The Ultra HD matches (source.py:133-137). -/
def isUltra (input : Str) (m : Mt) : Bool := !m.priv && decide (m.name = some c!"other") && decide (m.value input = .str c!"Ultra HD")

/-- The Blu-ray matches (source.py:153-154). -/
def isBluray (input : Str) (m : Mt) : Bool := !m.priv && decide (m.name = some c!"source") && decide (m.value input = .str c!"Blu-ray")

/-- `validate_range` (source.py:139-148). -/
def clearRange (s : Ms) (a b : Nat) : Bool :=
  !hasText s.input s.live a b && (rangeOf s.input s.live a b fun m => !m.priv && (!m.isOneOf [c!"screen_size", c!"color_depth"] &&
    (!decide (m.name = some c!"other") || !m.tags.contains c!"uhdbluray-neighbor"))).isEmpty

/-- There is a screen size of 2160p in the part (source.py:159-160). -/
def has2160 (s : Ms) (part : Mt) : Bool :=
  !(rangeOf s.input s.live part.start part.stop fun m => decide (m.name = some c!"screen_size") && decide (m.value s.input = .str c!"2160p")).isEmpty

/-- The search after the Blu-ray (source.py:157-161): `some other` when the Blu-ray is an Ultra HD one. -/
def ultraAfter (s : Ms) (part m : Mt) : Option (Option Mt) := match firstIn s m.stop part.stop (isUltra s.input) with
  | some o => if clearRange s m.stop o.start || has2160 s part then some (some o) else none
  | none => if has2160 s part then some none else none

/-- The body of the loop (source.py:155-161). -/
def ultraOf (s : Ms) (part m : Mt) : Option (Option Mt) := match lastIn s part.start m.start (isUltra s.input) with
  | some o => if clearRange s o.stop m.start then some (some o) else ultraAfter s part m
  | none => ultraAfter s part m

/-- `other.private = True` (source.py:163-164); `other` is one of the matches, the one that equals it. -/
def hideOne (input : Str) (o : Mt) (l : List Mt) : List Mt := l.map fun x => if Mt.eqv input o x then { x with priv := true } else x

/-- A turn of the inner loop (source.py:152-169), on the matches and `to_remove`. -/
def ultraStep (s : Ms) (part : Mt) (st : List Mt × List Mt) (m : Mt) : List Mt × List Mt :=
  match ultraOf { s with live := st.1 } part m with
  | none => st
  | some none => (st.1, st.2 ++ [m])
  | some (some o) => (hideOne s.input o st.1, st.2 ++ [m])

/-- A turn of the outer loop (source.py:152-169). -/
def ultraPart (s : Ms) (st : List Mt × List Mt) (part : Mt) : List Mt × List Mt :=
  (rangeOf s.input st.1 part.start part.stop (isBluray s.input)).foldl (ultraStep s part) st

/-- `new_source` (source.py:166-167). -/
def promote (m : Mt) : Mt := { m with val := some (.str c!"Ultra HD Blu-ray") }

/-- `UltraHdBlurayRule` (source.py:125-174), with `consequence = [RemoveMatch, AppendMatch]`. -/
def ultraHdBluray (s : Ms) : Ms :=
  let st := (pathParts s).foldl (ultraPart s) (s.live, [])
  { s with live := appendAll s.input (removeAll s.input st.1 st.2) (st.2.map promote) }

end Guessit
