import Verif.Model.Rules

/-!
# guessit/rules/properties/episodes.py: ranges, counts, validators
-/

namespace Guessit

/-- `range(a, b)`. -/
def pyRange (a b : Int) : List Int := (List.range (b - a).toNat).map fun (i : Nat) => a + (i : Int)

/-- A match found by a query with `index=0` is used as a truth value: an empty match is false. -/
def firstTrue (l : List Mt) : Option Mt := match l with
  | [] => none
  | m :: _ => if m.start < m.stop then some m else none

/-- The copies of `next` for `range(lo, hi)` (episodes.py:499-502, 538-542, 557-561); `initiator.children.append` is not
modelled. -/
def copiesFor (next : Mt) (lo hi : Int) : List Mt := (pyRange lo hi).map fun k => { next with val := some (.int k) }

/-- The integer value of a match; `none`: `match.value + 1` raises `TypeError`. -/
def intValue (input : Str) (m : Mt) : Option Int := match m.value input with
  | .int n => some n
  | _ => none

/-- The copies between the values of two matches; `none`: `TypeError`. -/
def copiesBetween (input : Str) (p n : Mt) : Option (List Mt) := match intValue input p, intValue input n with
  | some a, some b => some (copiesFor n (a + 1) b)
  | _, _ => none

/-- `separator.value in self.range_separators`. -/
def isRangeSep (input : Str) (rs : List Str) (sep : Mt) : Bool := (rs.map MVal.str).contains (sep.value input)

/-- The name of the separators of a property. -/
def sepName (prop : Str) : Str := prop ++ c!"Separator"

/-- One iteration of the first loop of `AbstractSeparatorRange.when` (episodes.py:531-544): what is removed and added. -/
def sepStep (rs : List Str) (prop : Str) (s : Ms) (sep : Mt) : Option (List Mt × List Mt) :=
  match firstTrue (previous s.live sep fun m => m.name = some prop),
      firstTrue (nextOf s.input s.live sep fun m => m.name = some prop) with
  | some p, some n =>
    if isRangeSep s.input rs sep then (copiesBetween s.input p n).map fun c => ([n, sep], c ++ [n])
    else some ([sep], [])
  | _, _ => some ([sep], [])

/-- A loop that collects what its iterations remove and add; `none`: an iteration raised. -/
def collect {α : Type} (f : α → Option (List Mt × List Mt)) : List α → Option (List Mt × List Mt)
  | [] => some ([], [])
  | x :: xs => match f x, collect f xs with
    | some a, some b => some (a.1 ++ b.1, a.2 ++ b.2)
    | _, _ => none

/-- The text between two matches is a range separator (episodes.py:552-555). -/
def textJoins (rs : List Str) (input : Str) (p n : Mt) : Bool :=
  let separator := (input.take n.istart).drop p.istop
  let separator := if rs.contains separator then separator else stripSeps separator
  rs.contains separator

/-- One iteration of the second loop with a previous match (episodes.py:551-568). -/
def pairStep (rs : List Str) (prop : Str) (input : Str) (p n : Mt) : Option (List Mt × List Mt) :=
  if textJoins rs input p n then
    (copiesBetween input p n).map fun c =>
      ([n], c ++ [{ id := 0, start := p.stop, stop := n.start - 1, name := some (sepName prop), priv := true }, n])
  else some ([n], [n])

/-- The second loop (episodes.py:546-570). -/
def pairLoop (rs : List Str) (prop : Str) (canStart : Mt → Bool) (input : Str) : Option Mt → List Mt → Option (List Mt × List Mt)
  | _, [] => some ([], [])
  | none, n :: rest => pairLoop rs prop canStart input (if canStart n && n.start < n.stop then some n else none) rest
  | some p, n :: rest => match pairStep rs prop input p n,
      pairLoop rs prop canStart input (if n.start < n.stop then some n else none) rest with
    | some a, some b => some (a.1 ++ b.1, a.2 ++ b.2)
    | _, _ => none

/-- `sorted(matches.named(prop), key=lambda x: x.span[0])`. -/
def byStart (l : List Mt) : List Mt := sortBy (fun a b => decide (a.start < b.start)) l

/-- `AbstractSeparatorRange` (episodes.py:509-575) with `consequence = [RemoveMatch, AppendMatch]`; `none`: `TypeError`. -/
def separatorRange (rs : List Str) (prop : Str) (canStart : Mt → Bool) (s : Ms) : Option Ms :=
  match collect (sepStep rs prop s) (named s.live (sepName prop)),
      pairLoop rs prop canStart s.input none (byStart (named s.live prop)) with
  | some a, some b => some { s with live := appendAll s.input (removeAll s.input s.live (a.1 ++ b.1)) (a.2 ++ b.2) }
  | _, _ => none

/-- `EpisodeNumberSeparatorRange` (episodes.py:619-632). -/
def episodeRange (rs : List Str) (s : Ms) : Option Ms :=
  separatorRange rs c!"episode" (fun m => !m.tags.contains c!"weak-episode") s

/-- `SeasonSeparatorRange` (episodes.py:635-642). -/
def seasonRange (rs : List Str) (s : Ms) : Option Ms := separatorRange rs c!"season" (fun _ => true) s

/-- One iteration of `SeePatternRange.when` (episodes.py:489-504). -/
def seeStep (rs : List Str) (s : Ms) (sep : Mt) : Option (List Mt × List Mt) :=
  let see := fun (name : Str) (m : Mt) => decide (m.name = some name) && m.tags.contains c!"see-pattern"
  match firstTrue (nextOf s.input s.live sep (see c!"season")) with
  | none => some ([], [])
  | some season =>
    match firstTrue (previous s.live sep (see c!"episode")), firstTrue (nextOf s.input s.live season (see c!"episode")) with
    | some p, some n =>
      if isRangeSep s.input rs sep then
        match intValue s.input p, intValue s.input n with
        | some a, some b => some ([n, sep], copiesFor n (a + 1) (b + 1))
        | _, _ => none
      else some ([sep], [])
    | _, _ => some ([sep], [])

/-- `SeePatternRange` (episodes.py:473-507). -/
def seePatternRange (rs : List Str) (s : Ms) : Option Ms :=
  match collect (seeStep rs s) (s.live.filter fun m => m.tags.contains c!"see-pattern" && decide (m.name = some c!"episodeSeparator")) with
  | some a => some { s with live := appendAll s.input (removeAll s.input s.live a.1) a.2 }
  | none => none

/-! ## `CountValidator` -/

/-- What a count counts (episodes.py:458-464): the name of the match just before it, if it is an episode or a season. -/
def countOf (s : Ms) (count : Mt) : Option Str :=
  (firstTrue (previous s.live count fun m => m.name = some c!"episode" || m.name = some c!"season")).bind Mt.name

/-- `CountValidator` (episodes.py:445-470): `consequence = [RemoveMatch, RenameMatch('episode_count'),
RenameMatch('season_count')]`. -/
def countValidator (s : Ms) : Ms :=
  let counts := named s.live c!"count"
  let l1 := removeAll s.input s.live (counts.filter fun c => countOf s c = none)
  let l2 := renameAll s.input c!"episode_count" l1 (counts.filter fun c => countOf s c = some c!"episode")
  let l3 := renameAll s.input c!"season_count" l2 (counts.filter fun c => countOf s c = some c!"season")
  { s with live := l3 }

/-! ## Validation of chains -/

/-- `chain_breaker` (episodes.py:38-54): the values are the successive values of the property in the chain. -/
def breaksAt (maxRange : Int) (values : List Int) : Bool := match values.reverse with
  | b :: a :: _ => decide ((b - a).natAbs > maxRange)
  | _ => false
def chainBreaker (episodeMax seasonMax : Int) (episodes seasons : List Int) : Bool :=
  breaksAt episodeMax episodes || breaksAt seasonMax seasons

/-- A chain as rebulk grows it: a group of matches (here its episode and season number, at most one of each) joins the chain
unless the chain breaker (episodes.py:38-54) objects to the chain with it; the search goes on after the group either way. -/
def chainGrow (episodeMax seasonMax : Int) : List Int × List Int → List (Option Int × Option Int) → List Int × List Int
  | acc, [] => acc
  | acc, g :: gs =>
    if chainBreaker episodeMax seasonMax (acc.1 ++ g.1.toList) (acc.2 ++ g.2.toList) then chainGrow episodeMax seasonMax acc gs
    else chainGrow episodeMax seasonMax (acc.1 ++ g.1.toList, acc.2 ++ g.2.toList) gs

/-- `match.children.to_dict()[name]` as far as `ordering_validator` uses it: each value once, in order of first occurrence. -/
def dedupInts : List Int → List Int
  | [] => []
  | x :: xs => x :: (dedupInts xs).filter fun y => y ≠ x

/-- `list(sorted(values)) == values` (episodes.py:90-97). -/
def isSorted : List Int → Bool
  | a :: b :: l => decide (a ≤ b) && isSorted (b :: l)
  | _ => true

/-- `is_consecutive` (episodes.py:99-124): the successive values, each with the raw text of the separator found before it
(if any); `gap` is `max_range_gap`.  `valid` survives to the end unless a strong separator resets it. -/
def consecutiveFrom (isRange isWeak isStrong : Str → Bool) (gap : Int) : Bool → Option Int → List (Option Str × Int) → Bool
  | valid, _, [] => valid
  | valid, none, (_, v) :: rest => consecutiveFrom isRange isWeak isStrong gap valid (some v) rest
  | valid, some p, (sep, v) :: rest => match sep with
    | none => consecutiveFrom isRange isWeak isStrong gap valid (some v) rest
    | some sp =>
      let valid := if !isRange sp && isWeak sp && !(decide (0 < v - p) && decide (v - p ≤ gap + 1)) then false else valid
      if isStrong sp then true else consecutiveFrom isRange isWeak isStrong gap valid (some v) rest

/-- `ordering_validator` (episodes.py:80-126) on the seasons and episodes of a chain. -/
def orderingValidator (isRange isWeak isStrong : Str → Bool) (gap : Int) (seasons episodes : List (Option Str × Int)) : Bool :=
  isSorted (dedupInts (seasons.map Prod.snd)) && isSorted (dedupInts (episodes.map Prod.snd)) &&
    consecutiveFrom isRange isWeak isStrong gap true none episodes && consecutiveFrom isRange isWeak isStrong gap true none seasons

end Guessit
