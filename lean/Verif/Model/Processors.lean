import Verif.Model.Matches
import Verif.Model.Date

/-!
# guessit/rules/processors.py and guessit/rules/common/comparators.py
-/

namespace Guessit

/-! ## comparators.py -/

/-- `marker_comparator_predicate` (comparators.py:10-19). -/
def markerPredicate (input : Str) (m : Mt) : Bool :=
  !m.priv && !(m.name = some c!"proper_count" || m.name = some c!"title")
    && !(m.name = some c!"container" && m.tags.contains c!"extension")
    && !(m.name = some c!"other" && m.value input = .str c!"Rip")

/-- `len(set(names))`. -/
def countDistinct {α : Type} [DecidableEq α] : List α → Nat
  | [] => 0
  | x :: xs => if x ∈ xs then countDistinct xs else countDistinct xs + 1

/-- `marker_weight` (comparators.py:22-30): the number of distinct names. -/
def markerWeight (input : Str) (live : List Mt) (marker : Mt) (p : Mt → Bool) : Nat :=
  countDistinct ((rangeOf input live marker.start marker.stop p).map Mt.name)

/-- `markers.index(marker)`. -/
def markerIndex (input : Str) (markers : List Mt) (m : Mt) : Nat := markers.findIdx fun x => Mt.eqv input m x

/-- `comparator(marker1, marker2) < 0` (comparators.py:45-55). -/
def markerLt (input : Str) (live markers : List Mt) (p : Mt → Bool) (a b : Mt) : Bool :=
  let d : Int := (markerWeight input live b p : Int) - markerWeight input live a p
  if d ≠ 0 then d < 0 else decide ((markerIndex input markers b : Int) - markerIndex input markers a < 0)

/-- `marker_sorted` (comparators.py:60-73). -/
def markerSorted (input : Str) (live markers : List Mt) (p : Mt → Bool) : List Mt :=
  sortBy (markerLt input live markers p) markers

/-! ## processors.py -/

/-- The `starting` and `ending` lists of `EnlargeGroupMatches.when` (processors.py:24-37). -/
def enlargeStarting (s : Ms) : List Mt := (named s.markers c!"group").flatMap fun g => starting s.live (g.start + 1)
def enlargeEnding (s : Ms) : List Mt := (named s.markers c!"group").flatMap fun g => ending s.live (g.stop - 1)

/-- The current state of the object `m` (it may have been changed since it was collected).  Simplified: where one object stands at two places of a
Python list, the model has two values with one identity. -/
def current (l : List Mt) (m : Mt) : Mt := (l.find? fun x => decide (x.id = m.id)).getD m

/-- One iteration of the first loop of `then` (processors.py:41-45).  `raw_start += 1` reads `raw_start` after `start` has
moved.  A match without a parent is its own initiator; a parent that is live itself does not pass its new span on (the patterns of
guessit that have children yield the children only). -/
def enlargeStart (input : Str) (l : List Mt) (m : Mt) : List Mt :=
  let m := current l m
  let m' := { m with start := m.start - 1, istart := if m.parent.isNone then m.start - 1 else m.istart }
  removeMatch input l m ++ [{ m' with rawStart := some (m'.rawA + 1) }]

/-- One iteration of the second loop (processors.py:47-51). -/
def enlargeEnd (input : Str) (l : List Mt) (m : Mt) : List Mt :=
  let m := current l m
  let m' := { m with stop := m.stop + 1, istop := if m.parent.isNone then m.stop + 1 else m.istop }
  removeMatch input l m ++ [{ m' with rawStop := some (m'.rawB - 1) }]

/-- `EnlargeGroupMatches` (processors.py:18-51). -/
def enlargeGroupMatches (s : Ms) : Ms :=
  { s with live := (enlargeEnding s).foldl (enlargeEnd s.input) ((enlargeStarting s).foldl (enlargeStart s.input) s.live) }

/-- The state of the loop of `RemoveAmbiguous.when`: names of previous parts, values per name, and what to remove. -/
structure AmbState where
  previous : List (Option Str) := []
  values : List (Option Str × MVal) := []
  toRemove : List Mt := []

/-- The inner loop (processors.py:111-119); `values` is an association list instead of `defaultdict(list)`. -/
def ambMatch (input : Str) (st : AmbState) (m : Mt) : AmbState :=
  if st.previous.contains m.name then
    if st.values.contains (m.name, m.value input) then st else { st with toRemove := st.toRemove ++ [m] }
  else
    if st.values.contains (m.name, m.value input) then st
    else { st with values := st.values ++ [(m.name, m.value input)] }

/-- One file part (processors.py:107-121). -/
def ambPart (input : Str) (live : List Mt) (p : Mt → Bool) (st : AmbState) (part : Mt) : AmbState :=
  let ms := rangeOf input live part.start part.stop p
  let st' := ms.foldl (ambMatch input) st
  { st' with previous := st'.previous ++ ms.map Mt.name }

/-- `RemoveAmbiguous.when` (processors.py:101-123), given the sorted parts. -/
def ambRemove (input : Str) (live : List Mt) (p : Mt → Bool) (parts : List Mt) : List Mt :=
  (parts.foldl (ambPart input live p) {}).toRemove

/-- `RemoveAmbiguous` (processors.py:87-123). -/
def removeAmbiguous (s : Ms) : Ms :=
  let parts := markerSorted s.input s.live (named s.markers c!"path") (markerPredicate s.input)
  { s with live := removeAll s.input s.live (ambRemove s.input s.live (fun _ => true) parts) }

/-- `RemoveLessSpecificSeasonEpisode(name)` (processors.py:126-136). -/
def removeLessSpecific (name : Str) (s : Ms) : Ms :=
  let parts := markerSorted s.input s.live (named s.markers c!"path").reverse
    (fun m => m.name = some name && m.tags.contains c!"SxxExx")
  { s with live := removeAll s.input s.live (ambRemove s.input s.live (fun m => m.name = some name) parts) }

/-- `valid_year(match.value)`; a season that is not a number makes `1920 <= value` raise (processors.py:188). -/
def validYearVal : MVal → Except PyErr Bool
  | .int n => .ok (validYear n)
  | _ => .error .typeError

/-- The loop of `SeasonYear.when` (processors.py:185-192); `fresh` numbers the copies. -/
def seasonYears (input : Str) : List Mt → Except PyErr (List Mt)
  | [] => .ok []
  | m :: ms => match validYearVal (m.value input) with
    | .error e => .error e
    | .ok b => match seasonYears input ms with
      | .error e => .error e
      | .ok rest => .ok (if b then { m with name := some c!"year" } :: rest else rest)

/-- `SeasonYear` (processors.py:177-192). -/
def seasonYear (s : Ms) : Except PyErr Ms :=
  if named s.live c!"year" = [] then
    match seasonYears s.input (named s.live c!"season") with
    | .error e => .error e
    | .ok ys => .ok { s with live := appendAll s.input s.live ys }
  else .ok s

/-- `YearSeason` (processors.py:195-209). -/
def yearSeason (s : Ms) : Ms :=
  if named s.live c!"season" = [] ∧ named s.live c!"episode" ≠ [] then
    { s with live := appendAll s.input s.live ((named s.live c!"year").map fun m => { m with name := some c!"season" }) }
  else s

/-- `str.istitle` and `str.isupper` (external tables). -/
structure CaseTables where
  istitle : Str → Bool
  isupper : Str → Bool

/-- `_count_title_words` (processors.py:162-174). -/
def countTitleWords (t : CaseTables) (s : Str) : Nat := ((iterWords s).filter fun w => t.istitle w.2).length

/-- `_preferred_string` (processors.py:139-159); `value[0]` raises on an empty text. -/
def preferredString (t : CaseTables) (a b : Str) : Except PyErr Str :=
  if a = b then .ok a
  else if t.istitle a && !t.istitle b then .ok a
  else if !t.isupper a && t.isupper b then .ok a
  else
    let third : Except PyErr Bool :=
      if t.isupper a then .ok false
      else match a, b with
        | [], _ => .error .indexError
        | x :: _, b => if t.isupper [x] then (match b with
            | [] => .error .indexError
            | y :: _ => .ok (!t.isupper [y])) else .ok false
    match third with
    | .error e => .error e
    | .ok true => .ok a
    | .ok false => if countTitleWords t a > countTitleWords t b then .ok a else .ok b

/-- The text of a match's value, if it is a `str`. -/
def Mt.strValue (input : Str) (m : Mt) : Option Str := match m.value input with
  | .str s => some s
  | _ => none

/-- The body of the innermost loop of `EquivalentHoles.when` (processors.py:68-82): `hole` against `m`.  The result is
the hole, the match, and whether the hole was taken. -/
def equivalentStep (u : Uni) (t : CaseTables) (input : Str) (name : Str) (hole m : Mt) : Except PyErr (Mt × Mt × Bool) :=
  if m.name = some name then
    match m.strValue input, hole.strValue input with
    | some v, some h =>
      if u.lower h = u.lower v then
        if m.tags.contains c!"equivalent-ignore" then .ok (hole, m, false)
        else match preferredString t h v with
          | .error e => .error e
          | .ok new =>
            let hole := if h ≠ new then { hole with val := some (.str new) } else hole
            let m := if v ≠ new then { m with val := some (.str new) } else m
            .ok ({ hole with name := some name, tags := [c!"equivalent"] }, m, true)
      else .ok (hole, m, false)
    | _, _ => .ok (hole, m, false)
  else .ok (hole, m, false)

/-- `for current_match in matches.named(name)` (processors.py:67). -/
def equivalentLoop (u : Uni) (t : CaseTables) (input : Str) (name : Str) : Mt → List Mt → Except PyErr (Mt × List Mt × Bool)
  | hole, [] => .ok (hole, [], false)
  | hole, m :: ms => match equivalentStep u t input name hole m with
    | .error e => .error e
    | .ok (hole, m, b) => match equivalentLoop u t input name hole ms with
      | .error e => .error e
      | .ok (hole, ms, b') => .ok (hole, m :: ms, b || b')

/-- `for hole in list(holes)` (processors.py:66): the holes left, the matches, and the holes taken. -/
def equivalentHolesFor (u : Uni) (t : CaseTables) (input : Str) (name : Str) :
    List Mt → List Mt → Except PyErr (List Mt × List Mt × List Mt)
  | [], live => .ok ([], live, [])
  | hole :: holes, live => match equivalentLoop u t input name hole live with
    | .error e => .error e
    | .ok (hole', live, taken) => match equivalentHolesFor u t input name holes live with
      | .error e => .error e
      | .ok (left, live, new) => if taken then .ok (left, live, hole' :: new) else .ok (hole' :: left, live, new)

/-- `for name in matches.names` (processors.py:65). -/
def equivalentNames (u : Uni) (t : CaseTables) (input : Str) : List Str → List Mt → List Mt → Except PyErr (List Mt × List Mt)
  | [], _, live => .ok (live, [])
  | name :: names, holes, live => match equivalentHolesFor u t input name holes live with
    | .error e => .error e
    | .ok (left, live, new) => match equivalentNames u t input names left live with
      | .error e => .error e
      | .ok (live, new') => .ok (live, new ++ new')

/-- `matches.names`: the distinct names, in order of first insertion. -/
def namesOf (l : List Mt) : List Str := (l.filterMap Mt.name).foldl (fun acc n => if acc.contains n then acc else acc ++ [n]) []

/-- `for filepath in marker_sorted(...)` (processors.py:64). -/
def equivalentParts (u : Uni) (t : CaseTables) (input : Str) : List Mt → List Mt → Except PyErr (List Mt × List Mt)
  | [], live => .ok (live, [])
  | part :: parts, live =>
    let holes := holesOf input live part.start part.stop (fun raw => .str (cleanup raw))
    match equivalentNames u t input (namesOf live) holes live with
    | .error e => .error e
    | .ok (live, new) => match equivalentParts u t input parts live with
      | .error e => .error e
      | .ok (live, new') => .ok (live, new ++ new')

/-- `EquivalentHoles` (processors.py:54-84). -/
def equivalentHoles (u : Uni) (t : CaseTables) (s : Ms) : Except PyErr Ms :=
  let parts := markerSorted s.input s.live (named s.markers c!"path") (markerPredicate s.input)
  match equivalentParts u t s.input parts s.live with
  | .error e => .error e
  | .ok (live, new) => .ok { s with live := appendAll s.input live new }

/-- One iteration of the first inner loop of `StripSeparators.then` (processors.py:236-238). -/
def stripStartOnce (input : Str) (m : Mt) : Except PyErr Mt :=
  let raw := m.raw input
  match raw[0]? with
  | none => .error .indexError
  | some c =>
    if sepsNoGroups.contains c && (decide (raw.length < 3) || (raw[2]?).any fun d => !sepsNoGroups.contains d) then
      .ok { m with rawStart := some (m.rawA + 1) }
    else .ok m

/-- One iteration of the second inner loop (processors.py:240-242). -/
def stripEndOnce (input : Str) (m : Mt) : Except PyErr Mt :=
  let raw := m.raw input
  match raw.getLast? with
  | none => .error .indexError
  | some c =>
    if sepsNoGroups.contains c && (decide (raw.length < 3) || (raw[raw.length - 3]?).any fun d => !sepsNoGroups.contains d) then
      .ok { m with rawStop := some (m.rawB - 1) }
    else .ok m

/-- The body of the loop of `StripSeparators.then` (processors.py:235-242); `len(match.span)` is 2. -/
def stripMatch (input : Str) (m : Mt) : Except PyErr Mt :=
  match stripStartOnce input m with
  | .error e => .error e
  | .ok m => match stripStartOnce input m with
    | .error e => .error e
    | .ok m => match stripEndOnce input m with
      | .error e => .error e
      | .ok m => stripEndOnce input m

/-- `StripSeparators` (processors.py:225-242). -/
def stripAll (input : Str) : List Mt → Except PyErr (List Mt)
  | [] => .ok []
  | m :: ms => match stripMatch input m with
    | .error e => .error e
    | .ok m => match stripAll input ms with
      | .error e => .error e
      | .ok ms => .ok (m :: ms)

def stripSeparators (s : Ms) : Except PyErr Ms := match stripAll s.input s.live with
  | .error e => .error e
  | .ok l => .ok { s with live := l }

end Guessit
