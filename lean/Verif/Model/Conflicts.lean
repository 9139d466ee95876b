import Verif.Model.Removers
import Verif.Model.SceneGroup

/-!
# guessit/rules/properties/episodes.py: competing readings of numbers
-/

namespace Guessit

/-- The bracketed group starts a path part and nothing was found in it (episodes.py:396-399).  Empty holes, which
`matches.holes` may list first, are false and stand before a match that starts with the group. -/
def untouchedAtStart (s : Ms) (g : Mt) : Bool :=
  ((starting s.markers g.start).any fun m => decide (m.name = some c!"path")) &&
  (match (holesOf s.input s.live g.start g.stop MVal.str).head? with
    | some h => decide (h.raw s.input = g.raw s.input)
    | none => false)

/-- `WeakConflictSolver.is_anime` (episodes.py:380-401). -/
def isAnime (s : Ms) : Bool :=
  !(named s.live c!"version").isEmpty || !(named s.live c!"crc32").isEmpty ||
  (named s.markers c!"group").any fun g =>
    !(rangeOf s.input s.live g.start g.stop fun m => decide (m.name = some c!"screen_size")).isEmpty || untouchedAtStart s g

/-- The matches of a path part that come from `weak_episode` or `weak_duplicate` patterns (episodes.py:408-411). -/
def fromPattern (s : Ms) (name : Str) (part : Mt) : List Mt :=
  rangeOf s.input s.live part.start part.stop fun m => decide (m.iname = some name)

/-- `episodes_in_range` (episodes.py:422-426). -/
def rangedEpisodes (kin : Kin) (s : Ms) (part : Mt) : List Mt :=
  rangeOf s.input s.live part.start part.stop fun m => decide (m.name = some c!"episode") && decide (m.iname = some c!"weak_episode") &&
    !(named (kin.children (kin.initiator m)) c!"episodeSeparator").isEmpty

/-- The episodes that are tagged as anime (episodes.py:415-416). -/
def animeEpisodes (s : Ms) (part : Mt) : List Mt :=
  rangeOf s.input s.live part.start part.stop fun m => decide (m.name = some c!"episode") && decide (m.iname ≠ some c!"weak_duplicate")

/-- One turn of the loop of `WeakConflictSolver.when` (episodes.py:407-439): what is to be removed, what is to be appended. -/
def weakStep (kin : Kin) (s : Ms) (anime : Bool) (acc : List Mt × List Mt) (part : Mt) : List Mt × List Mt :=
  let weak := fromPattern s c!"weak_episode" part
  let dup := fromPattern s c!"weak_duplicate" part
  if anime then
    if weak.isEmpty then acc
    else (acc.1 ++ dup ++ animeEpisodes s part, acc.2 ++ (animeEpisodes s part).map fun m => { m with tags := m.tags ++ [c!"anime"] })
  else if dup.isEmpty then acc
  else
    let ranged := rangedEpisodes kin s part
    let acc' :=
      if ranged.isEmpty && (rangeOf s.input s.live part.start part.stop fun m => m.tagged c!"SxxExx").isEmpty then (acc.1 ++ weak, acc.2)
      else (acc.1 ++ ranged, acc.2 ++ ranged.map fun m => { m with tags := [] })
    if acc'.2.isEmpty then acc' else (acc'.1 ++ dup, acc'.2)

/-- `WeakConflictSolver` (episodes.py:366-443), with `consequence = [RemoveMatch, AppendMatch]`. -/
def weakConflicts (kin : Kin) (type : Option Str) (s : Ms) : Ms :=
  if type = some c!"movie" then s else
  let r := (pathParts s).foldl (weakStep kin s (isAnime s)) ([], [])
  { s with live := appendAll s.input (removeAll s.input s.live r.1) r.2 }

/-! ## Absolute numbering -/

/-- `m` is not in the set yet. -/
def addNew (input : Str) (acc : List Mt) (m : Mt) : List Mt := if acc.any (Mt.eqv input m) then acc else acc ++ [m]

/-- `initiators` (episodes.py:588-589), a set. -/
def rangeInitiators (kin : Kin) (s : Ms) : List Mt :=
  (((named s.live c!"episode").filter fun m => decide ((named (kin.children (kin.initiator m)) c!"episode").length > 1)).map kin.initiator).foldl
    (addNew s.input) []

/-- The episodes after the first character of a path part (episodes.py:593-596). -/
def laterEpisodes (s : Ms) (part : Mt) (p : Mt → Bool) : List Mt :=
  rangeOf s.input s.live (part.start + 1) part.stop fun m => decide (m.name = some c!"episode") && p m

/-- `absolute_episode_candidate`, when it is looked for (episodes.py:596-599). -/
def absoluteCandidates (s : Ms) (part : Mt) : List Mt :=
  if (laterEpisodes s part fun _ => true).isEmpty then [] else
  (starting s.live part.start).filter fun m => decide (m.iname = some c!"weak_episode")

/-- The episodes of a range (episodes.py:608-609). -/
def episodesOf (kin : Kin) (s : Ms) (i : Mt) : List Mt := (named s.live c!"episode").filter fun m => Mt.eqv s.input (kin.initiator m) i

/-- `RenameToAbsoluteEpisode` (episodes.py:573-614), with `consequence = [RenameMatch('absolute_episode'), RemoveMatch]`; `none`: the
values of episodes are not numbers (then `>` raises `TypeError`, or compares texts). -/
def renameAbsolute (kin : Kin) (s : Ms) : Option Ms :=
  match sortBy (fun a b : Mt => decide (a.stop < b.stop)) (rangeInitiators kin s) with
  | [i, j] =>
    if hasText s.input s.live i.stop j.start then some s else
    let first := episodesOf kin s i
    let second := episodesOf kin s j
    if first.length ≠ second.length then some s else
    match first.head?.bind (intValue s.input), second.head?.bind (intValue s.input) with
    | some a, some b =>
      if b > a then some { s with live := renameAll s.input c!"absolute_episode" s.live second }
      else if a > b then some { s with live := renameAll s.input c!"absolute_episode" s.live first }
      else some s
    | _, _ => none
  | _ =>
    let strong := fun part => !(laterEpisodes s part fun m => m.tagged c!"SxxExx").isEmpty
    let renamed := (pathParts s).flatMap fun part => if strong part then [] else absoluteCandidates s part
    let removed := (pathParts s).flatMap fun part => if strong part then absoluteCandidates s part else []
    some { s with live := removeAll s.input (renameAll s.input c!"absolute_episode" s.live renamed) removed }

/-! ## Discs -/

/-- `m.value.lower() == 'd'`; the value of a marker is text. -/
def discMarker (lower : Str → Str) (input : Str) (m : Mt) : Bool := match m.value input with
  | .str v => decide (lower v = c!"d")
  | _ => false

/-- `sorted(…, key=lambda m: m.value)`; the values of episodes are numbers. -/
def sortValues (input : Str) (l : List Mt) : List Mt :=
  sortBy (fun a b => decide ((intValue input a).getD 0 < (intValue input b).getD 0)) l

/-- `RenameToDiscMatch` (episodes.py:904-932), with `consequence = [RenameMatch('disc'), RenameMatch('discMarker'), RemoveMatch]`. -/
def renameDisc (kin : Kin) (lower : Str → Str) (disabled : Bool) (s : Ms) : Ms :=
  let markers := (named s.live c!"episodeMarker").filter (discMarker lower s.input)
  if disabled then dropping s (markers.flatMap fun m => m :: kin.children (kin.initiator m))
  else
    let discs := markers.flatMap fun m => sortValues s.input (named (kin.children (kin.initiator m)) c!"episode")
    { s with live := renameAll s.input c!"discMarker" (renameAll s.input c!"disc" s.live discs) markers }

end Guessit
