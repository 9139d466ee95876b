import Verif.Model.Holes

/-!
# guessit/rules/properties/episode_title.py, bonus.py, film.py

`EpisodeTitleFromPosition` is in `Model/Title.lean`.
-/

namespace Guessit

/-- A hole with `formatter=cleanup`. -/
def cleanHole (h : Nat × Nat) : Mt := { id := 0, start := h.1, stop := h.2, name := none, fmt := fun t => .str (cleanup t) }

/-- `next_names` of `RemoveConflictsWithEpisodeTitle` (episode_title.py:52-53). -/
def nextNames : List Str :=
  [c!"streaming_service", c!"screen_size", c!"source", c!"video_codec", c!"audio_codec", c!"other", c!"container"]

/-- `matches.markers.at_match(m, predicate=…group…, index=0)`; `None` and a group compare as options of keys. -/
def groupAt (s : Ms) (a b : Nat) : Option MtKey :=
  ((atSpan s.input s.markers a b).find? fun m => m.name = some c!"group").map (Mt.key s.input)

/-- `matches.holes(a, b, predicate=has_value_in_same_group)` as a truth value (episode_title.py:73-81).  The value of a hole is
its text. -/
def hasHole (s : Ms) (group : Option MtKey) (a b : Nat) : Bool :=
  (holeSpans s.input s.live (fun _ => false) [] a b).any fun h =>
    !blank s.input h.1 h.2 && decide (group = groupAt s h.1 h.2)

/-- The last public match of a range (`index=-1`), used as a truth value. -/
def lastIn (s : Ms) (a b : Nat) (p : Mt → Bool) : Option Mt := firstTrue (rangeOf s.input s.live a b p).reverse

/-- The test of the loop of `RemoveConflictsWithEpisodeTitle.when` (episode_title.py:63-87). -/
def conflictsWithTitle (s : Ms) (part m : Mt) : Bool :=
  match lastIn s part.start m.start fun x => !x.priv, firstIn s m.stop part.stop fun x => !x.priv with
  | some before, some after => before.isOneOf previousNames && after.isOneOf nextNames &&
      (let g := groupAt s m.start m.stop
       if m.name = some c!"part" then hasHole s g m.stop after.start
       else hasHole s g before.stop m.start || hasHole s g m.stop after.start)
  | _, _ => false

/-- `RemoveConflictsWithEpisodeTitle` (episode_title.py:40-95). -/
def removeTitleConflicts (kin : Kin) (s : Ms) : Ms :=
  { s with live := removeAll s.input s.live ((pathParts s).flatMap fun part =>
      ((rangeOf s.input s.live part.start part.stop fun m => m.isOneOf [c!"part", c!"year"]).filter (conflictsWithTitle s part)).flatMap
        fun m => m :: ((kin.ancestors m).take 1).filter fun p => decide (p.start < p.stop)) }

/-- `for title in when_response: matches.remove(title); title.name = name; matches.append(title)` (episode_title.py:117-121,
206-210). -/
def renameEach (input : Str) (name : Str) (l : List Mt) (ms : List Mt) : List Mt :=
  ms.foldl (fun l m => removeMatch input l m ++ [{ m with name := some name }]) l

/-- `TitleToEpisodeTitle.when` (episode_title.py:104-115). -/
def titlesAfterEpisode (s : Ms) : List Mt :=
  if countDistinct ((named s.live c!"title").map fun m => m.value s.input) < 2 then []
  else (named s.live c!"title").filter fun t => !(previous s.live t fun m => m.name = some c!"episode").isEmpty

/-- `TitleToEpisodeTitle` (episode_title.py:98-121). -/
def titleToEpisodeTitle (s : Ms) : Ms := { s with live := renameEach s.input c!"episode_title" s.live (titlesAfterEpisode s) }

/-- `AlternativeTitleReplace.when` (episode_title.py:172-191). -/
def alternativeToReplace (kin : Kin) (s : Ms) : Option Mt :=
  if !(named s.live c!"episode_title").isEmpty then none
  else match firstTrue (rangeOf s.input s.live 0 (maxEnd s.input s.live) fun m => m.name = some c!"alternative_title") with
    | none => none
    | some alt => match chainBefore s.input s.live (fun m => m.tagged c!"title") (min (maxEnd s.input s.live) alt.start) with
      | none => none
      | some main =>
        if main.start < main.stop &&
            ((firstTrue (previous s.live main fun m => m.goesBy kin previousNames)).isSome || !(named s.live c!"crc32").isEmpty) then
          some alt
        else none

/-- The match under its new name (episode_title.py:195-196). -/
def replacedTitle (alt : Mt) : Mt := { alt with name := some c!"episode_title", tags := alt.tags ++ [c!"alternative-replaced"] }

/-- `AlternativeTitleReplace` (episode_title.py:161-197). -/
def alternativeTitleReplace (kin : Kin) (s : Ms) : Ms := match alternativeToReplace kin s with
  | none => s
  | some alt => { s with live := removeMatch s.input s.live alt ++ [replacedTitle alt] }

/-- `RenameEpisodeTitleWhenMovieType` (episode_title.py:200-222). -/
def renameEpisodeTitleWhenMovie (s : Ms) : Ms :=
  if ((named s.live c!"episode_title").any fun m => !m.tagged c!"alternative-replaced") &&
      !((named s.live c!"type").any fun m => decide (m.value s.input = .str c!"episode")) then
    { s with live := renameEach s.input c!"alternative_title" s.live (named s.live c!"episode_title") }
  else s

/-- `or_(lambda match: 'weak-episode' in match.tags, TitleBaseRule.is_ignored)` (episode_title.py:262, 307). -/
def filepartIgnored (upper : Str → Bool) (input : Str) (m : Mt) : Bool := m.tagged c!"weak-episode" || isIgnored upper input m

/-- `matches.holes(…, formatter=cleanup, seps=title_seps, predicate=lambda match: match.value, index=0)` (episode_title.py:261-264,
306-309).  A hole of negative length has no value. -/
def filepartHole (upper : Str → Bool) (s : Ms) (part : Mt) : Option (Nat × Nat) :=
  (holeSpans s.input s.live (filepartIgnored upper s.input) titleSeps part.start part.stop).find? fun h =>
    !(cleanup (sliceOf s.input h)).isEmpty

/-- `Filepart3EpisodeTitle` (episode_title.py:225-267). -/
def filepart3 (upper : Str → Bool) (s : Ms) : Ms :=
  if s.live.any fun m => m.tagged c!"filepart-title" then s
  else match (named s.markers c!"path").reverse with
    | filename :: directory :: subdirectory :: _ =>
      if (firstIn s filename.start filename.stop fun m => m.name = some c!"episode").isSome &&
          (firstIn s directory.start directory.stop fun m => m.name = some c!"season").isSome then
        match filepartHole upper s subdirectory with
        | some h => { s with live := appendNamed s.input c!"title" s.live [cleanHole h] }
        | none => s
      else s
    | _ => s

/-- `Filepart2EpisodeTitle` (episode_title.py:270-313). -/
def filepart2 (upper : Str → Bool) (s : Ms) : Ms :=
  if s.live.any fun m => m.tagged c!"filepart-title" then s
  else match (named s.markers c!"path").reverse with
    | filename :: directory :: _ =>
      if (firstIn s filename.start filename.stop fun m => m.name = some c!"episode").isSome &&
          ((firstIn s directory.start directory.stop fun m => m.name = some c!"season").isSome ||
            (firstIn s filename.start filename.stop fun m => m.name = some c!"season").isSome) then
        match filepartHole upper s directory with
        | some h => { s with live := appendNamed s.input c!"title" s.live [{ cleanHole h with tags := [c!"filepart-title"] }] }
        | none => s
      else s
    | _ => s

/-- `hole and hole.value` for the first hole, which `AppendMatch` then adds under its new name; a hole of negative length makes
`bool(hole)` raise. -/
def appendFirstHole (s : Ms) (name : Str) : List (Nat × Nat) → Except PyErr Ms
  | [] => .ok s
  | h :: _ =>
    if h.2 < h.1 then .error .valueError
    else if h.1 < h.2 && !(cleanup (sliceOf s.input h)).isEmpty then
      .ok { s with live := appendAll s.input s.live [{ cleanHole h with name := some name }] }
    else .ok s

/-- The first public match of a name, and the path part it is in, when there is one (bonus.py:44-46, film.py:52-54);
`filepath.end` raises when the match is in no part. -/
def numberAndPart (s : Ms) (name : Str) : Except PyErr (Option (Mt × Mt)) :=
  match firstTrue ((named s.live name).filter fun m => !m.priv) with
  | none => .ok none
  | some m => match (atMatch s.input s.markers m fun x => x.name = some c!"path").head? with
    | none => .error .attributeError
    | some part => .ok (some (m, part))

/-- `BonusTitleRule` (bonus.py:34-50). -/
def bonusTitle (s : Ms) : Except PyErr Ms := match numberAndPart s c!"bonus" with
  | .error e => .error e
  | .ok none => .ok s
  | .ok (some (m, part)) => appendFirstHole s c!"bonus_title" (holeSpans s.input s.live (fun _ => false) [] m.stop (part.stop + 1))

/-- `FilmTitleRule` (film.py:38-58). -/
def filmTitle (s : Ms) : Except PyErr Ms := match numberAndPart s c!"film" with
  | .error e => .error e
  | .ok none => .ok s
  | .ok (some (m, part)) => appendFirstHole s c!"film_title" (holeSpans s.input s.live (fun _ => false) [] part.start (m.start + 1))

end Guessit
