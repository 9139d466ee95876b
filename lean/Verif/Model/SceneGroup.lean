import Verif.Model.ReleaseGroup

/-!
# guessit/rules/properties/release_group.py: scene and anime release groups

Formatters are functions of the model, so the assignment of the formatter of the marker (release_group.py:287) is not kept:
the only later reader of the value of a group is `AnimeReleaseGroup`, which does nothing once a release group is found.
-/

namespace Guessit

/-- `_scene_previous_names` (release_group.py:75-77). -/
def scenePreviousNames : List Str :=
  [c!"video_codec", c!"source", c!"video_api", c!"audio_codec", c!"audio_profile", c!"video_profile", c!"audio_channels",
   c!"screen_size", c!"other", c!"container", c!"language", c!"subtitle_language", c!"subtitle_language.suffix",
   c!"subtitle_language.prefix", c!"language.suffix"]

/-- `is_previous_match` (release_group.py:223-231). -/
def scenePrevious (m : Mt) : Bool :=
  if scenePreviousNames.any fun n => decide (m.name = some n) then !m.tagged c!"no-release-group-prefix"
  else m.tagged c!"release-group-prefix"

/-- `m.start >= start and m.end <= end` (release_group.py:241, 244). -/
def insidePart (part m : Mt) : Bool := decide (part.start ≤ m.start) && decide (m.stop ≤ part.stop)

/-- `keep_only_first_title` (release_group.py:244-255). -/
def extraTitle (s : Ms) (part m : Mt) : Bool :=
  (((named s.live c!"title").filter (insidePart part)).drop 1).any (Mt.eqv s.input m)

/-- `last_hole` (release_group.py:257-259). -/
def sceneHole (e : GroupEnv) (s : Ms) (part : Mt) : Option (Nat × Nat) :=
  (holeSpans s.input s.live (extraTitle s part) [] part.start (part.stop + 1)).reverse.find? fun h =>
    !(cleanup (cleanGroup e (sliceOf s.input h))).isEmpty

/-- `previous_match` (release_group.py:262-278). -/
def scenePrev (s : Ms) (part : Mt) (h : Nat × Nat) : Option Mt :=
  firstTrue (previous s.live (spanMt h) fun m => decide (part.start ≤ m.start) && (!m.priv || scenePrevious m))

/-- The match for `last_hole` (release_group.py:282-292): the inside of the bracketed group when its name is that of the group. -/
def sceneMatch (e : GroupEnv) (s : Ms) (h : Nat × Nat) : Mt :=
  let clean : Str → MVal := fun t => .str (cleanGroup e t)
  let scene : Mt := { id := 0, start := h.1, stop := h.2, name := some c!"release_group", fmt := clean, tags := [c!"scene"] }
  match groupOf s (spanMt h) with
  | some g =>
    if ({ g with fmt := clean } : Mt).value s.input = clean (sliceOf s.input h) then
      { id := 0, start := g.start + 1, stop := g.stop - 1, name := some c!"release_group", fmt := clean, tags := [c!"anime"] }
    else scene
  | none => scene

/-- The release group found in a part of the path, if there is one (release_group.py:240-292). -/
def sceneFound (e : GroupEnv) (s : Ms) (part : Mt) : Option Mt :=
  if ((named s.live c!"release_group").filter (insidePart part)).isEmpty then
    match sceneHole e s part with
    | none => none
    | some h => match scenePrev s part h with
      | none => none
      | some p =>
        if scenePrevious p && blank s.input p.stop h.1 && !e.intLike (stripSeps (cleanGroup e (sliceOf s.input h))) then
          some (sceneMatch e s h)
        else none
  else none

/-- One turn of the loop of `SceneReleaseGroup.when` (release_group.py:238-299): the ignored titles are removed at once, the release
group is kept for later. -/
def sceneStep (e : GroupEnv) (acc : Ms × List Mt) (part : Mt) : Ms × List Mt :=
  match sceneFound e acc.1 part with
  | none => acc
  | some m => (dropping acc.1 (rangeOf acc.1.input acc.1.live m.start m.stop (extraTitle acc.1 part)), acc.2 ++ [m])

/-- `SceneReleaseGroup` (release_group.py:206-300). -/
def sceneRun (e : GroupEnv) (s : Ms) : Ms :=
  let r := (markerSorted s.input s.live (named s.markers c!"path") (markerPredicate s.input)).foldl (sceneStep e) (s, [])
  { r.1 with live := appendAll s.input r.1.live r.2 }

/-- The predicate on groups of `AnimeReleaseGroup.when` (release_group.py:329-335); the value of a marker is text. -/
def emptyGroup (e : GroupEnv) (s : Ms) (g : Mt) : Bool :=
  decide (g.name = some c!"group") && (rangeOf s.input s.live g.start g.stop fun m => !m.tagged c!"weak-language").isEmpty &&
    (match g.value s.input with
      | .str t => !(stripSeps t).isEmpty && !e.intLike (stripSeps t)
      | _ => false)

/-- The copy of the group (release_group.py:338-343). -/
def animeMatch (g : Mt) : Mt :=
  { g with rawStart := some (g.rawA + 1), rawStop := some (g.rawB - 1), tags := [c!"anime"], name := some c!"release_group" }

/-- `AnimeReleaseGroup` (release_group.py:304-350).  The second test of `when` (release_group.py:322) is never reached. -/
def animeRun (e : GroupEnv) (s : Ms) : Ms :=
  if !(named s.live c!"release_group").isEmpty then s
  else
    let groups := (markerSorted s.input s.live (named s.markers c!"path") (markerPredicate s.input)).filterMap fun part =>
      firstTrue (rangeOf s.input s.markers part.start part.stop (emptyGroup e s))
    let gone := groups.flatMap fun g => rangeOf s.input s.live g.start g.stop fun m => m.tagged c!"weak-language"
    { s with live := appendAll s.input (removeAll s.input s.live gone) (groups.map animeMatch) }

end Guessit
