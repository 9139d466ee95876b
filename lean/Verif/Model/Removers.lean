import Verif.Model.Validators
import Verif.Model.Numeral

/-!
# guessit/rules/properties: rules that drop or rename matches by looking at their relatives

Values of markers such as `episodeMarker` are text (their patterns have no formatter).
-/

namespace Guessit

/-- `matches.range(a, b, predicate, 0)` used as a truth value. -/
def firstIn (s : Ms) (a b : Nat) (p : Mt → Bool) : Option Mt := firstTrue (rangeOf s.input s.live a b p)

/-- The path markers. -/
def pathParts (s : Ms) : List Mt := named s.markers c!"path"

/-- What `ValidateStreamingServiceNeighbor` drops for an initiator (other.py:259-279). -/
def hangingFamily (kin : Kin) (s : Ms) (m : Mt) : List Mt :=
  let service := fun (x : Mt) => decide (x.name = some c!"streaming_service")
  if !sepsAfter s.input m then
    if m.tagged c!"streaming_service.prefix" && linkedAfter s m service then [] else family kin m
  else if !sepsBefore s.input m then
    if m.tagged c!"streaming_service.suffix" && linkedBefore s m service then [] else family kin m
  else []

/-- `ValidateStreamingServiceNeighbor` (other.py:253-281). -/
def validateServiceNeighbor (kin : Kin) (s : Ms) : Ms :=
  dropping s (((named s.live c!"other").filter fun m => decide (m.iname ≠ some c!"source") &&
      (m.tagged c!"streaming_service.prefix" || m.tagged c!"streaming_service.suffix")).flatMap fun m =>
    hangingFamily kin s (kin.initiator m))

/-- `PreferTitleOverWebsite` (website.py:64-91); `safe` is `safe_subdomains + safe_prefix`.  The value of a website is text. -/
def preferTitleOverWebsite (kin : Kin) (lower : Str → Str) (safe : List Str) (s : Ms) : Ms :=
  dropping s ((named s.live c!"website").filter fun m =>
    !(match m.value s.input with
      | .str v => safe.any fun p => p.isPrefixOf (lower v)
      | _ => false) &&
    (firstTrue (nextOf s.input s.live m fun x => x.goesBy kin [c!"season", c!"episode", c!"year"])).isSome &&
    (firstTrue (atMatch s.input s.markers m fun g => g.name = some c!"group")).isNone)

/-! ## episodes.py -/

/-- What `RemoveWeakIfMovie` ignores in a path part that has the year `y` (episodes.py:658-664). -/
def ignoredIn (kin : Kin) (s : Ms) (part y : Mt) : List Mt :=
  (match firstIn s y.stop part.stop fun m => m.priv with
    | some n => if !hasText s.input s.live y.stop n.start && (atMatch s.input s.live n fun m => m.name = some c!"year").isEmpty
        then [kin.initiator n] else []
    | none => []) ++
  rangeOf s.input s.live part.start part.stop fun m => decide ((named (kin.children m) c!"episode").length > 1)

/-- `RemoveWeakIfMovie` (episodes.py:650-671), when enabled (episodes.py:647-648). -/
def removeWeakIfMovie (kin : Kin) (type : Option Str) (s : Ms) : Ms :=
  if type = some c!"episode" then s else
  let years := (pathParts s).filterMap fun part =>
    (firstIn s part.start part.stop fun m => m.name = some c!"year").map fun y => (part, y)
  let ignored := years.flatMap fun p => ignoredIn kin s p.1 p.2
  let weak := if years.isEmpty then [] else s.live.filter fun m => m.tagged c!"weak-episode" &&
    !ignored.any (Mt.eqv s.input (kin.initiator m)) && !m.tagged c!"anime"
  dropping s ((years.flatMap fun p => conflicting s.input s.live p.2) ++ weak)

/-- `to_remove.append(m.initiator)`, `to_remove.extend(m.initiator.children)`, or `m` itself when the initiator is empty. -/
def uproot (kin : Kin) (m : Mt) : List Mt :=
  let i := kin.initiator m
  if i.start < i.stop then i :: kin.children i else [m]

/-- `RemoveInvalidSeason` (episodes.py:743-761). -/
def removeInvalidSeason (kin : Kin) (s : Ms) : Ms :=
  let hasEpisode := fun (m : Mt) => !(named (kin.children (kin.initiator m)) c!"episode").isEmpty
  dropping s ((pathParts s).flatMap fun part =>
    match firstIn s part.start part.stop fun m => decide (m.name = some c!"season") && !m.priv && m.tagged c!"SxxExx" with
    | none => []
    | some strong =>
      if !hasEpisode strong then [] else
      (rangeOf s.input s.live strong.stop part.stop fun m => decide (m.name = some c!"season") && !m.priv).flatMap fun m =>
        if !m.tagged c!"SxxExx" || !hasEpisode m then uproot kin m else [])

/-- `get_episode_prefix` (episodes.py:793-798). -/
def episodePrefix (s : Ms) (m : Mt) : Option Mt :=
  firstTrue (previous s.live m fun x => x.isOneOf [c!"episodeMarker", c!"episodeSeparator"])

/-- `a.value.lower() != b.value.lower()`. -/
def differ (lower : Str → Str) (input : Str) (a b : Mt) : Bool := match a.value input, b.value input with
  | .str v, .str w => decide (lower v ≠ lower w)
  | _, _ => false

/-- `RemoveInvalidEpisode` (episodes.py:771-790); an initiator is never empty. -/
def removeInvalidEpisode (kin : Kin) (lower : Str → Str) (s : Ms) : Ms :=
  dropping s ((pathParts s).flatMap fun part =>
    match firstIn s part.start part.stop fun m => decide (m.name = some c!"episode") && !m.priv && m.tagged c!"SxxExx" with
    | none => []
    | some strong =>
      (rangeOf s.input s.live strong.stop part.stop fun m => decide (m.name = some c!"episode") && !m.priv).flatMap fun m =>
        match episodePrefix s strong, episodePrefix s m with
        | some p, some q => if differ lower s.input p q then kin.initiator m :: kin.children (kin.initiator m) else []
        | _, _ => [])

/-- The first match for each value (episodes.py:853-856). -/
def firstPerValue (input : Str) (seen : List MVal) : List Mt → List Mt
  | [] => []
  | m :: ms => if seen.contains (m.value input) then firstPerValue input seen ms
    else m :: firstPerValue input (m.value input :: seen) ms

/-- `RemoveDetachedEpisodeNumber` (episodes.py:848-866); `none`: `TypeError`, some value is not a number. -/
def removeDetached (kin : Kin) (s : Ms) : Option Ms :=
  let weak := (named s.live c!"episode").filter fun m => !m.priv && m.tagged c!"weak-episode"
  let firsts := firstPerValue s.input [] weak
  if firsts.length ≤ 1 then some s else
  if firsts.any fun m => (intValue s.input m).isNone then none else
  match sortBy (fun a b => decide ((intValue s.input a).getD 0 < (intValue s.input b).getD 0)) firsts with
  | a :: b :: _ =>
    let x := (intValue s.input a).getD 0
    let y := (intValue s.input b).getD 0
    if x < 10 ∧ y - x ≠ 1 then some (dropping s (a :: kin.ancestors a)) else some s
  | _ => some s

/-- The copy made by `RemoveWeak` (episodes.py:699-704). -/
def weakCopy (weak p : Mt) (n : Int) : Mt :=
  { weak with
    name := some c!"episode", val := some (.int n), start := p.start, priv := false, tags := [],
    istart := if weak.parent.isNone then p.start else weak.istart
    iname := if weak.parent.isNone then some c!"episode" else weak.iname }

/-- The properties that end the part of a name where episodes are (episodes.py:692-694). -/
def technical : List Str := [c!"audio_codec", c!"screen_size", c!"streaming_service", c!"source", c!"video_profile",
  c!"audio_channels", c!"audio_profile"]

/-- `RemoveWeak` for a path part (episodes.py:689-709): what is removed and added.  `toInt` is `int(value)`, `none` when it
raises `ValueError`. -/
def removeWeakPart (lower : Str → Str) (toInt : MVal → Option Int) (words : List Str) (s : Ms) (part : Mt) : List Mt × List Mt :=
  let weaks := rangeOf s.input s.live part.start part.stop fun m => m.tagged c!"weak-episode"
  match weaks with
  | [] => ([], [])
  | weak :: _ =>
    match firstTrue (previous s.live weak fun m => m.isOneOf technical) with
    | none => ([], [])
    | some p =>
      if hasText s.input s.live p.stop weak.start then ([], []) else
      (weaks, if words.contains (lower (p.raw s.input)) then ((toInt (weak.value s.input)).map (weakCopy weak p)).toList else [])

/-- `RemoveWeak` (episodes.py:686-712), with `consequence = RemoveMatch, AppendMatch`. -/
def removeWeak (lower : Str → Str) (toInt : MVal → Option Int) (words : List Str) (s : Ms) : Ms :=
  let parts := (pathParts s).map (removeWeakPart lower toInt words s)
  { s with live := appendAll s.input (removeAll s.input s.live (parts.flatMap Prod.fst)) (parts.flatMap Prod.snd) }

/-! ## screen_size.py, language.py, title.py -/

/-- A video profile follows the screen size in the part, with no text between (screen_size.py:147-149). -/
def profileLinked (s : Ms) (part z : Mt) : Bool := match firstIn s z.stop part.stop fun m => m.name = some c!"video_profile" with
  | some v => !hasText s.input s.live z.stop v.start
  | none => false

/-- The properties a screen size is attached to (screen_size.py:153-154). -/
def sizeNeighbors : List Str := [c!"date", c!"source", c!"other", c!"streaming_service"]

/-- What `ResolveScreenSizeConflicts` drops for a screen size of a path part (screen_size.py:142-162). -/
def sizeConflicts (s : Ms) (part z : Mt) : List Mt :=
  let conflicts := (conflicting s.input s.live z).filter fun m => m.isOneOf [c!"season", c!"episode"]
  if conflicts.isEmpty then [] else
  if profileLinked s part z then
    if linkedBefore s z fun m => m.isOneOf sizeNeighbors then conflicts ++ conflicts else conflicts
  else if linkedBefore s z fun m => m.isOneOf sizeNeighbors then conflicts else [z]

/-- `ResolveScreenSizeConflicts` (screen_size.py:136-164). -/
def resolveScreenSize (s : Ms) : Ms :=
  dropping s ((pathParts s).flatMap fun part =>
    match firstIn s part.start part.stop fun m => m.name = some c!"screen_size" with
    | none => []
    | some z => sizeConflicts s part z)

/-- `RemoveInvalidLanguages` (language.py:496-512). -/
def removeInvalidLanguages (lower : Str → Str) (common : List Str) (s : Ms) : Ms :=
  let lang := fun (m : Mt) => m.isOneOf [c!"language", c!"subtitle_language"]
  dropping s ((rangeOf s.input s.live 0 s.input.length lang).filter fun m => common.contains (lower (m.raw s.input)) &&
    !(match firstTrue (atMatch s.input s.markers m fun g => g.name = some c!"group") with
      | some g => (rangeOf s.input s.live g.start g.stop fun x => !lang x).isEmpty && !hasText s.input s.live g.start g.stop
      | none => false))

/-- `RemoveUndeterminedLanguages` (language.py:521-531); `und` is the value of the undetermined language. -/
def removeUndetermined (und : MVal) (s : Ms) : Ms :=
  dropping s ((rangeOf s.input s.live 0 s.input.length fun m => m.isOneOf [c!"language", c!"subtitle_language"]).filter fun m =>
    decide (m.value s.input = und) &&
    ((firstTrue (previous s.live m fun _ => true)).any (fun p => decide (p.name = some c!"language")) ||
      (firstTrue (nextOf s.input s.live m fun _ => true)).any fun n => decide (n.name = some c!"language")))

/-- The year of the path part of a title (title.py:369-372). -/
def yearOfTitle (s : Ms) (t : Mt) : Option Mt :=
  match firstTrue (atMatch s.input s.markers t fun m => m.name = some c!"path") with
  | some part => firstIn s part.start part.stop fun m => m.name = some c!"year"
  | none => none

/-- The titles `PreferTitleWithYear` prefers, in the order of preference (title.py:368-388). -/
def preferredTitles (s : Ms) : List Mt × List Mt :=
  let titles := named s.live c!"title"
  let grouped := fun (y : Mt) => !(atMatch s.input s.markers y fun m => m.name = some c!"group").isEmpty
  (titles.filter fun t => (yearOfTitle s t).any grouped, titles.filter fun t => (yearOfTitle s t).any fun y => !grouped y)

/-- `AppendTags`. -/
def tagAll (input : Str) (tag : Str) (l : List Mt) (ms : List Mt) : List Mt :=
  l.map fun m => if ms.any (Mt.eqv input m) then { m with tags := m.tags ++ [tag] } else m

/-- `PreferTitleWithYear` (title.py:363-396), with `consequence = [RemoveMatch, AppendTags(['equivalent-ignore'])]`. -/
def preferTitleWithYear (s : Ms) : Ms :=
  let titles := named s.live c!"title"
  let p := preferredTitles s
  let tag := if p.1.isEmpty then p.2 else p.1
  let values := (if tag.isEmpty then titles else tag).map (Mt.value s.input)
  let dropped := titles.filter fun t => !values.contains (t.value s.input)
  { s with live := tagAll s.input c!"equivalent-ignore" (removeAll s.input s.live dropped) tag }

end Guessit
