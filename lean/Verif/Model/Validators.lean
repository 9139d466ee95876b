import Verif.Model.Episodes
import Verif.Model.Rules

/-!
# guessit/rules/properties: the rules that drop matches

Every rule here returns a list of matches, which `RemoveMatch` removes.  `Kin` gives the relatives of a match that the model
of matches does not carry.
-/

namespace Guessit

/-- `match.initiator`, `match.children`, `match.pattern` and the chain of parents of a match. -/
structure Kin where
  initiator : Mt → Mt
  children : Mt → List Mt
  pattern : Mt → Nat
  ancestors : Mt → List Mt

/-- `'tag' in match.tags`. -/
def Mt.tagged (m : Mt) (tag : Str) : Bool := m.tags.contains tag

/-- `match.name in names`. -/
def Mt.isOneOf (m : Mt) (names : List Str) : Bool := match m.name with
  | some n => names.contains n
  | none => false

/-- `match.named(*names)` (rebulk, external): a match goes by the names of its children when it has some (the children here have none), by its own otherwise. -/
def Mt.goesBy (kin : Kin) (m : Mt) (names : List Str) : Bool := match kin.children m with
  | [] => m.isOneOf names
  | cs => cs.any fun c => c.isOneOf names

/-- `not input_string[a:b].strip(seps)`. -/
def blank (input : Str) (a b : Nat) : Bool := (stripSeps ((input.take b).drop a)).isEmpty

/-- `matches.holes(a, b, predicate=lambda m: m.value.strip(seps))`, as a truth value. -/
def hasText (input : Str) (l : List Mt) (a b : Nat) : Bool :=
  (holesOf input l a b MVal.str).any fun h => match h.value input with
    | .str v => !(stripSeps v).isEmpty
    | _ => false

/-- `seps_before(match)`, `seps_after(match)`. -/
def sepsBefore (input : Str) (m : Mt) : Bool := charsBefore seps input m.start
def sepsAfter (input : Str) (m : Mt) : Bool := charsAfter seps input m.stop

/-- `matches.range(predicate=…)` over everything. -/
def rangeAll (s : Ms) (p : Mt → Bool) : List Mt := rangeOf s.input s.live 0 (maxEnd s.input s.live) p

/-- `RemoveMatch` on what `when` returns. -/
def dropping (s : Ms) (ms : List Mt) : Ms := { s with live := removeAll s.input s.live ms }

/-- `matches.conflicting(match)`: the matches found at the positions of the match, without the match itself. -/
def conflicting (input : Str) (l : List Mt) (m : Mt) : List Mt :=
  let found := (List.range (m.stop - m.start)).flatMap fun k => atIndex l (m.start + k)
  removeMatch input (found.foldl (fun acc x => if acc.any (Mt.eqv input x) then acc else acc ++ [x]) []) m

/-- `matches.previous(m, p, 0)` exists and there is no text up to `m`. -/
def linkedBefore (s : Ms) (m : Mt) (p : Mt → Bool) : Bool := match firstTrue (previous s.live m p) with
  | some x => !hasText s.input s.live x.stop m.start
  | none => false

/-- `matches.next(m, p, 0)` exists and there is no text from `m` to it. -/
def linkedAfter (s : Ms) (m : Mt) (p : Mt → Bool) : Bool := match firstTrue (nextOf s.input s.live m p) with
  | some x => !hasText s.input s.live m.stop x.start
  | none => false

/-! ## other.py -/

/-- The match or group that stands before (other.py:134-137). -/
def neighborBefore (s : Ms) (m : Mt) : Option Mt :=
  let prev := firstTrue (previous s.live m fun _ => true)
  match firstTrue (previous s.markers m fun x => x.name = some c!"group") with
  | some g => (match prev with
    | none => some g
    | some p => if g.stop > p.stop then some g else some p)
  | none => prev

/-- The match or group that stands after (other.py:140-143). -/
def neighborAfter (s : Ms) (m : Mt) : Option Mt :=
  let next := firstTrue (nextOf s.input s.live m fun _ => true)
  match firstTrue (nextOf s.input s.markers m fun x => x.name = some c!"group") with
  | some g => (match next with
    | none => some g
    | some n => if g.start < n.start then some g else some n)
  | none => next

/-- `previous_match and not matches.input_string[previous_match.end:to_check.start].strip(seps)`. -/
def touchesBefore (s : Ms) (m : Mt) : Bool := match neighborBefore s m with
  | some p => blank s.input p.stop m.start
  | none => false

/-- `next_match and not matches.input_string[to_check.end:next_match.start].strip(seps)`. -/
def touchesAfter (s : Ms) (m : Mt) : Bool := match neighborAfter s m with
  | some n => blank s.input m.stop n.start
  | none => false

/-- `for to_check in …: if ok: break; ret.append(to_check)`. -/
def untilOk (ok : Mt → Bool) : List Mt → List Mt
  | [] => []
  | m :: ms => if ok m then [] else m :: untilOk ok ms

/-- `ValidateHasNeighbor` (other.py:131-147). -/
def hasNeighbor (s : Ms) : Ms :=
  dropping s (untilOk (fun m => touchesBefore s m || touchesAfter s m) (rangeAll s fun m => m.tagged c!"has-neighbor"))

/-- `ValidateHasNeighborBefore` (other.py:157-167): the code looks at what comes next. -/
def hasNeighborBefore (s : Ms) : Ms :=
  dropping s (untilOk (touchesAfter s) (rangeAll s fun m => m.tagged c!"has-neighbor-before"))

/-- `ValidateHasNeighborAfter` (other.py:177-187): the code looks at what comes before. -/
def hasNeighborAfter (s : Ms) : Ms :=
  dropping s (untilOk (touchesBefore s) (rangeAll s fun m => m.tagged c!"has-neighbor-after"))

/-- `ValidateScreenerRule` (other.py:197-203). -/
def validateScreener (s : Ms) : Ms :=
  dropping s ((named s.live c!"other").filter fun m => m.tagged c!"other.validate.screener" &&
    match firstTrue (previous s.live m fun x => x.iname = some c!"source") with
    | none => true
    | some src => !blank s.input src.stop m.start)

/-- `ValidateMuxRule` (other.py:213-219). -/
def validateMux (s : Ms) : Ms :=
  dropping s ((named s.live c!"other").filter fun m => m.tagged c!"other.validate.mux" &&
    (firstTrue (previous s.live m fun x => x.iname = some c!"source")).isNone)

/-- `ValidateHardcodedSubs` (other.py:228-244). -/
def validateHardcodedSubs (s : Ms) : Ms :=
  let sub := fun (x : Mt) => decide (x.name = some c!"subtitle_language")
  dropping s ((named s.live c!"other").filter fun m => decide (m.value s.input = .str c!"Hardcoded Subtitles") &&
    !(match firstTrue (nextOf s.input s.live m sub) with
      | some n => !hasText s.input s.live m.stop n.start
      | none => false) &&
    !(match firstTrue (previous s.live m sub) with
      | some p => !hasText s.input s.live p.stop m.start
      | none => false))

/-- `ValidateAtEnd` (other.py:290-300). -/
def validateAtEnd (s : Ms) : Ms :=
  dropping s ((named s.markers c!"path").flatMap fun part =>
    (rangeOf s.input s.live part.start part.stop fun m => decide (m.name = some c!"other") && m.tagged c!"at-end").filter fun m =>
      hasText s.input s.live m.stop part.stop ||
        !(rangeOf s.input s.live m.stop part.stop fun x => !x.isOneOf [c!"other", c!"container"]).isEmpty)

/-- `ValidateReal` (other.py:310-317). -/
def validateReal (s : Ms) : Ms :=
  dropping s ((named s.markers c!"path").flatMap fun part =>
    (rangeOf s.input s.live part.start part.stop fun m => decide (m.name = some c!"other") && m.tagged c!"real").filter fun m =>
      (rangeOf s.input s.live part.start m.start fun _ => true).isEmpty)

/-! ## audio_codec.py -/

/-- `audio_properties` (audio_codec.py:14). -/
def audioProperties : List Str := [c!"audio_codec", c!"audio_profile", c!"audio_channels"]

/-- `AudioValidatorRule` (audio_codec.py:77-95). -/
def audioValidator (s : Ms) : Ms :=
  let audio := fun (m : Mt) => m.isOneOf audioProperties
  dropping s ((rangeAll s audio).filter fun m =>
    (!sepsBefore s.input m && (rangeOf s.input s.live (m.start - 1) m.start audio).isEmpty) ||
    (!sepsAfter s.input m && (rangeOf s.input s.live m.stop (m.stop + 1) audio).isEmpty))

/-- `AudioProfileRule` for a codec (audio_codec.py:113-134). -/
def audioProfile (codec : Str) (s : Ms) : Ms :=
  let isCodec := fun (x : Mt) => decide (x.name = some c!"audio_codec") && decide (x.value s.input = .str codec)
  dropping s (((named s.live c!"audio_profile").filter fun m => m.tagged c!"audio_profile.rule" && m.tagged codec).flatMap fun m =>
    if (firstTrue ((atSpan s.input s.live m.start m.stop).filter isCodec)).isNone && (previous s.live m isCodec).isEmpty &&
        (nextOf s.input s.live m isCodec).isEmpty then [m] else conflicting s.input s.live m)

/-- `HqConflictRule` (audio_codec.py:184-187). -/
def hqConflict (s : Ms) : Ms :=
  let hq := (named s.live c!"audio_profile").filter fun m => decide (m.value s.input = .str c!"High Quality")
  dropping s ((named s.live c!"other").filter fun m => hq.any fun h => decide (h.start = m.start) && decide (h.stop = m.stop))

/-- `AudioChannelsValidatorRule` (audio_codec.py:200-209). -/
def audioChannelsValidator (s : Ms) : Ms :=
  dropping s ((s.live.filter fun m => m.tagged c!"weak-audio_channels").filter fun m =>
    (rangeOf s.input s.live (m.start - 1) m.start fun x => decide (x.name = some c!"audio_codec")).isEmpty)

/-! ## video_codec.py -/

/-- `ValidateVideoCodec` (video_codec.py:92-103): the position tested after the codec is `end + 1`. -/
def validateVideoCodec (s : Ms) : Ms :=
  dropping s ((named s.live c!"video_codec").filter fun m =>
    (!sepsBefore s.input m && ((atIndex s.live (m.start - 1)).filter fun x => x.tagged c!"video-codec-prefix").isEmpty) ||
    (!sepsAfter s.input m && ((atIndex s.live (m.stop + 1)).filter fun x => x.tagged c!"video-codec-suffix").isEmpty))

/-- `VideoProfileRule` (video_codec.py:115-126). -/
def videoProfile (s : Ms) : Ms :=
  let isCodec := fun (x : Mt) => decide (x.name = some c!"video_codec")
  dropping s ((named s.live c!"video_profile").filter fun m => m.tagged c!"video_profile.rule" &&
    (firstTrue ((atSpan s.input s.live m.start m.stop).filter isCodec)).isNone && (previous s.live m isCodec).isEmpty &&
      (nextOf s.input s.live m isCodec).isEmpty)

/-! ## source.py -/

/-- `if match.children: ret.extend(match.children)`, `ret.append(match)`. -/
def family (kin : Kin) (m : Mt) : List Mt := kin.children m ++ [m]

/-- `ValidateSourcePrefixSuffix` (source.py:184-204): the range tested before the source is `[start - 1, start - 2)`. -/
def validateSourceAffixes (kin : Kin) (s : Ms) : Ms :=
  dropping s ((named s.markers c!"path").flatMap fun part =>
    (rangeOf s.input s.live part.start part.stop fun m => decide (m.name = some c!"source")).flatMap fun m0 =>
      let m := kin.initiator m0
      if (!sepsBefore s.input m && (rangeOf s.input s.live (m.start - 1) (m.start - 2) fun x => x.tagged c!"source-prefix").isEmpty) ||
        (!sepsAfter s.input m && (rangeOf s.input s.live m.stop (m.stop + 1) fun x => x.tagged c!"source-suffix").isEmpty)
      then family kin m else [])

/-- `ValidateWeakSource` (source.py:215-230). -/
def validateWeakSource (kin : Kin) (s : Ms) : Ms :=
  dropping s ((named s.markers c!"path").flatMap fun part =>
    (rangeOf s.input s.live part.start part.stop fun m => decide (m.name = some c!"source")).flatMap fun m =>
      if m.tagged c!"weak.source" && !(rangeOf s.input s.live m.stop part.stop fun x => decide (x.name = some c!"source")).isEmpty &&
        hasText s.input s.live part.start m.start
      then family kin m else [])

/-! ## streaming_service.py -/

/-- `has_other`, or the tests on the next and on the previous match hold (streaming_service.py:54-68). -/
def serviceConfirmed (kin : Kin) (s : Ms) (m : Mt) : Bool :=
  !(named (kin.children (kin.initiator m)) c!"other").isEmpty ||
  (linkedAfter s m (fun x => x.tagged c!"streaming_service.suffix") && sepsBefore s.input m) ||
  (linkedBefore s m (fun x => x.tagged c!"streaming_service.prefix") && sepsAfter s.input m)

/-- `ValidateStreamingService` (streaming_service.py:42-73). -/
def validateStreamingService (kin : Kin) (s : Ms) : Ms :=
  dropping s ((named s.live c!"streaming_service").flatMap fun m =>
    if !serviceConfirmed kin s m then [m]
    else if m.value s.input = .str c!"Comedy Central" then
      (named s.live c!"edition").filter fun x => decide (x.value s.input = .str c!"Criterion")
    else [])

/-! ## website.py -/

/-- `ValidateWebsitePrefix` (website.py:105-113); the holes are those left by `cleanup`. -/
def validateWebsitePrefix (s : Ms) : Ms :=
  dropping s ((s.live.filter fun m => m.tagged c!"website.prefix").filter fun m =>
    match firstTrue (nextOf s.input s.live m fun x => x.name = some c!"website") with
    | none => true
    | some w => hasText s.input s.live m.stop w.start)

/-! ## episodes.py -/

/-- `RemoveWeakIfSxxExx` (episodes.py:725-733). -/
def removeWeakIfSxxExx (s : Ms) : Ms :=
  dropping s ((named s.markers c!"path").flatMap fun part =>
    if (rangeOf s.input s.live part.start part.stop fun m => !m.priv && m.tagged c!"SxxExx").isEmpty then [] else
    (rangeOf s.input s.live part.start part.stop fun m => m.tagged c!"weak-episode").filter fun m =>
      decide (m.start ≠ part.start) || decide (m.iname ≠ some c!"weak_episode"))

/-- `RemoveWeakDuplicate` (episodes.py:808-818): from the last one backwards, the patterns already seen for a name. -/
def weakDuplicates (kin : Kin) (seen : List (Option Str × Nat)) : List Mt → List Mt
  | [] => []
  | m :: ms => if seen.contains (m.name, kin.pattern m) then m :: weakDuplicates kin seen ms
    else weakDuplicates kin ((m.name, kin.pattern m) :: seen) ms

def removeWeakDuplicate (kin : Kin) (s : Ms) : Ms :=
  dropping s ((named s.markers c!"path").flatMap fun part =>
    weakDuplicates kin [] (rangeOf s.input s.live part.start part.stop fun m => m.tagged c!"weak-duplicate").reverse)

/-- `EpisodeDetailValidator` (episodes.py:828-835). -/
def episodeDetailValidator (s : Ms) : Ms :=
  let num := fun (x : Mt) => x.isOneOf [c!"season", c!"episode"]
  dropping s ((named s.live c!"episode_details").filter fun m =>
    !sepsSurround s.input m.start m.stop && (previous s.live m num).isEmpty && (nextOf s.input s.live m num).isEmpty)

/-- `VersionValidator` (episodes.py:877-883). -/
def versionValidator (s : Ms) : Ms :=
  dropping s ((named s.live c!"version").filter fun m =>
    (firstTrue (previous s.live m fun x => x.name = some c!"episode")).isNone && !sepsSurround s.input m.istart m.istop)

/-- `EpisodeSingleDigitValidator` (episodes.py:894-901). -/
def episodeSingleDigit (s : Ms) : Ms :=
  dropping s ((named s.live c!"episode").filter fun m => decide (m.istop - m.istart = 1) &&
    match firstTrue (atMatch s.input s.markers m fun g => g.name = some c!"group") with
    | none => false
    | some g => (rangeOf s.input s.live g.start g.stop fun x => x.name = some c!"title").isEmpty)

end Guessit
