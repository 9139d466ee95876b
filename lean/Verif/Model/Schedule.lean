import Verif.Model.Matches
import Verif.Model.Text

/-!
# The order in which the rules run

`rebulk_builder` (guessit/rules/__init__.py:41-83) registers the sub-rebulks one after the other; each of them registers its
rules, and each rule class declares a `priority` and a `dependency`.  rebulk (external) turns that into an order of execution:
`Rebulk.effective_rules` gathers the rules of the sub-rebulks that are not disabled, skipping a rule equal to one already
there (`extend_safe`; `CustomRule.__eq__` compares the classes), and `Rules.execute_all_rules` sorts them by priority, groups
them by priority, sorts each group topologically by `dependency`, and runs each layer in the order of registration.
-/

namespace Guessit

/-- A rule as registered: its class, the argument of its constructor where two instances of a class are registered, its
`priority` (default 0) and the classes in `dependency` (a single class is a list of one). -/
structure Decl (κ : Type) where
  cls : κ
  arg : Str := []
  priority : Int := 0
  deps : List κ := []
  deriving DecidableEq

variable {κ : Type} [DecidableEq κ]

/-- `extend_safe(target, source)` of rebulk/utils.py: appends the elements that are not there yet (rules are equal when their
classes are). -/
def extendSafe (target source : List (Decl κ)) : List (Decl κ) :=
  source.foldl (fun acc r => if acc.any fun x => decide (x.cls = r.cls) then acc else acc ++ [r]) target

/-- A sub-rebulk: the names tested by its `disabled` function (it is disabled when all of them are; with no names it never
is), and the rules it registers. -/
structure Plug (κ : Type) where
  names : List Str := []
  rules : List (Decl κ) := []

/-- `rebulk.disabled(context)`. -/
def Plug.off (context : Dict) (p : Plug κ) : Bool := !p.names.isEmpty && p.names.all (isDisabled context)

/-- `Rebulk.effective_rules(context)`. -/
def effectiveRules (plugs : List (Plug κ)) (context : Dict) : List (Decl κ) :=
  plugs.foldl (fun acc p => if p.off context then acc else extendSafe acc p.rules) []

/-- The two errors of the scheduler: `ValueError("Duplicate class rules are not allowed")` and `CyclicDependency`. -/
inductive SchedErr
  | duplicateClass
  | cyclic
  deriving DecidableEq

/-- `sorted(self)`: `CustomRule.__lt__` is `self.priority > other.priority`. -/
def byPriority (rs : List (Decl κ)) : List (Decl κ) := sortBy (fun a b => decide (b.priority < a.priority)) rs

/-- One step of `groupby` from the right: join the group that follows if it has the same priority. -/
def joinGroup (r : Decl κ) : List (List (Decl κ)) → List (List (Decl κ))
  | (x :: xs) :: gs => if r.priority = x.priority then (r :: x :: xs) :: gs else [r] :: (x :: xs) :: gs
  | gs => [r] :: gs

/-- `itertools.groupby(..., lambda rule: rule.priority)`. -/
def groupRules : List (Decl κ) → List (List (Decl κ))
  | [] => []
  | r :: rs => joinGroup r (groupRules rs)

/-- The graph built by `toposort_rules(rules)`: for each rule, the classes it depends on that are in `rules` (the others are
ignored: `class_dict.get` gives `None`), but itself (`v.discard(k)` in `toposort`). -/
def ruleGraph (rs : List (Decl κ)) : List (Decl κ × List κ) :=
  rs.map fun r => (r, r.deps.filter fun d => decide (d ≠ r.cls) && rs.any fun x => decide (x.cls = d))

/-- The items that depend on nothing. -/
def readyOf (data : List (Decl κ × List κ)) : List (Decl κ) := (data.filter fun x => x.2.isEmpty).map Prod.fst

/-- `dict((item, (dep - ordered)) for item, dep in data.items() if item not in ordered)`. -/
def dropReady (ordered : List (Decl κ)) (data : List (Decl κ × List κ)) : List (Decl κ × List κ) :=
  (data.filter fun x => decide (x.1 ∉ ordered)).map fun x => (x.1, x.2.filter fun d => !ordered.any fun o => decide (o.cls = d))

/-- The loop of `toposort`: the layers, and whether something is left (`CyclicDependency`).  The bound on the number of
iterations is the number of items: each iteration but the last takes at least one away. -/
def layers : Nat → List (Decl κ × List κ) → List (List (Decl κ)) × Bool
  | 0, data => ([], !data.isEmpty)
  | n + 1, data =>
    if (readyOf data).isEmpty then ([], !data.isEmpty)
    else (readyOf data :: (layers n (dropReady (readyOf data) data)).1, (layers n (dropReady (readyOf data) data)).2)

/-- `rule.__class__ in class_dict` for some rule of the group. -/
def hasDuplicate : List (Decl κ) → Bool
  | [] => false
  | r :: rs => (rs.any fun x => decide (x.cls = r.cls)) || hasDuplicate rs

/-- `self.index(rule)` (rules are equal when their classes are). -/
def ruleIndex (all : List (Decl κ)) (r : Decl κ) : Nat := all.findIdx fun x => decide (x.cls = r.cls)

/-- `sorted(rules_group, key=self.index)`; a layer is a Python set, `shuffle` gives the order in which it is iterated. -/
def sortLayer (shuffle : List (Decl κ) → List (Decl κ)) (all layer : List (Decl κ)) : List (Decl κ) :=
  sortBy (fun a b => decide (ruleIndex all a < ruleIndex all b)) (shuffle layer)

/-- The rules run for one priority, in order, and the error that ends it, if any.  `toposort` is a generator: the layers found
before a cycle is discovered have run by then. -/
def runGroup (shuffle : List (Decl κ) → List (Decl κ)) (all g : List (Decl κ)) : List (Decl κ) × Option SchedErr :=
  if hasDuplicate g then ([], some .duplicateClass)
  else (((layers g.length (ruleGraph g)).1.map (sortLayer shuffle all)).flatten,
    if (layers g.length (ruleGraph g)).2 then some .cyclic else none)

/-- The loop over the priorities: an error ends it. -/
def runGroups (shuffle : List (Decl κ) → List (Decl κ)) (all : List (Decl κ)) :
    List (List (Decl κ)) → List (Decl κ) × Option SchedErr
  | [] => ([], none)
  | g :: gs =>
    match (runGroup shuffle all g).2 with
    | some e => ((runGroup shuffle all g).1, some e)
    | none => ((runGroup shuffle all g).1 ++ (runGroups shuffle all gs).1, (runGroups shuffle all gs).2)

/-- `Rules.execute_all_rules`: the rules whose turn comes, in order (whether the rule is enabled is tested then), and the
error that ends the execution, if any. -/
def schedule (shuffle : List (Decl κ) → List (Decl κ)) (rs : List (Decl κ)) : List (Decl κ) × Option SchedErr :=
  runGroups shuffle rs (groupRules (byPriority rs))

/-! ## guessit's rules -/

/-- The classes of rules registered by rebulk (the first two) and by guessit. -/
inductive Cls
  | ConflictSolver | PrivateRemover
  | WeakConflictSolver | RemoveInvalidSeason | RemoveInvalidEpisode | SeePatternRange | EpisodeNumberSeparatorRange
  | SeasonSeparatorRange | RemoveWeakIfMovie | RemoveWeakIfSxxExx | RemoveWeakDuplicate | EpisodeDetailValidator
  | RemoveDetachedEpisodeNumber | VersionValidator | RemoveWeak | RenameToAbsoluteEpisode | CountValidator
  | EpisodeSingleDigitValidator | RenameToDiscMatch
  | ValidateSourcePrefixSuffix | ValidateWeakSource | UltraHdBlurayRule
  | ValidateVideoCodec | VideoProfileRule
  | DtsHDRule | DtsRule | AacRule | DolbyDigitalRule | AudioValidatorRule | HqConflictRule | AudioChannelsValidatorRule
  | PostProcessScreenSize | ScreenSizeOnlyOne | ResolveScreenSizeConflicts
  | PreferTitleOverWebsite | ValidateWebsitePrefix
  | KeepMarkedYearInFilepart
  | TitleFromPosition | PreferTitleWithYear
  | RemoveConflictsWithEpisodeTitle | EpisodeTitleFromPosition | AlternativeTitleReplace | TitleToEpisodeTitle
  | Filepart3EpisodeTitle | Filepart2EpisodeTitle | RenameEpisodeTitleWhenMovieType
  | SubtitleExtensionRule | SubtitlePrefixLanguageRule | SubtitleSuffixLanguageRule | RemoveLanguage | RemoveInvalidLanguages
  | RemoveUndeterminedLanguages
  | DashSeparatedReleaseGroup | SceneReleaseGroup | AnimeReleaseGroup
  | ValidateStreamingService
  | RenameAnotherToOther | ValidateHasNeighbor | ValidateHasNeighborAfter | ValidateHasNeighborBefore | ValidateScreenerRule
  | ValidateMuxRule | ValidateHardcodedSubs | ValidateStreamingServiceNeighbor | ValidateAtEnd | ValidateReal | ProperCountRule
  | BitRateTypeRule
  | BonusTitleRule
  | FilmTitleRule
  | EnlargeGroupMatches | EquivalentHoles | RemoveLessSpecificSeasonEpisode | RemoveAmbiguous | SeasonYear | YearSeason
  | Processors | StripSeparators
  | Mimetype
  | TypeProcessor
  deriving DecidableEq

/-- rebulk's `PRE_PROCESS`. -/
def preProcess : Int := 2048

/-- rebulk's `POST_PROCESS`. -/
def postProcess : Int := -2048

open Cls in
/-- episodes.py:355-360, with the priorities and dependencies of :365-914; no `disabled` (:156). -/
def episodesPlug : Plug Cls where
  rules := [
    { cls := WeakConflictSolver, priority := 128 },
    { cls := RemoveInvalidSeason, priority := 64 },
    { cls := RemoveInvalidEpisode, priority := 64 },
    { cls := SeePatternRange, priority := 128 },
    { cls := EpisodeNumberSeparatorRange, priority := 128 },
    { cls := SeasonSeparatorRange, priority := 128 },
    { cls := RemoveWeakIfMovie, priority := 64 },
    { cls := RemoveWeakIfSxxExx, priority := 64 },
    { cls := RemoveWeakDuplicate, priority := 64 },
    { cls := EpisodeDetailValidator, priority := 64 },
    { cls := RemoveDetachedEpisodeNumber, priority := 64, deps := [RemoveWeakIfSxxExx, RemoveWeakDuplicate] },
    { cls := VersionValidator, priority := 64, deps := [RemoveWeakIfMovie, RemoveWeakIfSxxExx] },
    { cls := RemoveWeak, priority := 16 },
    { cls := RenameToAbsoluteEpisode },
    { cls := CountValidator, priority := 64 },
    { cls := EpisodeSingleDigitValidator, deps := [TitleFromPosition] },
    { cls := RenameToDiscMatch }]

open Cls in
/-- source.py:26, :120, :125-212. -/
def sourcePlug : Plug Cls where
  names := [c!"source"]
  rules := [
    { cls := ValidateSourcePrefixSuffix, priority := 64 },
    { cls := ValidateWeakSource, priority := 64, deps := [ValidateSourcePrefixSuffix] },
    { cls := UltraHdBlurayRule, deps := [HqConflictRule] }]

open Cls in
/-- video_codec.py:23, :77, :82-110. -/
def videoCodecPlug : Plug Cls where
  rules := [{ cls := ValidateVideoCodec, priority := 64 }, { cls := VideoProfileRule }]

open Cls in
/-- audio_codec.py:26, :64-65, :70-195; the four profile rules inherit the dependency of `AudioProfileRule` (:103). -/
def audioCodecPlug : Plug Cls where
  rules := [
    { cls := DtsHDRule, priority := 64, deps := [AudioValidatorRule] },
    { cls := DtsRule, priority := 64, deps := [AudioValidatorRule] },
    { cls := AacRule, priority := 64, deps := [AudioValidatorRule] },
    { cls := DolbyDigitalRule, priority := 64, deps := [AudioValidatorRule] },
    { cls := AudioValidatorRule, priority := 64 },
    { cls := HqConflictRule, deps := [DtsHDRule, DtsRule, AacRule, DolbyDigitalRule] },
    { cls := AudioChannelsValidatorRule, priority := 128 }]

open Cls in
/-- screen_size.py:33, :56, :61-135. -/
def screenSizePlug : Plug Cls where
  rules := [{ cls := PostProcessScreenSize }, { cls := ScreenSizeOnlyOne }, { cls := ResolveScreenSizeConflicts }]

open Cls in
/-- website.py:30, :61-93, :98-103. -/
def websitePlug : Plug Cls where
  names := [c!"website"]
  rules := [{ cls := PreferTitleOverWebsite }, { cls := ValidateWebsitePrefix, priority := 64 }]

open Cls in
/-- date.py:26, :62, :67-72. -/
def datePlug : Plug Cls where
  rules := [{ cls := KeepMarkedYearInFilepart, priority := 64 }]

open Cls in
/-- title.py:34-35, :340-359. -/
def titlePlug : Plug Cls where
  names := [c!"title"]
  rules := [
    { cls := TitleFromPosition,
      deps := [FilmTitleRule, SubtitlePrefixLanguageRule, SubtitleSuffixLanguageRule, SubtitleExtensionRule] },
    { cls := PreferTitleWithYear, deps := [TitleFromPosition] }]

open Cls in
/-- episode_title.py:30-37, :41-262. -/
def episodeTitlePlug : Plug Cls where
  names := [c!"episode_title"]
  rules := [
    { cls := RemoveConflictsWithEpisodeTitle, priority := 64 },
    { cls := EpisodeTitleFromPosition, deps := [TitleToEpisodeTitle] },
    { cls := AlternativeTitleReplace, deps := [EpisodeTitleFromPosition] },
    { cls := TitleToEpisodeTitle, deps := [TitleFromPosition] },
    { cls := Filepart3EpisodeTitle },
    { cls := Filepart2EpisodeTitle },
    { cls := RenameEpisodeTitleWhenMovieType, priority := postProcess, deps := [TypeProcessor] }]

open Cls in
/-- language.py:39-40, :63-68, :364-520. -/
def languagePlug : Plug Cls where
  names := [c!"language", c!"subtitle_language"]
  rules := [
    { cls := SubtitleExtensionRule },
    { cls := SubtitlePrefixLanguageRule },
    { cls := SubtitleSuffixLanguageRule, deps := [SubtitlePrefixLanguageRule] },
    { cls := RemoveLanguage },
    { cls := RemoveInvalidLanguages, priority := 32 },
    { cls := RemoveUndeterminedLanguages, priority := 32 }]

open Cls in
/-- release_group.py:59, :68-72, :84-309. -/
def releaseGroupPlug : Plug Cls where
  names := [c!"release_group"]
  rules := [
    { cls := DashSeparatedReleaseGroup },
    { cls := SceneReleaseGroup, deps := [TitleFromPosition] },
    { cls := AnimeReleaseGroup, deps := [SceneReleaseGroup, TitleFromPosition] }]

open Cls in
/-- other.py:29, :35-37, :71-309. -/
def otherPlug : Plug Cls where
  names := [c!"other"]
  rules := [
    { cls := RenameAnotherToOther, priority := 32 },
    { cls := ValidateHasNeighbor, priority := 64 },
    { cls := ValidateHasNeighborAfter, priority := 64 },
    { cls := ValidateHasNeighborBefore, priority := 64 },
    { cls := ValidateScreenerRule, priority := 64 },
    { cls := ValidateMuxRule, priority := 64 },
    { cls := ValidateHardcodedSubs, priority := 32 },
    { cls := ValidateStreamingServiceNeighbor, priority := 32 },
    { cls := ValidateAtEnd, priority := 32 },
    { cls := ValidateReal, priority := 64 },
    { cls := ProperCountRule, priority := postProcess }]

open Cls in
/-- processors.py:254-257, :18-230; no `disabled`.  `RemoveLessSpecificSeasonEpisode` is registered twice. -/
def processorsPlug : Plug Cls where
  rules := [
    { cls := EnlargeGroupMatches, priority := preProcess },
    { cls := EquivalentHoles, priority := postProcess },
    { cls := RemoveLessSpecificSeasonEpisode, arg := c!"season", priority := postProcess },
    { cls := RemoveLessSpecificSeasonEpisode, arg := c!"episode", priority := postProcess },
    { cls := RemoveAmbiguous, priority := postProcess },
    { cls := SeasonYear, priority := postProcess },
    { cls := YearSeason, priority := postProcess },
    { cls := Cls.Processors, priority := postProcess },
    { cls := StripSeparators, priority := postProcess }]

open Cls in
/-- What `Rebulk()` registers by itself (rebulk, external: `default_rules=True`, rebulk/processors.py).  The sub-rebulks
register the same two rules, which `extend_safe` leaves out. -/
def rootPlug : Plug Cls where
  rules := [{ cls := ConflictSolver, priority := preProcess }, { cls := PrivateRemover, priority := postProcess }]

open Cls in
/-- The rules of the main rebulk (rules/__init__.py:49), then the sub-rebulks, in the order of `rebulk_builder` (rules/__init__.py:53-83). -/
def guessitPlugs : List (Plug Cls) := [
  rootPlug,                              -- Rebulk() (rules/__init__.py:49)
  {},                                    -- path (markers/path.py:20)
  {},                                    -- groups (markers/groups.py:19)
  episodesPlug,
  { names := [c!"container"] },          -- container.py:25
  sourcePlug, videoCodecPlug, audioCodecPlug, screenSizePlug, websitePlug, datePlug, titlePlug, episodeTitlePlug, languagePlug,
  { names := [c!"country"] },            -- country.py:25
  releaseGroupPlug,
  -- streaming_service.py:25, :31, :36-40
  { names := [c!"streaming_service"], rules := [{ cls := ValidateStreamingService, priority := 128 }] },
  otherPlug,
  { names := [c!"size"] },               -- size.py:25
  -- bit_rate.py:25-26, :32, :37-41
  { names := [c!"audio_bit_rate", c!"video_bit_rate"], rules := [{ cls := BitRateTypeRule }] },
  { names := [c!"edition"] },            -- edition.py:24
  { names := [c!"cd"] },                 -- cd.py:23
  -- bonus.py:24, :29, :34-39
  { names := [c!"bonus"], rules := [{ cls := BonusTitleRule, deps := [TitleFromPosition] }] },
  -- film.py:22, :28, :33-37
  { names := [c!"film"], rules := [{ cls := FilmTitleRule }] },
  { names := [c!"part"] },               -- part.py:25
  { names := [c!"crc32"] },              -- crc.py:22
  processorsPlug,
  -- mimetype.py:24-25, :30-40
  { names := [c!"mimetype"], rules := [{ cls := Mimetype, priority := postProcess, deps := [Cls.Processors] }] },
  -- type.py:32-33, :38-44
  { names := [c!"type"], rules := [{ cls := TypeProcessor, priority := postProcess, deps := [Cls.Processors] }] }]

open Cls in
/-- `rule.enabled(context)` (film.py:41, audio_codec.py:110, :181, :197, episodes.py:378, :647, video_codec.py:89, :112,
date.py:74, language.py:372, :422, :457, :478, title.py:351); the default is `True`. -/
def ruleEnabled (context : Dict) : Cls → Bool
  | FilmTitleRule => !isDisabled context c!"film_title"
  | DtsHDRule | DtsRule | AacRule | DolbyDigitalRule | HqConflictRule => !isDisabled context c!"audio_profile"
  | AudioChannelsValidatorRule => !isDisabled context c!"audio_channels"
  | WeakConflictSolver => !pyEq (context.getD (.str c!"type")) (.str c!"movie")
  | RemoveWeakIfMovie => !pyEq (context.getD (.str c!"type")) (.str c!"episode")
  | ValidateVideoCodec => !isDisabled context c!"video_codec"
  | VideoProfileRule => !isDisabled context c!"video_profile"
  | KeepMarkedYearInFilepart => !isDisabled context c!"year"
  | SubtitlePrefixLanguageRule | SubtitleSuffixLanguageRule | SubtitleExtensionRule => !isDisabled context c!"subtitle_language"
  | RemoveLanguage => isDisabled context c!"language"
  | TitleFromPosition => !isDisabled context c!"alternative_title"
  | _ => true

/-- The rules that are run (their `when` is called) for a context, in order. -/
def rulesRun (shuffle : List (Decl Cls) → List (Decl Cls)) (context : Dict) : List (Decl Cls) :=
  (schedule shuffle (effectiveRules guessitPlugs context)).1.filter fun r => ruleEnabled context r.cls

end Guessit
