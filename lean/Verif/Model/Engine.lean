import Verif.Model.Schedule
import Verif.Model.Solver
import Verif.Model.Renamers
import Verif.Model.Subtitles
import Verif.Model.UltraHd
import Verif.Model.Title

/-!
# All the rules, one after the other

`Rebulk.matches` (rebulk, external) hands the matches found by the patterns to `Rules.execute_all_rules`.  This file puts the
rules of the other model files behind their classes and runs them in the order of `Model/Schedule.lean`.
-/

namespace Guessit

/-- What the rules take from the configuration (guessit/config/options.json), from Python and from the patterns: `kin` and
`solverOf` give the families and the conflict solvers of the matches of a state, `words` are the words for episodes
(episodes.py:686), `safe` are the sub-domains and prefixes of websites (website.py:77), `common` are the common words
(language.py:496), `ranges` the range separators, `number` the count written in a `Proper` (other.py:88-93), `mime` is
`mimetypes.guess_type`. -/
structure RuleEnv where
  kin : Ms → Kin
  solverOf : Ms → Mt → Option Solver
  uni : Uni
  cases : CaseTables
  title : TitleEnv
  group : GroupEnv
  size : SizeEnv
  ranges : List Str
  toInt : MVal → Option Int
  slow : MVal → Bool
  number : Mt → Option Int
  words : List Str
  safe : List Str
  common : List Str
  und : MVal
  mime : Str → Option Str

/-- `context.get('type')`, when it is a text. -/
def typeOption (context : Dict) : Option Str := match context.getD (.str c!"type") with
  | .str t => some t
  | _ => none

/-- `ZeroDivisionError`. -/
def zeroDivision : PyErr := .other 1

/-- A rule whose `when` raises `e` on `none`. -/
def orRaise (e : PyErr) : Option Ms → Except PyErr Ms
  | some s => .ok s
  | none => .error e

open Cls in
/-- `rule.when` and `rule.then` of the class, as modelled in the other files (each cites the code); `arg` is the argument of the
constructor of the rule.  `Processors` (processors.py:212-222) does nothing: its `when` returns `None`.  `PrivateRemover`
(rebulk/processors.py, external) removes the private matches. -/
def ruleStep (e : RuleEnv) (context : Dict) (arg : Str) (s : Ms) : Cls → Except PyErr Ms
  | ConflictSolver => .ok (solveConflicts (e.kin s) (e.solverOf s) s)
  | PrivateRemover => .ok { s with live := s.live.filter fun m => !m.priv }
  | WeakConflictSolver => .ok (weakConflicts (e.kin s) (typeOption context) s)
  | RemoveInvalidSeason => .ok (removeInvalidSeason (e.kin s) s)
  | RemoveInvalidEpisode => .ok (removeInvalidEpisode (e.kin s) e.uni.lower s)
  | SeePatternRange => orRaise .typeError (seePatternRange (e.ranges ++ [c!"_"]) s)
  | EpisodeNumberSeparatorRange => orRaise .typeError (episodeRange e.ranges s)
  | SeasonSeparatorRange => orRaise .typeError (seasonRange e.ranges s)
  | RemoveWeakIfMovie => .ok (removeWeakIfMovie (e.kin s) (typeOption context) s)
  | RemoveWeakIfSxxExx => .ok (removeWeakIfSxxExx s)
  | RemoveWeakDuplicate => .ok (removeWeakDuplicate (e.kin s) s)
  | EpisodeDetailValidator => .ok (episodeDetailValidator s)
  | RemoveDetachedEpisodeNumber => orRaise .typeError (removeDetached (e.kin s) s)
  | VersionValidator => .ok (versionValidator s)
  | RemoveWeak => .ok (removeWeak e.uni.lower e.toInt e.words s)
  | RenameToAbsoluteEpisode => orRaise .typeError (renameAbsolute (e.kin s) s)
  | CountValidator => .ok (countValidator s)
  | EpisodeSingleDigitValidator => .ok (episodeSingleDigit s)
  | RenameToDiscMatch => .ok (renameDisc (e.kin s) e.uni.lower (isDisabled context c!"disc") s)
  | ValidateSourcePrefixSuffix => .ok (validateSourceAffixes (e.kin s) s)
  | ValidateWeakSource => .ok (validateWeakSource (e.kin s) s)
  | UltraHdBlurayRule => .ok (ultraHdBluray s)
  | ValidateVideoCodec => .ok (validateVideoCodec s)
  | VideoProfileRule => .ok (videoProfile s)
  | DtsHDRule => .ok (audioProfile c!"DTS-HD" s)
  | DtsRule => .ok (audioProfile c!"DTS" s)
  | AacRule => .ok (audioProfile c!"AAC" s)
  | DolbyDigitalRule => .ok (audioProfile c!"Dolby Digital" s)
  | AudioValidatorRule => .ok (audioValidator s)
  | HqConflictRule => .ok (hqConflict s)
  | AudioChannelsValidatorRule => .ok (audioChannelsValidator s)
  | PostProcessScreenSize =>
    orRaise zeroDivision (postProcessSize e.size (e.kin s) (isDisabled context c!"frame_rate") (isDisabled context c!"aspect_ratio") s)
  | ScreenSizeOnlyOne => .ok (screenSizeOnlyOne s)
  | ResolveScreenSizeConflicts => .ok (resolveScreenSize s)
  | PreferTitleOverWebsite => .ok (preferTitleOverWebsite (e.kin s) e.uni.lower e.safe s)
  | ValidateWebsitePrefix => .ok (validateWebsitePrefix s)
  | KeepMarkedYearInFilepart => .ok (keepMarkedYear s)
  | TitleFromPosition => titleRun (e.kin s) (titleFromPosition e.title) (typeOption context) s
  | PreferTitleWithYear => .ok (preferTitleWithYear s)
  | RemoveConflictsWithEpisodeTitle => .ok (removeTitleConflicts (e.kin s) s)
  | EpisodeTitleFromPosition => episodeTitleRun (e.kin s) e.title (typeOption context) s
  | AlternativeTitleReplace => .ok (alternativeTitleReplace (e.kin s) s)
  | TitleToEpisodeTitle => .ok (titleToEpisodeTitle s)
  | Filepart3EpisodeTitle => .ok (filepart3 e.title.upper s)
  | Filepart2EpisodeTitle => .ok (filepart2 e.title.upper s)
  | RenameEpisodeTitleWhenMovieType => .ok (renameEpisodeTitleWhenMovie s)
  | SubtitleExtensionRule => .ok (subtitleExtension s)
  | SubtitlePrefixLanguageRule => orRaise .valueError (subtitlePrefixRule s)
  | SubtitleSuffixLanguageRule => orRaise .valueError (subtitleSuffixRule s)
  | RemoveLanguage => .ok (removeLanguage true s)
  | RemoveInvalidLanguages => .ok (removeInvalidLanguages e.uni.lower e.common s)
  | RemoveUndeterminedLanguages => .ok (removeUndetermined e.und s)
  | DashSeparatedReleaseGroup => .ok (dashRun e.group s)
  | SceneReleaseGroup => .ok (sceneRun e.group s)
  | AnimeReleaseGroup => .ok (animeRun e.group s)
  | ValidateStreamingService => .ok (validateStreamingService (e.kin s) s)
  | RenameAnotherToOther => .ok (anotherToOther s)
  | ValidateHasNeighbor => .ok (hasNeighbor s)
  | ValidateHasNeighborAfter => .ok (hasNeighborAfter s)
  | ValidateHasNeighborBefore => .ok (hasNeighborBefore s)
  | ValidateScreenerRule => .ok (validateScreener s)
  | ValidateMuxRule => .ok (validateMux s)
  | ValidateHardcodedSubs => .ok (validateHardcodedSubs s)
  | ValidateStreamingServiceNeighbor => .ok (validateServiceNeighbor (e.kin s) s)
  | ValidateAtEnd => .ok (validateAtEnd s)
  | ValidateReal => .ok (validateReal s)
  | ProperCountRule => .ok (properCount e.uni e.number s)
  | BitRateTypeRule => .ok (bitRateType e.slow (isDisabled context c!"audio_bit_rate") (isDisabled context c!"video_bit_rate") s)
  | BonusTitleRule => bonusTitle s
  | FilmTitleRule => filmTitle s
  | EnlargeGroupMatches => .ok (enlargeGroupMatches s)
  | EquivalentHoles => equivalentHoles e.uni e.cases s
  | RemoveLessSpecificSeasonEpisode => .ok (removeLessSpecific arg s)
  | RemoveAmbiguous => .ok (removeAmbiguous s)
  | SeasonYear => seasonYear s
  | YearSeason => .ok (yearSeason s)
  | Cls.Processors => .ok s
  | StripSeparators => stripSeparators s
  | Mimetype => .ok (mimetypeRule e.mime s)
  | TypeProcessor => .ok (typeProcessor (typeOption context) s)

/-- The rules of the list, one after the other; an exception ends it. -/
def runRules (e : RuleEnv) (context : Dict) : List (Decl Cls) → Ms → Except PyErr Ms
  | [], s => .ok s
  | r :: rs, s => match ruleStep e context r.arg s r.cls with
    | .error x => .error x
    | .ok s' => runRules e context rs s'

/-- `Rules.execute_all_rules(matches, context)` of rebulk (external), for the rules of guessit. -/
def engine (e : RuleEnv) (context : Dict) (s : Ms) : Except PyErr Ms := runRules e context (rulesRun id context) s

end Guessit
