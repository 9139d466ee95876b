import Verif.Model.Processors
import Verif.Model.Episodes
import Verif.Model.Rules
import Verif.Model.Date

/-!
# The whole engine, seen from the property names

`rebulk_builder` (guessit/rules/__init__.py:41-98) assembles about ninety pattern declarations and about sixty rules.  This
file transcribes, for the default configuration, *which names* each pattern declaration and each rule can produce and *which
`is_disabled` test* (guessit/rules/common/pattern.py:8-25) guards it.  The matching itself is left open: a run of the engine
may find any matches the enabled declarations could give, anywhere, in any number, and each rule may keep, drop, move and
retag matches at will and create those its entry allows.  A statement about every run of this model is therefore a statement
about every input.

Simplifications: guards that depend on anything else than `includes` and `excludes` (the `type` option, `allowed_languages`,
`episode_prefer_number`, ...) are dropped, which only allows more runs; rules that only remove matches share one entry.
-/

namespace Guessit

/-- A guard in conjunctive form: for each clause at least one of its names is not disabled.  `[[a], [b]]` models
`disabled = is_disabled(a) or is_disabled(b)`, `[[a, b]]` models `disabled = is_disabled(a) and is_disabled(b)`. -/
def passes (g : Dict) (needs : List (List Str)) : Bool := needs.all fun clause => clause.any fun n => !isDisabled g n

/-- A pattern declaration: its guard, the names its matches may bear, whether they carry the tag `weak-episode`, and what its
validator and formatter establish about the value. -/
structure Source where
  needs : List (List Str)
  gives : List Str
  weak : Bool := false
  valid : MVal → Bool := fun _ => true

/-- `int` formatter and `valid_year` validator. -/
def isValidYear : MVal → Bool
  | .int n => validYear n
  | _ => false

/-- `int` formatter and `valid_week` validator. -/
def isValidWeek : MVal → Bool
  | .int n => validWeek n
  | _ => false

/-- episodes.py:165-353. -/
def episodesSources : List Source := [
  -- 166-204: the three SxxExx chains, `is_season_episode_disabled` (37)
  { needs := [[c!"episode"], [c!"season"]], gives := [c!"seasonMarker", c!"season", c!"episodeMarker", c!"episode", c!"episodeSeparator"] },
  -- 203-215: S01, S01S02, S01Extras
  { needs := [[c!"episode"], [c!"season"]], gives := [c!"seasonMarker", c!"season", c!"other", c!"seasonSeparator"] },
  -- 218-223
  { needs := [[c!"episode_details"]], gives := [c!"episode_details"] },
  -- 232-246: Season 1 of 4
  { needs := [[c!"season"]], gives := [c!"seasonMarker", c!"season", c!"count", c!"seasonSeparator"] },
  -- 250-260: Episode 4 of 10
  { needs := [[c!"episode"]], gives := [c!"episodeMarker", c!"episode", c!"version", c!"count"] },
  -- 262-265: S01Eall
  { needs := [[c!"season"]], gives := [c!"season", c!"other"] },
  -- 268-298: 12, 012, 112, 1
  { needs := [[c!"episode"]], gives := [c!"weak_episode", c!"episode", c!"version", c!"episodeSeparator"], weak := true },
  -- 301-305: e112, 1e18
  { needs := [[c!"episode"]], gives := [c!"season", c!"episodeMarker", c!"episode", c!"version", c!"episodeSeparator"] },
  -- 308-312: ep 112
  { needs := [[c!"episode"]], gives := [c!"episode", c!"version", c!"episodeSeparator"] },
  -- 315-319: cap 112
  { needs := [[c!"episode"], [c!"season"]], gives := [c!"seasonMarker", c!"season", c!"episode", c!"episodeSeparator"] },
  -- 322-333: 102
  { needs := [[c!"episode"], [c!"season"]], gives := [c!"weak_duplicate", c!"season", c!"episode", c!"version", c!"episodeSeparator"], weak := true },
  -- 335-337: v2
  { needs := [[c!"version"]], gives := [c!"version"] },
  -- 342-346: 4 of 10
  { needs := [[c!"episode"]], gives := [c!"episode", c!"count"] },
  -- 348-353
  { needs := [[c!"episode_format"]], gives := [c!"episode_format"] }]

/-- The other declarations, file by file. -/
def otherSources : List Source := [
  -- container.py:25-60
  { needs := [[c!"container"]], gives := [c!"container"] },
  -- source.py:26-118; `value={'source': .., 'other': 'Rip', 'another': ..}` and the groups `other`, `another`
  { needs := [[c!"source"]], gives := [c!"source", c!"other", c!"another"] },
  -- video_codec.py:25-41
  { needs := [[c!"video_codec"]], gives := [c!"video_codec", c!"color_depth"] },
  -- video_codec.py:45-64
  { needs := [[c!"video_profile"]], gives := [c!"video_profile"] },
  -- video_codec.py:66-67
  { needs := [[c!"video_api"]], gives := [c!"video_api"] },
  -- video_codec.py:69-75
  { needs := [[c!"color_depth"]], gives := [c!"color_depth"] },
  -- audio_codec.py:46-51
  { needs := [[c!"audio_codec"]], gives := [c!"audio_codec"] },
  -- audio_codec.py:53-57
  { needs := [[c!"audio_profile"]], gives := [c!"audio_profile"] },
  -- audio_codec.py:59-62
  { needs := [[c!"audio_channels"]], gives := [c!"audio_channels"] },
  -- screen_size.py:36-51
  { needs := [[c!"screen_size"]], gives := [c!"screen_size"] },
  -- screen_size.py:53-54
  { needs := [[c!"frame_rate"]], gives := [c!"frame_rate"] },
  -- website.py:30-60
  { needs := [[c!"website"]], gives := [c!"website"] },
  -- date.py:28-33
  { needs := [[c!"year"]], gives := [c!"year"], valid := isValidYear },
  -- date.py:35-42: no guard
  { needs := [], gives := [c!"week"], valid := isValidWeek },
  -- date.py:56-60
  { needs := [[c!"date"]], gives := [c!"date"] },
  -- title.py:34-43
  { needs := [[c!"title"]], gives := [c!"title"] },
  -- language.py:39-47 with :208
  { needs := [[c!"subtitle_language"]], gives := [c!"subtitle_language.prefix", c!"subtitle_language.suffix", c!"subtitle_language"] },
  -- language.py:39-50
  { needs := [[c!"language"]], gives := [c!"language.suffix"] },
  -- language.py:39-62: the finder reports `language` whenever either property is wanted
  { needs := [[c!"language", c!"subtitle_language"]], gives := [c!"language"] },
  -- country.py:25-46
  { needs := [[c!"country"]], gives := [c!"country"] },
  -- release_group.py:59-66
  { needs := [[c!"release_group"]], gives := [c!"release_group"] },
  -- streaming_service.py:25-29
  { needs := [[c!"streaming_service"]], gives := [c!"streaming_service"] },
  -- other.py:29-33; the default configuration names the groups `another` and `proper_count`
  { needs := [[c!"other"]], gives := [c!"other", c!"another", c!"proper_count"] },
  -- size.py:25-29
  { needs := [[c!"size"]], gives := [c!"size"] },
  -- bit_rate.py:25-30
  { needs := [[c!"audio_bit_rate", c!"video_bit_rate"]], gives := [c!"audio_bit_rate"] },
  -- edition.py:24-28
  { needs := [[c!"edition"]], gives := [c!"edition"] },
  -- cd.py:23-26
  { needs := [[c!"cd"]], gives := [c!"cd", c!"cd_count"] },
  -- bonus.py:24-27
  { needs := [[c!"bonus"]], gives := [c!"bonus"] },
  -- film.py:22-26
  { needs := [[c!"film"]], gives := [c!"film"] },
  -- part.py:25-50
  { needs := [[c!"part"]], gives := [c!"part"] },
  -- crc.py:22-33: one guard for both properties
  { needs := [[c!"crc32"]], gives := [c!"crc32", c!"uuid"] }]

/-- Every pattern declaration. -/
def sources : List Source := episodesSources ++ otherSources

/-- Where a match created by a rule comes from. -/
inductive Origin where
  /-- from the text alone (a hole, the end of the input, a sum of others) -/
  | text
  /-- by renaming or copying a match of that name -/
  | named (name : Str)
  /-- by renaming or copying a match tagged `weak-episode` -/
  | weak
  deriving DecidableEq

/-- A match a rule may create. -/
structure Creation where
  needs : List (List Str) := []
  origin : Origin := .text
  into : Str
  valid : MVal → Bool := fun _ => true

/-- A rule: its guard (the one of the builder that registers it and its own `enabled`), what it may create, the names it
removes entirely when they are disabled, and whether it may duplicate the name of an existing text value. -/
structure RuleEntry where
  rule : Str
  needs : List (List Str) := []
  creates : List Creation := []
  clears : List Str := []
  duplicates : Bool := false

/-- The rules that create or rename matches.  Every other rule (about forty of them) only removes, moves or retags matches:
they are instances of `removers`. -/
def ruleEntries : List RuleEntry := [
  -- episodes.py:365-442: copies of weak episodes
  { rule := c!"WeakConflictSolver", creates := [{ origin := .named c!"episode", into := c!"episode" }] },
  -- episodes.py:445-470
  { rule := c!"CountValidator", creates := [{ origin := .named c!"count", into := c!"episode_count" },
      { origin := .named c!"count", into := c!"season_count" }] },
  -- episodes.py:473-507
  { rule := c!"SeePatternRange", creates := [{ origin := .named c!"episode", into := c!"episode" }] },
  -- episodes.py:510-570, 617-627
  { rule := c!"EpisodeNumberSeparatorRange", creates := [{ origin := .named c!"episode", into := c!"episode" },
      { into := c!"episodeSeparator" }] },
  -- episodes.py:510-570, 630-637
  { rule := c!"SeasonSeparatorRange", creates := [{ origin := .named c!"season", into := c!"season" }, { into := c!"seasonSeparator" }] },
  -- episodes.py:573-614
  { rule := c!"RenameToAbsoluteEpisode", creates := [{ origin := .named c!"episode", into := c!"absolute_episode" },
      { origin := .weak, into := c!"absolute_episode" }] },
  -- episodes.py:674-713
  { rule := c!"RemoveWeak", creates := [{ origin := .weak, into := c!"episode" }] },
  -- episodes.py:904-934
  { rule := c!"RenameToDiscMatch", creates := [{ needs := [[c!"disc"]], origin := .named c!"episode", into := c!"disc" },
      { needs := [[c!"disc"]], origin := .named c!"episodeMarker", into := c!"discMarker" }] },
  -- source.py:125-174, guard of :26
  { rule := c!"UltraHdBlurayRule", needs := [[c!"source"]], creates := [{ origin := .named c!"source", into := c!"source" }] },
  -- screen_size.py:61-110
  { rule := c!"PostProcessScreenSize", creates := [{ needs := [[c!"frame_rate"]], origin := .named c!"screen_size", into := c!"frame_rate" },
      { needs := [[c!"aspect_ratio"]], origin := .named c!"screen_size", into := c!"aspect_ratio" }] },
  -- title.py:48-352, guards of :34 and :352
  { rule := c!"TitleFromPosition", needs := [[c!"title"], [c!"alternative_title"]],
    creates := [{ into := c!"title" }, { into := c!"alternative_title" }, { into := c!"episode_title" }] },
  -- episode_title.py:95-121, guard of :30
  { rule := c!"TitleToEpisodeTitle", needs := [[c!"episode_title"]], creates := [{ origin := .named c!"title", into := c!"episode_title" }] },
  -- episode_title.py:124-158
  { rule := c!"EpisodeTitleFromPosition", needs := [[c!"episode_title"]], creates := [{ into := c!"episode_title" }] },
  -- episode_title.py:161-194
  { rule := c!"AlternativeTitleReplace", needs := [[c!"episode_title"]],
    creates := [{ origin := .named c!"alternative_title", into := c!"episode_title" }] },
  -- episode_title.py:197-215
  { rule := c!"RenameEpisodeTitleWhenMovieType", needs := [[c!"episode_title"]],
    creates := [{ origin := .named c!"episode_title", into := c!"alternative_title" }] },
  -- episode_title.py:218-255
  { rule := c!"Filepart3EpisodeTitle", needs := [[c!"episode_title"]], creates := [{ into := c!"title" }] },
  -- episode_title.py:258-300
  { rule := c!"Filepart2EpisodeTitle", needs := [[c!"episode_title"]], creates := [{ into := c!"title" }] },
  -- language.py:364-410, guards of :39 and :373
  { rule := c!"SubtitlePrefixLanguageRule", needs := [[c!"subtitle_language"]],
    creates := [{ origin := .named c!"language", into := c!"subtitle_language" }] },
  -- language.py:413-444
  { rule := c!"SubtitleSuffixLanguageRule", needs := [[c!"subtitle_language"]],
    creates := [{ origin := .named c!"language", into := c!"subtitle_language" }] },
  -- language.py:447-470
  { rule := c!"SubtitleExtensionRule", needs := [[c!"subtitle_language"]],
    creates := [{ origin := .named c!"language", into := c!"subtitle_language" }] },
  -- language.py:473-482, guard of :39
  { rule := c!"RemoveLanguage", needs := [[c!"language", c!"subtitle_language"]], clears := [c!"language"] },
  -- release_group.py:84-203, guard of :59
  { rule := c!"DashSeparatedReleaseGroup", needs := [[c!"release_group"]], creates := [{ into := c!"release_group" }] },
  -- release_group.py:206-301
  { rule := c!"SceneReleaseGroup", needs := [[c!"release_group"]], creates := [{ into := c!"release_group" }] },
  -- release_group.py:304-347
  { rule := c!"AnimeReleaseGroup", needs := [[c!"release_group"]], creates := [{ into := c!"release_group" }] },
  -- other.py:71-110, guard of :29
  { rule := c!"ProperCountRule", needs := [[c!"other"]], creates := [{ origin := .named c!"other", into := c!"proper_count" }] },
  -- other.py:113-121
  { rule := c!"RenameAnotherToOther", needs := [[c!"other"]], creates := [{ origin := .named c!"another", into := c!"other" }] },
  -- bit_rate.py:37-72, guard of :25
  { rule := c!"BitRateTypeRule", needs := [[c!"audio_bit_rate", c!"video_bit_rate"]],
    creates := [{ needs := [[c!"video_bit_rate"]], origin := .named c!"audio_bit_rate", into := c!"video_bit_rate" }],
    clears := [c!"audio_bit_rate"] },
  -- bonus.py:34-57, guard of :24
  { rule := c!"BonusTitleRule", needs := [[c!"bonus"]], creates := [{ into := c!"bonus_title" }] },
  -- film.py:33-56, guards of :22 and :42
  { rule := c!"FilmTitleRule", needs := [[c!"film"], [c!"film_title"]], creates := [{ into := c!"film_title" }] },
  -- processors.py:54-84
  { rule := c!"EquivalentHoles", duplicates := true },
  -- processors.py:177-192: no guard
  { rule := c!"SeasonYear", creates := [{ origin := .named c!"season", into := c!"year", valid := isValidYear }] },
  -- processors.py:195-209: no guard
  { rule := c!"YearSeason", creates := [{ origin := .named c!"year", into := c!"season" }] },
  -- mimetype.py:24-50
  { rule := c!"Mimetype", needs := [[c!"mimetype"]], creates := [{ into := c!"mimetype" }] },
  -- type.py:32-80
  { rule := c!"TypeProcessor", needs := [[c!"type"]], creates := [{ into := c!"type" }] }]

/-- A rule that only removes, moves or retags matches. -/
def remover : RuleEntry := { rule := c!"remover" }

/-- The names whose matches are private: `private_names` (episodes.py:160, :225), the parents of weak episodes (`private_parent`,
episodes.py:229), the prefixes and suffixes of languages (language.py:42-50, `private=True`). -/
def privateNames : List Str := [c!"seasonMarker", c!"episodeMarker", c!"seasonSeparator", c!"episodeSeparator", c!"weak_episode",
  c!"weak_duplicate", c!"subtitle_language.prefix", c!"subtitle_language.suffix", c!"language.suffix"]

/-- `m` may come from the declaration `p`: it bears one of its names, or it is an unnamed private parent. -/
def Source.Gives (p : Source) (input : Str) (m : Mt) : Prop :=
  (c!"weak-episode" ∈ m.tags → p.weak = true) ∧ ((m.name = none ∧ m.priv = true) ∨
    ((∃ n ∈ p.gives, m.name = some n ∧ (n ∈ privateNames → m.priv = true)) ∧ p.valid (m.value input) = true))

/-- What the patterns may leave: every match comes from a declaration that is not disabled. -/
def PatternsGive (g : Dict) (input : Str) (found : List Mt) : Prop :=
  ∀ m ∈ found, ∃ p ∈ sources, passes g p.needs = true ∧ p.Gives input m

/-- `m` is `m'`, possibly moved, retagged, made private, or given another text as value. -/
def Kept (input : Str) (m' m : Mt) : Prop :=
  m.name = m'.name ∧ (c!"weak-episode" ∈ m.tags → c!"weak-episode" ∈ m'.tags) ∧ (m'.priv = true → m.priv = true) ∧
    ((∃ t, m.value input = .str t) ∧ (∃ t, m'.value input = .str t) ∨ m.value input = m'.value input)

/-- `m` may be created by the entry `k` from the matches `before`. -/
def Creation.Makes (k : Creation) (g : Dict) (input : Str) (before : List Mt) (m : Mt) : Prop :=
  passes g k.needs = true ∧ m.name = some k.into ∧ k.valid (m.value input) = true ∧
    match k.origin with
    | .text => c!"weak-episode" ∉ m.tags
    | .named n => ∃ m' ∈ before, m'.name = some n ∧ (c!"weak-episode" ∈ m.tags → c!"weak-episode" ∈ m'.tags)
    | .weak => ∃ m' ∈ before, c!"weak-episode" ∈ m'.tags

/-- `m` duplicates the name of an existing match whose value is a text. -/
def Duplicate (input : Str) (before : List Mt) (m : Mt) : Prop :=
  c!"weak-episode" ∉ m.tags ∧ (∃ t, m.value input = .str t) ∧ ∃ m' ∈ before, m'.name = m.name ∧ ∃ t, m'.value input = .str t

/-- One rule: a disabled rule changes nothing, an enabled one leaves matches it was allowed to leave. -/
def RuleStep (g : Dict) (input : Str) (r : RuleEntry) (before after : List Mt) : Prop :=
  if passes g r.needs then
    (∀ m ∈ after, (∃ m' ∈ before, Kept input m' m) ∨ (∃ k ∈ r.creates, k.Makes g input before m) ∨
      (r.duplicates = true ∧ Duplicate input before m)) ∧
    ∀ n ∈ r.clears, isDisabled g n = true → ∀ m ∈ after, m.name ≠ some n
  else after = before

/-- The rules of the list run one after the other. -/
inductive RulesRun (g : Dict) (input : Str) : List RuleEntry → List Mt → List Mt → Prop
  | nil (l : List Mt) : RulesRun g input [] l l
  | cons {r : RuleEntry} {rs : List RuleEntry} {a b c : List Mt} : RuleStep g input r a b → RulesRun g input rs b c →
      RulesRun g input (r :: rs) a c

/-- A run of the engine: the patterns find matches, then every rule of `ruleEntries` runs once, in whatever order, with any
number of rules that only remove, move or retag in between. -/
def EngineRun (g : Dict) (input : Str) (result : List Mt) : Prop :=
  ∃ found order, PatternsGive g input found ∧ (order.filter fun r => decide (r.rule ≠ c!"remover")).Perm ruleEntries ∧
    (∀ r ∈ order, r.rule = c!"remover" → r = remover) ∧ RulesRun g input order found result

end Guessit
