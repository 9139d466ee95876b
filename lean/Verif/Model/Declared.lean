import Verif.Model.Styles
import Verif.Model.Extras
import Verif.Model.Website
import Verif.Model.Language
import Verif.Model.Engine

/-!
# Every pattern declaration of guessit

What `rebulk_builder` (guessit/rules/__init__.py:41-98) registers, in its order and for the default configuration, made of the patterns of the other files: which option
disables a declaration, which tags and which conflict solver its matches have, which of them are private.

Simplification: where one declaration of options.json has entries that are in different model files, the order in which the entries report is not kept.
-/

namespace Guessit

/-- The objects that are values: each has a number, equal objects have the same. -/
structure Codes (fl : Floats) where
  list : List Str → Nat
  quantity : Quantity fl → Nat
  date : PyDate → Nat
  language : Nat → Nat
  country : Nat → Nat

/-- What is outside guessit: the tables of Python, `babelfish`, `dateutil`, and the regular expressions that a caller gives in `expected_title` and `expected_group`. -/
structure Outside where
  rx : RxEnv
  /-- `\w` -/
  wordChar : Char → Bool
  /-- `str.capitalize` -/
  cap : Str → Str
  fl : Floats
  langs : Languages
  countries : Countries
  parse : DateParser
  regex : Str → Str → List (Nat × Nat)
  codes : Codes fl
  /-- `match.value in (babelfish.Country('US'), babelfish.Country('GB'))` -/
  usGb : MVal → Bool

/-- A declaration.  `needs` is the part of its `disabled` test that is about `includes` and `excludes` (see `passes`), `wanted` the rest of it. -/
structure Declared where
  needs : List (List Str)
  wanted : Dict → Bool := fun _ => true
  found : Dict → Str → Except PyErr (List Family)

/-- A declaration that cannot fail. -/
def declared (needs : List (List Str)) (found : Str → List Family) (wanted : Dict → Bool := fun _ => true) : Declared :=
  { needs := needs, wanted := wanted, found := fun _ s => .ok (found s) }

/-- `context.get(key)`, a list of texts. -/
def textsOption (context : Dict) (key : Str) : List Str := match context.getD (.str key) with
  | .list l => l.filterMap fun v => match v with
    | .str t => some t
    | _ => none
  | _ => []

/-- `context.get(key)`, as a truth value. -/
def truthOption (context : Dict) (key : Str) : Bool := truthy (context.getD (.str key))

/-- `context.get(key)`: `None`, `True` or `False`. -/
def boolOption (context : Dict) (key : Str) : Option Bool := match context.getD (.str key) with
  | .bool b => some b
  | _ => none

/-! ## episodes.py -/

/-- `formatter={'season': int, 'episode': int, 'version': int, 'count': int}` (episodes.py:159); `Extras` is a value (:208). -/
def plainNumber (E : RxEnv) (name t : Str) : MVal :=
  if name = c!"other" then .str c!"Extras"
  else if [c!"season", c!"episode", c!"version", c!"count"].contains name then formatted MVal.int (fun _ => pyInt E.u) name t
  else .str t

/-- `formatter={'season': parse_numeral, 'count': parse_numeral}` (episodes.py:234). -/
def wordNumber (E : RxEnv) (name t : Str) : MVal :=
  if [c!"season", c!"count"].contains name then formatted MVal.int (fun _ x => parseNumeral E.u x true true true true) name t else .str t

/-- The tags of the chains of numbers (episodes.py:268-333). -/
def Numbering.tags : Numbering → List Str
  | .marked => []
  | .duplicate => [c!"weak-episode", c!"weak-duplicate"]
  | _ => [c!"weak-episode"]

/-- Their names. -/
def Numbering.name : Numbering → Str
  | .long => c!"weak_episode"
  | .duplicate => c!"weak_duplicate"
  | _ => []

def EpisodeChain.families (E : RxEnv) (k : EpisodeChain) (name : Str) (tags : List Str) (s : Str) : List Family :=
  chainFamilies (k.kept E defaultEpisodes s) (plainNumber E) name tags [c!"no-release-group-prefix"]

def Numbering.families (E : RxEnv) (k : Numbering) (s : Str) : List Family := (EpisodeChain.numbers k).families E k.name k.tags s

def LooseChain.tags : LooseChain → List Str
  | .zero => [c!"weak-episode"]
  | .ep => []
  | .cap => [c!"see-pattern"]

def LooseChain.families (E : RxEnv) (k : LooseChain) (s : Str) : List Family :=
  chainFamilies (k.kept E defaultEpisodes s) (plainNumber E) [] k.tags []

/-- The chain of season words (episodes.py:232-246). -/
def wordedFamilies (E : RxEnv) (s : Str) : List Family :=
  chainFamilies (wordedKept E defaultEpisodes seasonWords defaultEpisodeWords.ofWords s) (wordNumber E) [] [] []

/-- `Episode 4v2 of 10` (episodes.py:251-254, and :256-261 with a numeral), with its marker. -/
def markedPattern {V : Type} (P : RxPattern V) (re : Re) : RxPattern V := { P with re := re, groups := (4, c!"episodeMarker") :: P.groups }
def episodeWordRe (E : RxEnv) (W : EpisodeWords) (number : Re) : Re :=
  .cat [.grp 4 (E.words W.episodeWords), dashRe, .grp 2 number, .opt E.versionRe, .opt (E.countRe W.ofWords)]

/-- The values of these two: the marker has no formatter. -/
def wordedGive (P : RxPattern Int) : RxPattern MVal :=
  { re := P.re, name := P.name, groups := P.groups, children := P.children, validateAll := P.validateAll,
    format := fun name t => if name = c!"episodeMarker" then .ok (.str t) else (P.format name t).map MVal.int
    parentValid := fun s m => P.parentValid s { name := m.name, start := m.start, stop := m.stop, value := P.format m.name ((s.take m.stop).drop m.start) }
    childValid := fun s m => P.childValid s { name := m.name, start := m.start, stop := m.stop, value := P.format m.name ((s.take m.stop).drop m.start) } }

def wordedEpisode (E : RxEnv) : RxPattern MVal :=
  wordedGive (markedPattern (wordedPattern E defaultEpisodeWords) (episodeWordRe E defaultEpisodeWords E.digits))
def numeralEpisode (E : RxEnv) : RxPattern MVal :=
  wordedGive (markedPattern (numeralPattern E defaultEpisodeWords) (episodeWordRe E defaultEpisodeWords E.numeral))

/-- The defaults of episodes.py:222-227. -/
def episodeStyle (tags : List Str) : Style := { tags := tags, hidden := chainHidden, privateParent := true, solver := some .seasonEpisode }

/-- `pre_match_processor=match_processors.strip` (episodes.py:345) on the match. -/
def strippedRoot (s : Str) (F : Family) : Family := { F with root := { F.root with start := stripStart s F.root.start, stop := stripStop s F.root.stop } }

/-- episodes.py:166-354. -/
def episodesDeclared (E : RxEnv) : List Declared := [
  -- 166-212: `is_season_episode_disabled` (33-35)
  declared [[c!"episode"], [c!"season"]] (EpisodeChain.sxxexx.families E [] [c!"SxxExx"]),
  declared [[c!"episode"], [c!"season"]] (EpisodeChain.crossedMany.families E [] [c!"SxxExx"]),
  declared [[c!"episode"], [c!"season"]] (EpisodeChain.crossedList.families E [] [c!"SxxExx"]),
  declared [[c!"episode"], [c!"season"]] (EpisodeChain.seasons.families E [] [c!"SxxExx"]),
  -- 215-221
  declared [[c!"episode_details"]] fun s => detailWords.flatMap fun w => (detailPattern w).families E.u MVal.str { solver := some .seasonEpisode } s,
  -- 230-246
  declared [[c!"season"]] (wordedFamilies E) fun g => decide (typeOption g ≠ some c!"movie"),
  -- 250-254
  declared [[c!"episode"]] ((wordedEpisode E).families id (episodeStyle [])) fun g => decide (typeOption g ≠ some c!"episode"),
  -- 256-261
  declared [[c!"episode"]] ((numeralEpisode E).families id (episodeStyle [])) fun g => decide (typeOption g = some c!"episode"),
  -- 263-266
  declared [[c!"season"]] ((allPattern E defaultEpisodeWords).families id (episodeStyle [c!"SxxExx"])),
  -- 269-298
  declared [[c!"episode"]] (Numbering.two.families E) fun g => decide (typeOption g ≠ some c!"movie"),
  declared [[c!"episode"]] (LooseChain.zero.families E) fun g => decide (typeOption g ≠ some c!"movie"),
  declared [[c!"episode"]] (Numbering.long.families E) fun g => decide (typeOption g ≠ some c!"movie"),
  declared [[c!"episode"]] (Numbering.one.families E) fun g => decide (typeOption g = some c!"episode"),
  -- 301-319
  declared [[c!"episode"]] (Numbering.marked.families E),
  declared [[c!"episode"]] (LooseChain.ep.families E),
  declared [[c!"episode"], [c!"season"]] (LooseChain.cap.families E),
  -- 322-333
  declared [[c!"episode"], [c!"season"]] (Numbering.duplicate.families E)
    fun g => !truthOption g c!"episode_prefer_number" && decide (typeOption g ≠ some c!"movie"),
  -- 335-337
  declared [[c!"version"]] ((versionPattern E).families MVal.int (episodeStyle [])),
  -- 342-347
  declared [[c!"episode"]] fun s => ((detachedPattern E defaultEpisodeWords).families MVal.int (episodeStyle []) s).map (strippedRoot s),
  -- 349-354
  declared [[c!"episode_format"]] ((formatPattern E).families MVal.str { solver := some .seasonEpisode })]

/-! ## The others -/

/-- The families of matches without children. -/
def plainFamilies {V : Type} (give : V → MVal) (st : Style) (found : List (RxMatch V)) : List Family := found.map fun m =>
  { root := { name := nameOf m.name, start := m.start, stop := m.stop, fmt := fun t => match m.value with
                | .ok v => give v
                | .error _ => .str t
              tags := st.tags, priv := st.priv }
    solver := st.solver }

/-- The value of an entry of a table: a text, or a list of texts. -/
def listed (O : Outside) : List Str → MVal
  | [v] => .str v
  | vs => .obj (O.codes.list vs)

/-- What the entries of a table find, each with its own tags and its own solver. -/
def styledFamilies (O : Outside) (name : Str) (table : List PhraseEntry) (styles : List Style) (s : Str) : List Family :=
  (table.zip styles).flatMap fun x => plainFamilies (listed O) x.2 (x.1.phrases O.rx name s ++ x.1.words O.rx.u name s)

/-- All the entries with the same tags and without solver. -/
def tableFamilies (O : Outside) (name : Str) (table : List PhraseEntry) (st : Style) (s : Str) : List Family :=
  plainFamilies (listed O) st (tableFound O.rx name table s)

/-- container.py:28-58 -/
def containerFamilies (O : Outside) (s : Str) : List Family :=
  ((extensionsFound O.rx defaultContainers s).flatMap fun x => plainFamilies MVal.str { tags := [c!"extension", x.1], solver := some .extension } [x.2]) ++
  (namedFound O.rx.u defaultContainers s).flatMap fun x => plainFamilies MVal.str { tags := [x.1], solver := some .container } [x.2]

/-- The families of a declaration with groups. -/
def FormEntry.families (E : RxEnv) (valid : Str → RxMatch Str → Bool) (st : Style) (e : FormEntry) (s : Str) : List Family :=
  e.regexes.flatMap fun t => match parseForm e.names t with
    | some p => (e.pattern E valid p).families MVal.str st s
    | none => []

/-- Whether the entry has `conflict_solver=demote_other` (source.py:78-82, :110-112). -/
def FormEntry.television (e : FormEntry) : Bool :=
  match e.values.lookup c!"source" with
  | some v => v == c!"HDTV" || v == c!"Ultra HDTV"
  | none => false

/-- The tags of an entry of source.py (:29, :52, :95). -/
def sourceTags (e : FormEntry) : List Str :=
  if e.values.lookup c!"source" = some c!"Telesync" then [c!"video-codec-prefix"]
  else if e.regexes = [c!"(WEB)"] then [c!"video-codec-prefix", c!"streaming_service.suffix", c!"weak.source"]
  else [c!"video-codec-prefix", c!"streaming_service.suffix"]

/-- source.py:26-118 -/
def sourceFamilies (O : Outside) (s : Str) : List Family := sourceTable.flatMap fun e =>
  e.families O.rx eitherSide { tags := sourceTags e, privateParent := true, solver := if e.television then some .tv else none } s

/-- video_codec.py:25-41 -/
def videoCodecFamilies (O : Outside) (s : Str) : List Family :=
  tableFamilies O c!"video_codec" videoCodecTable { tags := [c!"source-suffix", c!"streaming_service.suffix"] } s ++
  hevcEntry.families O.rx (fun _ _ => true) { tags := [c!"source-suffix", c!"streaming_service.suffix", c!"video-codec-suffix"] } s

/-- The tags of the profiles (video_codec.py:50-64): the last three have none. -/
def profileStyles : List Style := List.replicate 7 { tags := [c!"video_profile.rule"] } ++ List.replicate 3 { tags := [] }

/-- video_codec.py:66-67 -/
def apiPattern : StrPattern Str := { words := [c!"dxva"], name := c!"video_api", format := fun _ _ => .ok c!"DXVA", valid := surrounded }

/-- audio_codec.py:46-51 -/
def audioCodecFamilies (O : Outside) (s : Str) : List Family :=
  styledFamilies O c!"audio_codec" audioCodecTable audioCodecStyles s ++ plainFamilies MVal.str { solver := some .dtsHd } (dtsFound O.rx s) ++
  (lamePattern O.rx).families MVal.str { solver := some .audioCodec } s

/-- `[\W_]`: not a character of a word, or the underscore. -/
def Outside.gap (O : Outside) : Re := .chr fun c => !O.wordChar c || c = '_'

/-- `(2[\W_]0(?:ch)?)(?=[^\d]|$)` and its likes (options.json, `audio_channels`); the group has the name of the pattern. -/
def channelPattern (O : Outside) (a : Char) (b : List Char) (value : Str) (children : Bool) : RxPattern Str :=
  { re := .cat [.grp 1 (.cat [.lit a, O.gap, .chr b.contains, .opt (O.rx.word c!"ch")]), .look (.alt (.chr fun c => !O.rx.u.isDigit c) .eol)]
    name := c!"audio_channels", groups := [(1, c!"audio_channels")], children := children, validateAll := false, format := fun _ _ => .ok value,
    parentValid := fun _ _ => true, childValid := fun _ _ => true }

/-- `5[01]` and `7[01]`, and the text `20` (options.json, `audio_channels`). -/
def weakChannel (a : Char) (b : List Char) (value : Str) : RxPattern Str :=
  { re := .cat [.lit a, .chr b.contains], name := c!"audio_channels", groups := [], children := false, validateAll := false, format := fun _ _ => .ok value,
    parentValid := fun s m => charsAfter seps s m.stop, childValid := fun _ _ => true }

/-- The texts for channels (options.json, `audio_channels`). -/
def channelWords (value : Str) (words : List Str) : StrPattern Str :=
  { words := words, name := c!"audio_channels", format := fun _ _ => .ok value, valid := fun _ _ => true }

/-- audio_codec.py:58-62 -/
def channelFamilies (O : Outside) (s : Str) : List Family :=
  let weak : Style := { tags := [c!"weak-audio_channels"] }
  (channelWords c!"1.0" [c!"1ch", c!"mono"]).families O.rx.u MVal.str {} s ++ (channelPattern O '1' ['0'] c!"1.0" false).families MVal.str {} s ++
  (channelWords c!"2.0" [c!"2ch", c!"stereo"]).families O.rx.u MVal.str {} s ++ (channelPattern O '2' ['0'] c!"2.0" true).families MVal.str {} s ++
  (weakChannel '2' ['0'] c!"2.0").families MVal.str weak s ++
  (channelWords c!"5.1" [c!"5ch", c!"6ch"]).families O.rx.u MVal.str {} s ++ (channelPattern O '5' ['0', '1'] c!"5.1" true).families MVal.str {} s ++
  (channelPattern O '6' ['0'] c!"5.1" true).families MVal.str {} s ++ (weakChannel '5' ['0', '1'] c!"5.1").families MVal.str weak s ++
  (channelWords c!"7.1" [c!"7ch", c!"8ch"]).families O.rx.u MVal.str {} s ++ (channelPattern O '7' ['0', '1'] c!"7.1" true).families MVal.str {} s ++
  (weakChannel '7' ['0', '1'] c!"7.1").families MVal.str weak s

/-- screen_size.py:47-48 -/
def fourKPattern : StrPattern Str := { words := [c!"4k"], name := c!"screen_size", format := fun _ _ => .ok c!"2160p", valid := surrounded }

/-- screen_size.py:42-50 -/
def screenFamilies (O : Outside) (s : Str) : List Family :=
  ([O.rx.interlacedRe defaultScreen, O.rx.progressiveRe defaultScreen, O.rx.hdRe defaultScreen, O.rx.looseRe defaultScreen].flatMap fun r =>
    (screenPattern r).families MVal.str {} s) ++
  fourKPattern.families O.rx.u MVal.str { solver := some .fourK } s ++ (screenPattern O.rx.pixelsRe).families MVal.str { solver := some .size } s

/-- screen_size.py:53-54 -/
def rateFamilies (O : Outside) (s : Str) : List Family :=
  (ratePattern O.rx O.cap O.fl defaultScreen).families (fun q => .obj (O.codes.quantity q)) {} s

/-- website.py:61-62 -/
def fromWordPattern : StrPattern Str := { words := [c!"from"], name := c!"website", format := rawText, valid := surrounded }

/-- website.py:45-62 -/
def siteFamilies (O : Outside) (s : Str) : List Family :=
  ([O.rx.knownSite defaultSites, O.rx.safeSite defaultSites, O.rx.prefixedSite defaultSites].flatMap fun r =>
    (sitePattern (O.rx.siteAround r)).families MVal.str {} s) ++
  fromWordPattern.families O.rx.u MVal.str { priv := true, tags := [c!"website.prefix"] } s

/-- `date_functional` (date.py:44-60), with the default validator (date.py:26). -/
def dateFamilies (O : Outside) (g : Dict) (s : Str) : Except PyErr (List Family) :=
  match searchDate O.rx.u O.parse s (boolOption g c!"date_year_first") (boolOption g c!"date_day_first") with
  | .error e => .error e
  | .ok none => .ok []
  | .ok (some (a, b, d)) => .ok (if sepsSurround s a b then
      [{ root := { name := some c!"date", start := a, stop := b, val := some (.obj (O.codes.date d)) }, solver := some .date }] else [])

/-- `build_expected_function` (expected.py:13-53) as `rebulk.functional(..., validator=seps_surround)`; an option that never ends is an error here. -/
def expectedFamilies (O : Outside) (g : Dict) (key name : Str) (fmt : Str → MVal) (tags : List Str) (s : Str) : Except PyErr (List Family) :=
  match expectedFrom O.rx.u O.regex s (textsOption g key) with
  | none => .error (.other 2)
  | some l => .ok ((l.filter fun f => sepsSurround s f.start f.stop).map fun f =>
      { root := { name := some name, start := f.start, stop := f.stop, val := f.value.map MVal.str, fmt := fmt, tags := tags }, solver := some .expected })

/-- `formatters(cleanup, reorder_title)` (title.py:40). -/
def titleFormat (O : Outside) (t : Str) : MVal := .str (reorderTitle O.rx.u.lower [c!"the"] [c!",", c!", "] (cleanup t))

/-- language.py:32-36 and :130-134, with the words of options.json, sorted by length. -/
def byLength (ws : List Str) : List Str := sortBy (fun a b => decide (a.length < b.length)) ws
def subtitleAffixes : List Str := [c!"sub", c!"subs", c!"subtitle", c!"subtitles", c!"esub", c!"esubs", c!"subbed", c!"custom subbed", c!"custom subs",
  c!"custom sub", c!"customsubbed", c!"customsubs", c!"customsub", c!"soft subtitles", c!"soft subs"]
def subtitlePrefixes : List Str := byLength (subtitleAffixes ++ [c!"st", c!"vost", c!"subforced", c!"fansub", c!"hardsub", c!"legenda", c!"legendas", c!"legendado",
  c!"subtitulado", c!"soft"])
def subtitleSuffixes : List Str := byLength (subtitleAffixes ++ [c!"subforced", c!"fansub", c!"hardsub"])
def languagePrefixes : List Str := byLength [c!"dublado", c!"dubbed", c!"dub", c!"true"]
def languageSuffixes : List Str := byLength [c!"dublado", c!"dubbed", c!"dub", c!"audio"]
def weakAffixes : List Str := [c!"v", c!"audio", c!"true"]

/-- language.py:42-50 -/
def affixPattern (name : Str) (words : List Str) : StrPattern Str := { words := words, name := name, format := rawText, valid := surrounded }

/-- `find_languages` (language.py:52-62). -/
def languageFamilies (O : Outside) (g : Dict) (s : Str) : List Family :=
  (findLanguages O.rx.u O.langs (mkFinder O.rx.u (textsOption g c!"allowed_languages") (isDisabled g c!"subtitle_language") subtitlePrefixes subtitleSuffixes
    languagePrefixes languageSuffixes weakAffixes) s).map fun m =>
    { root := { name := some m.name, start := m.start, stop := m.stop, tags := m.tags, val := some (match m.value with
      | .inl l => .obj (O.codes.language l)
      | .inr t => .str t) } }

/-- The `common_words` of options.json. -/
def commonWords : List Str := [c!"ca", c!"cat", c!"de", c!"he", c!"it", c!"no", c!"por", c!"rum", c!"se", c!"st", c!"sub"]

/-- `find_countries` (country.py:28-46). -/
def countryFamilies (O : Outside) (g : Dict) (s : Str) : List Family :=
  (findCountries O.rx.u O.countries (textsOption g c!"allowed_countries") commonWords s).map fun m =>
    { root := { name := some c!"country", start := m.1, stop := m.2.1, val := some (.obj (O.codes.country m.2.2)) }, solver := some .country }

/-- `_repack_with_count` (options.json, `other`) as a pattern; `proper_count` is a child that is not reported. -/
def repackPattern (E : RxEnv) (w : Str) : RxPattern Str :=
  { re := repackRe E w, name := c!"other", groups := [(1, c!"proper_count")], children := false, validateAll := false,
    format := fun name t => .ok (if name = c!"other" then c!"Proper" else t), parentValid := surrounded, childValid := surrounded }

/-- other.py:29-68 -/
def otherFamilies (O : Outside) (s : Str) : List Family :=
  styledFamilies O c!"other" otherTable otherStyles s ++
  ([c!"repack", c!"rerip"].flatMap fun w =>
    (repackPattern O.rx w).families MVal.str { tags := [c!"streaming_service.prefix", c!"streaming_service.suffix"] } s) ++
  hdRipEntry.families O.rx surrounded { privateParent := true } s ++ plainFamilies MVal.str { tags := [c!"release-group-prefix"] } (completeFound O.rx s)

/-- crc.py:29-32 -/
def uuidFamilies (s : Str) : List Family := ((guessIdnumber s).filter fun x => sepsSurround s x.1 x.2).map fun x =>
  { root := { name := some c!"uuid", start := x.1, stop := x.2 }, solver := some .uuid }

/-- `private_parent=True, children=True` and a conflict solver. -/
def parentStyle (solver : Option Trade) : Style := { privateParent := true, solver := solver }

/-- guessit/rules/__init__.py:58-91: what is declared after the episodes. -/
def othersDeclared (O : Outside) : List Declared := [
  declared [[c!"container"]] (containerFamilies O),
  declared [[c!"source"]] (sourceFamilies O),
  declared [[c!"video_codec"]] (videoCodecFamilies O),
  declared [[c!"video_profile"]] (styledFamilies O c!"video_profile" videoProfileTable profileStyles),
  declared [[c!"video_api"]] (apiPattern.families O.rx.u MVal.str {}),
  declared [[c!"color_depth"]] (tableFamilies O c!"color_depth" colorDepthTable {}),
  declared [[c!"audio_codec"]] (audioCodecFamilies O),
  declared [[c!"audio_profile"]] (styledFamilies O c!"audio_profile" audioProfileTable audioProfileStyles),
  declared [[c!"audio_channels"]] (channelFamilies O),
  declared [[c!"screen_size"]] (screenFamilies O),
  declared [[c!"frame_rate"]] (rateFamilies O),
  declared [[c!"website"]] (siteFamilies O),
  declared [[c!"year"]] ((yearPattern O.rx).families MVal.int { solver := some .year }),
  declared [] ((weekPattern O.rx [c!"week"]).families MVal.int { solver := some .year }),
  { needs := [[c!"date"]], found := dateFamilies O },
  -- title.py:37-43
  { needs := [[c!"title"]], wanted := fun g => truthOption g c!"expected_title"
    found := fun g => expectedFamilies O g c!"expected_title" c!"title" (titleFormat O) [c!"expected", c!"title"] },
  declared [[c!"subtitle_language"]] ((affixPattern c!"subtitle_language.prefix" subtitlePrefixes).families O.rx.u MVal.str
    { priv := true, tags := [c!"release-group-prefix"] }),
  declared [[c!"subtitle_language"]] ((affixPattern c!"subtitle_language.suffix" subtitleSuffixes).families O.rx.u MVal.str { priv := true }),
  declared [[c!"language"]] ((affixPattern c!"language.suffix" languageSuffixes).families O.rx.u MVal.str { priv := true, tags := [c!"source-suffix"] }),
  { needs := [[c!"language", c!"subtitle_language"]], wanted := fun g => truthOption g c!"allowed_languages"
    found := fun g s => .ok (languageFamilies O g s) },
  { needs := [[c!"country"]], wanted := fun g => truthOption g c!"allowed_countries", found := fun g s => .ok (countryFamilies O g s) },
  -- release_group.py:61-66
  { needs := [[c!"release_group"]], wanted := fun g => truthOption g c!"expected_group"
    found := fun g => expectedFamilies O g c!"expected_group" c!"release_group" MVal.str [c!"expected"] },
  declared [[c!"streaming_service"]] fun s => tableFamilies O c!"streaming_service" serviceTable { tags := [c!"source-prefix"] } s ++
    plainFamilies MVal.str { tags := [c!"source-prefix"] } (itFound s),
  declared [[c!"other"]] (otherFamilies O),
  declared [[c!"size"]] fun s => plainFamilies (fun q => .obj (O.codes.quantity q)) { tags := [c!"release-group-prefix"] } (sizesFound O.rx O.cap O.fl s),
  declared [[c!"audio_bit_rate", c!"video_bit_rate"]] fun s =>
    plainFamilies (fun q => .obj (O.codes.quantity q)) { tags := [c!"release-group-prefix"], solver := some .bitRate } (bitRatesFound O.rx O.cap O.fl s),
  declared [[c!"edition"]] (styledFamilies O c!"edition" editionTable editionStyles),
  declared [[c!"cd"]] fun s => (cdPattern O.rx).families MVal.int (parentStyle none) s ++ (cdCountPattern O.rx).families MVal.int (parentStyle none) s,
  declared [[c!"bonus"]] ((bonusPattern O.rx).families MVal.int (parentStyle (some .bonus))),
  declared [[c!"film"]] ((filmPattern O.rx).families MVal.int (parentStyle none)),
  declared [[c!"part"]] ((partPattern O.rx partPrefixes).families MVal.int (parentStyle none)),
  declared [[c!"crc32"]] fun s => crcPattern.families MVal.str { solver := some .crc32 } s ++ uuidFamilies s]

/-- All of them. -/
def allDeclared (O : Outside) : List Declared := episodesDeclared O.rx ++ othersDeclared O

end Guessit
