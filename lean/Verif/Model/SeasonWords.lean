import Verif.Model.Part
import Verif.Model.EpisodeWords

/-!
# Seasons written with a word: `Season 2`, `Season II`, `Seasons 1-3`, `Season 1of3` (episodes.py:232-246)

In this chain the numbers are validated one by one (`validate_roman`): a match of a pattern whose number is not valid does not join the chain, but the search goes on
after it (`Pattern.matches` returns it among the raw matches, which `Chain._match` uses to advance).
-/

namespace Guessit

/-- `season_words` in config/options.json. -/
def seasonWords : List Str :=
  [c!"season", c!"saison", c!"seizoen", c!"seasons", c!"saisons", c!"tem", c!"temp", c!"temporada", c!"temporadas", c!"stagione"]

/-- `numeral` (numeral.py:48) where the abbreviation is `alt_dash`: the `-` of a number word stands for itself. -/
def RxEnv.plainNumeral (E : RxEnv) : Re := .alts [.rep E.digit 1 (some 4), E.romanNumeral, E.words (englishWords ++ frenchWords ++ frenchAltWords)]

/-- episodes.py:242; `@?` is `dashRe`. -/
def RxEnv.seasonWord (E : RxEnv) (ws : List Str) : Re := .cat [.grp 3 (E.words ws), dashRe, .grp 1 E.plainNumeral]
/-- episodes.py:243 -/
def RxEnv.ofCount (E : RxEnv) (ws : List Str) : Re := .cat [E.words ws, dashRe, .grp 9 E.plainNumeral]
/-- episodes.py:244-246; the last alternative is `@`. -/
def RxEnv.nextSeason (E : RxEnv) (C : EpisodeConfig) : Re :=
  .cat [dashRe, .grp 6 (.alt (E.words (C.rangeSeparators ++ (C.discreteSeparators ++ C.weak))) (.chr fun c => sepsNoFs.contains c)), dashRe, .grp 1 E.digits]

/-- `parse_numeral` on a group (episodes.py:234). -/
def wordedValue (E : RxEnv) (s : Str) (x : Nat × Nat) : Except PyErr Int := parseNumeral E.u ((s.take x.2).drop x.1) true true true true

/-- `validate_roman` (episodes.py:126-136). -/
def validateRoman (E : RxEnv) (s : Str) (x : Nat × Nat) : Bool := intCoercable E.u ((s.take x.2).drop x.1) || sepsSurround s x.1 x.2

/-- The `season` and the `count` of a match are valid (episodes.py:236-237). -/
def validSeasonHit (E : RxEnv) (s : Str) (h : RxHit) : Bool := [1, 9].all fun g => match h.caps.lookup g with
  | some x => validateRoman E s x
  | none => true

/-- The seasons of a chain, each with the text of the separator before it. -/
def wordedSeasons (E : RxEnv) (s : Str) (hs : List RxHit) : List (Option Str × Int) := hs.filterMap fun h =>
  (h.caps.lookup 1).map fun x => ((h.caps.lookup 6).map fun y => (s.take y.2).drop y.1, match wordedValue E s x with
    | .ok v => v
    | .error _ => 0)

/-- The chain breaker (episodes.py:38-54) objects; there are no episodes in this chain. -/
def brokenSeasons (E : RxEnv) (C : EpisodeConfig) (s : Str) (hs : List RxHit) : Bool :=
  chainBreaker C.episodeMax C.seasonMax [] ((wordedSeasons E s hs).map Prod.snd)

/-- `and_(seps_surround, ordering_validator)` (episodes.py:235) on the chain, which extends over its matches: they are reported too (`private_parent`). -/
def validSeasons (E : RxEnv) (C : EpisodeConfig) (s : Str) : List RxHit → Bool
  | [] => false
  | h :: hs => sepsSurround s h.start (lastStop h.stop hs) &&
      orderingValidator C.rangeSeparators.contains C.weak.contains C.discreteSeparators.contains C.gap (wordedSeasons E s (h :: hs)) []

/-- The matches of each chain that are reported (episodes.py:232-246). -/
def wordedKept (E : RxEnv) (C : EpisodeConfig) (ws ofs : List Str) (s : Str) : List (List RxHit) :=
  (chains s ⟨E.seasonWord ws, some 1⟩ [⟨E.ofCount ofs, some 1⟩, ⟨E.nextSeason C, none⟩]).map fun hs =>
    trimChain (validSeasons E C s) (keepHits (brokenSeasons E C s) [] (hs.filter (validSeasonHit E s))).reverse

/-- The `season` and `count` matches of a match. -/
def wordedNumbers (E : RxEnv) (s : Str) (h : RxHit) : List (RxMatch Int) := [(1, c!"season"), (9, c!"count")].filterMap fun g => (h.caps.lookup g.1).map fun x =>
  { name := g.2, start := x.1, stop := x.2, value := wordedValue E s x }

/-- The seasons and counts that are reported. -/
def seasonsWorded (E : RxEnv) (C : EpisodeConfig) (ws ofs : List Str) (s : Str) : List (RxMatch Int) :=
  (wordedKept E C ws ofs s).flatMap fun hs => hs.flatMap (wordedNumbers E s)

/-- `Episode IVv2 of 10` (episodes.py:256-261), the pattern that is enabled when the type is `episode`; the validator of `episode` is added to the one of the match, the
abbreviation is `dash` (:248).  The marker is private and has no validator, so its group is left out. -/
def numeralPattern (E : RxEnv) (W : EpisodeWords) : RxPattern Int :=
  { re := .cat [E.words W.episodeWords, dashRe, .grp 2 E.numeral, .opt E.versionRe, .opt (E.countRe W.ofWords)], name := [],
    groups := [(2, c!"episode"), (8, c!"version"), (9, c!"count")], children := true, validateAll := true,
    format := fun name t => if name = c!"episode" then parseNumeral E.u t true true true true else pyInt E.u t, parentValid := surrounded,
    childValid := fun s m => !(m.name == c!"episode") || validateRoman E s (m.start, m.stop) }

end Guessit
