import Verif.Model.Recognise
import Verif.Model.Episodes

/-!
# Chains of patterns (episodes.py)

`rebulk.chain()` looks for its first pattern, then for as many of the next ones as follow without anything between.  As far as
guessit uses it (only the first pattern of a chain is required), what is modelled of rebulk is `Chain._match` (the search, the
repeaters and the chain breaker) and `Chain._match_parent` (when the chain is not valid its last parts are given up, one after
the other, until what remains is).
-/

namespace Guessit

/-- A pattern of a chain; `max` is the upper bound of its repeater. -/
structure ChainPart where
  re : Re
  max : Option Nat

/-- As many matches of a pattern as follow one another from `i`, at most `fuel` (`Chain._truncate_chain_part_matches`). -/
def Re.run (r : Re) (s : Str) : Nat → Nat → List RxHit
  | 0, _ => []
  | fuel + 1, i => match r.matchAt s i with
    | some (j, c) => ⟨i, j, c⟩ :: Re.run r s fuel j
    | none => []

/-- Where a list of matches that starts at `i` ends. -/
def lastStop (i : Nat) : List RxHit → Nat
  | [] => i
  | h :: hs => lastStop h.stop hs

/-- The matches of the patterns after the first, from `i`. -/
def chainTail (s : Str) : List ChainPart → Nat → List RxHit
  | [], _ => []
  | p :: ps, i => p.re.run s (p.max.getD s.length) i ++ chainTail s ps (lastStop i (p.re.run s (p.max.getD s.length) i))

/-- The chain whose first match is `h`. -/
def chainOf (s : Str) (first : ChainPart) (rest : List ChainPart) (h : RxHit) : List RxHit :=
  let hs := h :: first.re.run s (first.max.getD s.length - 1) h.stop
  hs ++ chainTail s rest (lastStop h.stop hs)

/-- `Chain._match`: the chains from `i` on, each as the list of its matches. -/
def chainsFrom (s : Str) (first : ChainPart) (rest : List ChainPart) : Nat → Nat → List (List RxHit)
  | 0, _ => []
  | fuel + 1, i =>
    if i < s.length then
      match first.re.searchFrom s i (s.length - i) with
      | none => []
      | some (a, b, c) => chainOf s first rest ⟨a, b, c⟩ :: chainsFrom s first rest fuel (lastStop b (chainOf s first rest ⟨a, b, c⟩))
    else []
def chains (s : Str) (first : ChainPart) (rest : List ChainPart) : List (List RxHit) := chainsFrom s first rest (s.length + 1) 0

/-- The options of `episodes` in options.json that chains use. -/
structure EpisodeConfig where
  seasonMarkers : List Str
  episodeMarkers : List Str
  discMarkers : List Str
  seasonEpMarkers : List Str
  rangeSeparators : List Str
  discreteSeparators : List Str
  episodeMax : Int
  seasonMax : Int
  gap : Int

/-- config/options.json, episodes. -/
def defaultEpisodes : EpisodeConfig where
  seasonMarkers := [c!"s"]
  episodeMarkers := [c!"xe", c!"ex", c!"ep", c!"e", c!"x"]
  discMarkers := [c!"d"]
  seasonEpMarkers := [c!"x"]
  rangeSeparators := [c!"-", c!"~", c!"to", c!"a"]
  discreteSeparators := [c!"+", c!"&", c!"and", c!"et"]
  episodeMax := 100
  seasonMax := 100
  gap := 1

/-- `weak_discrete_separators` (episodes.py:147). -/
def EpisodeConfig.weak (C : EpisodeConfig) : List Str := (sepsNoFs.map fun c => [c]).filter fun w => !C.rangeSeparators.contains w
/-- `discrete_separators + range_separators` (episodes.py:149). -/
def EpisodeConfig.separators (C : EpisodeConfig) : List Str := C.discreteSeparators ++ C.weak ++ C.rangeSeparators

/-! The groups are numbered as follows: 1 `season`, 2 `episode`, 3 `seasonMarker`, 4 `episodeMarker`, 5 `episodeSeparator`,
6 `seasonSeparator`, 7 `other`. -/

/-- episodes.py:171-172 -/
def RxEnv.seasonEpisode (E : RxEnv) (C : EpisodeConfig) : Re :=
  .cat [.grp 3 (E.words C.seasonMarkers), .grp 1 E.digits, dashRe, .grp 4 (E.words (C.episodeMarkers ++ C.discMarkers)), dashRe, .grp 2 E.digits]
/-- episodes.py:174-177, :197-200 -/
def RxEnv.moreEpisodes (E : RxEnv) (ws : List Str) : Re := .cat [.grp 5 (E.words ws), .grp 2 E.digits]
/-- episodes.py:184-186, :193-195 -/
def RxEnv.crossed (E : RxEnv) (C : EpisodeConfig) : Re :=
  .cat [.grp 1 E.digits, dashRe, .grp 4 (E.words C.seasonEpMarkers), dashRe, .grp 2 E.digits]
/-- episodes.py:207 -/
def RxEnv.seasonOnly (E : RxEnv) (C : EpisodeConfig) : Re := .cat [.grp 3 (E.words C.seasonMarkers), .grp 1 E.digits]
/-- episodes.py:208 -/
def RxEnv.extras (E : RxEnv) : Re := .grp 7 (E.word c!"extras")
/-- episodes.py:209-212 -/
def RxEnv.moreSeasons (E : RxEnv) (ws : List Str) : Re := .cat [.grp 6 (E.words ws), .grp 1 E.digits]

/-- `v(?P<version>\d+)` (episodes.py:272 and after); `version` is group 8. -/
def RxEnv.versionRe (E : RxEnv) : Re := .cat [E.letter 'v', .grp 8 E.digits]

/-- The chains of numbers of episodes.py: 12 (:267-273), 112 (:283-290), 1 (:292-298), e112 and 1e18 (:300-305), 102 (:321-333).  The chains 012 (:275-281),
ep 112 (:307-312) and cap 112 (:314-319) are in Model/MoreChains. -/
inductive Numbering where
  | two | long | one | marked | duplicate
  deriving DecidableEq
/-- The first pattern. -/
def Numbering.firstRe (E : RxEnv) : Numbering → Re
  | .two => .grp 2 (digitsRe E.u 2 2)
  | .long => .grp 2 (digitsRe E.u 3 4)
  | .one => .grp 2 (digitsRe E.u 1 1)
  | .marked => .cat [.opt (.grp 1 (digitsRe E.u 1 2)), .grp 4 (E.word c!"e"), .grp 2 (digitsRe E.u 1 4)]
  | .duplicate => .seq (.grp 1 (digitsRe E.u 1 2)) (.grp 2 (digitsRe E.u 2 2))
/-- What is before the other numbers of a list. -/
def Numbering.words : Numbering → List Str
  | .marked => [c!"e", c!"x", c!"-"]
  | _ => [c!"x", c!"-"]
/-- How many digits they have at least and at most. -/
def Numbering.least : Numbering → Nat
  | .two => 2
  | .long => 3
  | .one => 1
  | .marked => 1
  | .duplicate => 2
def Numbering.most : Numbering → Nat
  | .two => 2
  | .long => 4
  | .one => 2
  | .marked => 4
  | .duplicate => 2
/-- The pattern of the other numbers. -/
def Numbering.moreRe (E : RxEnv) (k : Numbering) : Re := .seq (.grp 5 (E.words k.words)) (.grp 2 (digitsRe E.u k.least k.most))

/-- A chain of episodes.py: S01E02 (:166-177), 1x02 twice (:179-200), S01 (:202-212), and numbers. -/
inductive EpisodeChain where
  | sxxexx | crossedMany | crossedList | seasons | numbers (k : Numbering)
  deriving DecidableEq
def EpisodeChain.first (E : RxEnv) (C : EpisodeConfig) : EpisodeChain → ChainPart
  | .sxxexx => ⟨E.seasonEpisode C, none⟩
  | .crossedMany => ⟨E.crossed C, none⟩
  | .crossedList => ⟨E.crossed C, some 1⟩
  | .seasons => ⟨E.seasonOnly C, some 1⟩
  | .numbers k => ⟨k.firstRe E, some 1⟩
def EpisodeChain.rest (E : RxEnv) (C : EpisodeConfig) : EpisodeChain → List ChainPart
  | .sxxexx => [⟨E.moreEpisodes (C.episodeMarkers ++ C.discMarkers ++ C.separators), none⟩]
  | .crossedMany => []
  | .crossedList => [⟨E.moreEpisodes (C.seasonEpMarkers ++ C.separators), none⟩]
  | .seasons => [⟨E.extras, some 1⟩, ⟨E.moreSeasons (C.seasonMarkers ++ C.separators), none⟩]
  | .numbers k => [⟨E.versionRe, some 1⟩, ⟨k.moreRe E, none⟩]

/-- The number of a group (`formatter={'season': int, 'episode': int}`, episodes.py:159; no exception for digits). -/
def groupNumber (E : RxEnv) (s : Str) (x : Nat × Nat) : Int := match pyInt E.u ((s.take x.2).drop x.1) with
  | .ok v => v
  | .error _ => 0

/-- The numbers of a group in a chain, each with the text of the separator before it. -/
def chainNumbers (E : RxEnv) (s : Str) (group separator : Nat) (hs : List RxHit) : List (Option Str × Int) := hs.filterMap fun h =>
  (h.caps.lookup group).map fun x => ((h.caps.lookup separator).map fun y => (s.take y.2).drop y.1, groupNumber E s x)
def chainSeasons (E : RxEnv) (s : Str) (hs : List RxHit) : List (Option Str × Int) := chainNumbers E s 1 6 hs
def chainEpisodes (E : RxEnv) (s : Str) (hs : List RxHit) : List (Option Str × Int) := chainNumbers E s 2 5 hs

/-- The chain breaker objects to these matches (episodes.py:38-54). -/
def brokenChain (E : RxEnv) (C : EpisodeConfig) (s : Str) (hs : List RxHit) : Bool :=
  chainBreaker C.episodeMax C.seasonMax ((chainEpisodes E s hs).map Prod.snd) ((chainSeasons E s hs).map Prod.snd)

/-- A match joins the chain unless the chain breaker objects; the search goes on after it either way. -/
def keepHits (broken : List RxHit → Bool) : List RxHit → List RxHit → List RxHit
  | acc, [] => acc
  | acc, h :: hs => if broken (acc ++ [h]) then keepHits broken acc hs else keepHits broken (acc ++ [h]) hs

/-- `and_(seps_surround, ordering_validator)` on a chain (episodes.py:169).  The patterns of these chains begin and end with a named group that is
not empty, so the chain extends from the start of its first match to the end of its last one. -/
def validChain (E : RxEnv) (C : EpisodeConfig) (s : Str) : List RxHit → Bool
  | [] => false
  | h :: hs => sepsSurround s h.start (lastStop h.start (h :: hs)) &&
      orderingValidator C.rangeSeparators.contains C.weak.contains C.discreteSeparators.contains C.gap (chainSeasons E s (h :: hs)) (chainEpisodes E s (h :: hs))

/-- `Chain._match_parent`: the last match is given up until the chain is valid (the list is reversed). -/
def trimChain (valid : List RxHit → Bool) : List RxHit → List RxHit
  | [] => []
  | h :: r => if valid (r.reverse ++ [h]) then r.reverse ++ [h] else trimChain valid r

/-- The matches of a chain that are reported. -/
def EpisodeChain.kept (E : RxEnv) (C : EpisodeConfig) (k : EpisodeChain) (s : Str) : List (List RxHit) :=
  (chains s (k.first E C) (k.rest E C)).map fun hs => trimChain (validChain E C s) (keepHits (brokenChain E C s) [] hs).reverse

/-- The `season` and `episode` matches of a match of a chain (markers and separators are private, episodes.py:158). -/
def numbersOf (E : RxEnv) (s : Str) (h : RxHit) : List (RxMatch Int) :=
  [(1, c!"season"), (2, c!"episode")].filterMap fun g => (h.caps.lookup g.1).map fun x =>
    { name := g.2, start := x.1, stop := x.2, value := pyInt E.u ((s.take x.2).drop x.1) }

/-- The seasons and episodes a chain reports. -/
def EpisodeChain.found (E : RxEnv) (C : EpisodeConfig) (k : EpisodeChain) (s : Str) : List (RxMatch Int) :=
  (k.kept E C s).flatMap fun hs => hs.flatMap (numbersOf E s)

/-- The versions a chain reports (`formatter={'version': int}`, episodes.py:159). -/
def EpisodeChain.versions (E : RxEnv) (C : EpisodeConfig) (k : EpisodeChain) (s : Str) : List (RxMatch Int) := (k.kept E C s).flatMap fun hs =>
  hs.filterMap fun h => (h.caps.lookup 8).map fun x => { name := c!"version", start := x.1, stop := x.2, value := pyInt E.u ((s.take x.2).drop x.1) }

/-- The `Extras` a chain of seasons reports (`value='Extras'`, episodes.py:208). -/
def extrasFound (E : RxEnv) (C : EpisodeConfig) (s : Str) : List (RxMatch Str) := (EpisodeChain.seasons.kept E C s).flatMap fun hs => hs.filterMap fun h =>
  (h.caps.lookup 7).map fun x => { name := c!"other", start := x.1, stop := x.2, value := .ok c!"Extras" }

end Guessit
