import Verif.Model.Chain
import Verif.Model.Matches
import Verif.Model.Strings

/-! # guessit/rules/properties/episodes.py: the patterns that are not chains -/

namespace Guessit

/-- The words of `config` for these patterns (episodes.py:139-142). -/
structure EpisodeWords where
  episodeWords : List Str
  ofWords : List Str
  allWords : List Str

/-- config/options.json, episodes.  `All` is written in lower case here: the patterns ignore case (episodes.py:153). -/
def defaultEpisodeWords : EpisodeWords where
  episodeWords := [c!"episode", c!"episodes", c!"eps", c!"ep", c!"episodio", c!"episodios", c!"capitulo", c!"capitulos"]
  ofWords := [c!"of", c!"sur"]
  allWords := [c!"all"]

/-- `-?` + `build_or_pattern(of_words)` + `-?(?P<count>\d+)` (episodes.py:253, :343); `count` is group 9. -/
def RxEnv.countRe (E : RxEnv) (ws : List Str) : Re := .cat [dashRe, E.words ws, dashRe, .grp 9 E.digits]

/-- `Episode 4v2 of 10` (episodes.py:251-254), the pattern that is enabled unless the type is `episode`.  The marker is private and has no validator, so its group
is left out.  `ordering_validator` (episodes.py:84-124) accepts every match: it has at most one episode and no season (see `ordering_one`). -/
def wordedPattern (E : RxEnv) (W : EpisodeWords) : RxPattern Int :=
  { re := .cat [E.words W.episodeWords, dashRe, .grp 2 E.digits, .opt E.versionRe, .opt (E.countRe W.ofWords)], name := [],
    groups := [(2, c!"episode"), (8, c!"version"), (9, c!"count")], children := true, validateAll := true,
    format := fun _ => pyInt E.u, parentValid := surrounded, childValid := fun _ _ => true }

/-- `S01ExAll` (episodes.py:263-266): `other` is group 7, its formatter is constant. -/
def allPattern (E : RxEnv) (W : EpisodeWords) : RxPattern MVal :=
  { re := .cat [.opt (E.letter 's'), .grp 1 E.digits, dashRe, E.words [c!"xe", c!"ex", c!"e", c!"x"], dashRe, .grp 7 (E.words W.allWords)], name := [],
    groups := [(1, c!"season"), (7, c!"other")], children := true, validateAll := true,
    format := fun name t => if name = c!"other" then .ok (.str c!"Complete") else (pyInt E.u t).map .int,
    parentValid := surrounded, childValid := fun _ _ => true }

/-- `v2` (episodes.py:335-337). -/
def versionPattern (E : RxEnv) : RxPattern Int :=
  { re := E.versionRe, name := [], groups := [(8, c!"version")], children := true, validateAll := true,
    format := fun _ => pyInt E.u, parentValid := surrounded, childValid := fun _ _ => true }

/-- `match_processors.strip` (rules/match_processors.py:17-18), the first loop. -/
def stripStart (s : Str) (i : Nat) : Nat := i + ((s.drop i).takeWhile seps.contains).length
/-- The second loop (rules/match_processors.py:19-20). -/
def stripStop (s : Str) : Nat → Nat
  | 0 => 0
  | j + 1 => if (s[j]?).any seps.contains then stripStop s j else j + 1

/-- `4 of 10 episodes` (episodes.py:342-347); the match is stripped before it is validated (`pre_match_processor`). -/
def detachedPattern (E : RxEnv) (W : EpisodeWords) : RxPattern Int :=
  { re := .cat [.grp 2 E.digits, E.countRe W.ofWords, dashRe, .opt (E.words W.episodeWords)], name := [],
    groups := [(2, c!"episode"), (9, c!"count")], children := true, validateAll := true,
    format := fun _ => pyInt E.u, parentValid := fun s m => sepsSurround s (stripStart s m.start) (stripStop s m.stop), childValid := fun _ _ => true }

/-- episodes.py:349-354; `s?` prefers the plural. -/
def formatPattern (E : RxEnv) : RxPattern Str :=
  { re := .cat [E.word c!"minisode", .opt (E.letter 's')], name := c!"episode_format", groups := [], children := false, validateAll := true,
    format := fun _ _ => .ok c!"Minisode", parentValid := surrounded, childValid := fun _ _ => true }

/-- The words of episodes.py:215. -/
def detailWords : List Str := [c!"Special", c!"Pilot", c!"Unaired", c!"Final"]
/-- episodes.py:216-221; there is no validator. -/
def detailPattern (w : Str) : StrPattern Str := { words := [w], name := c!"episode_details", format := fun _ _ => .ok w, valid := fun _ _ => true }
/-- episodes.py:215-221 -/
def detailsFound (u : Uni) (s : Str) : List (RxMatch Str) := detailWords.flatMap fun w => (detailPattern w).found u s

end Guessit
