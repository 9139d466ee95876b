import Verif.Model.Numeral
import Verif.Model.Date

/-!
# How `rebulk` turns a regular expression into matches

guessit declares most properties with `rebulk.regex(...)`.  rebulk is not part of the repository; what is modelled here of it
is `RePattern._match` (one match for each result of `finditer`, one child for each group that took part) and
`Pattern.matches` (which of them are validated and reported), for the keywords guessit uses.
-/

namespace Guessit

/-- The tables of Python that regular expressions consult: `\d` and `int`, and which characters a literal matches under
`re.IGNORECASE`. -/
structure RxEnv where
  u : Uni
  /-- the literal `l` matches the character `c` -/
  same : Char → Char → Bool

/-- A literal letter under `re.IGNORECASE`. -/
def RxEnv.letter (E : RxEnv) (l : Char) : Re := .chr (E.same l)
/-- A literal word under `re.IGNORECASE`. -/
def RxEnv.word (E : RxEnv) : Str → Re
  | [] => .eps
  | c :: w => .seq (E.letter c) (E.word w)
/-- One of some literal words, as `build_or_pattern` writes it (reutils.py:11-36). -/
def RxEnv.words (E : RxEnv) (ws : List Str) : Re := .alts (ws.map E.word)
/-- `\d` -/
def RxEnv.digit (E : RxEnv) : Re := .chr E.u.isDigit
/-- `\d+` -/
def RxEnv.digits (E : RxEnv) : Re := .rep E.digit 1 none
/-- `-?` with the abbreviation `dash` (rules/common/__init__.py:14): any separator but the slashes, or nothing. -/
def dashRe : Re := .opt (.chr fun c => sepsNoFs.contains c)

/-- A match object: its span and its groups. -/
structure RxHit where
  start : Nat
  stop : Nat
  caps : Caps
  deriving DecidableEq, Repr

/-- `finditer` from position `i`, for patterns that never match the empty text. -/
def Re.hitsFrom (r : Re) (s : Str) : Nat → Nat → List RxHit
  | 0, _ => []
  | fuel + 1, i =>
    if i ≤ s.length then
      match r.searchFrom s i (s.length - i) with
      | none => []
      | some (a, b, c) => ⟨a, b, c⟩ :: Re.hitsFrom r s fuel b
    else []

/-- `re.finditer(s)`. -/
def Re.hits (r : Re) (s : Str) : List RxHit := r.hitsFrom s (s.length + 1) 0

/-- A match as validators and the result see it; `value` is what the formatter returns for its text. -/
structure RxMatch (V : Type) where
  name : Str
  start : Nat
  stop : Nat
  value : Except PyErr V

/-- The keywords of a `rebulk.regex(...)` call.  `children` reports the groups instead of the match, `validateAll` validates
what is not reported too. -/
structure RxPattern (V : Type) where
  re : Re
  name : Str
  /-- number and name of its groups; a group without a name has the name of the pattern -/
  groups : List (Nat × Str)
  children : Bool
  validateAll : Bool
  format : Str → Str → Except PyErr V
  parentValid : Str → RxMatch V → Bool
  childValid : Str → RxMatch V → Bool

variable {V : Type}

/-- The match of a hit. -/
def RxPattern.parent (P : RxPattern V) (s : Str) (h : RxHit) : RxMatch V :=
  { name := P.name, start := h.start, stop := h.stop, value := P.format P.name ((s.take h.stop).drop h.start) }

/-- Its children: the groups that took part and are not empty. -/
def RxPattern.kids (P : RxPattern V) (s : Str) (h : RxHit) : List (RxMatch V) :=
  P.groups.filterMap fun g => match h.caps.lookup g.1 with
    | some (a, b) => if a < b then some { name := g.2, start := a, stop := b, value := P.format g.2 ((s.take b).drop a) } else none
    | none => none

/-- `Pattern._match_parent` and `_match_child`: what is reported is validated, and everything is with `validate_all`. -/
def RxPattern.accepts (P : RxPattern V) (s : Str) (h : RxHit) : Bool :=
  ((P.children && !P.validateAll) || P.parentValid s (P.parent s h)) &&
    ((!P.children && !P.validateAll) || (P.kids s h).all (P.childValid s))

/-- `Pattern.matches`: the matches that are not private. -/
def RxPattern.found (P : RxPattern V) (s : Str) : List (RxMatch V) :=
  ((P.re.hits s).filter (P.accepts s)).flatMap fun h => if P.children then P.kids s h else [P.parent s h]

/-- `seps_surround` (rules/common/validators.py:13). -/
def surrounded (s : Str) (m : RxMatch V) : Bool := sepsSurround s m.start m.stop

/-- A validator on the value of a match (an exception of the formatter would be raised here; none is, see C113 and after). -/
def valueIs (p : V → Bool) (m : RxMatch V) : Bool := match m.value with
  | .ok v => p v
  | .error _ => false

/-- No formatter: the value is the text. -/
def rawText (_ : Str) (raw : Str) : Except PyErr Str := .ok raw

/-! ## crc.py, date.py, bonus.py, film.py, cd.py and their patterns -/

/-- `[a-fA-F]|[0-9]` under `re.IGNORECASE`. -/
def hexChar (c : Char) : Bool := ('a' ≤ c && c ≤ 'f') || ('A' ≤ c && c ≤ 'F') || ('0' ≤ c && c ≤ '9')

/-- `rebulk.regex('(?:[a-fA-F]|[0-9]){8}', name='crc32', ...)` (crc.py:24-27); its validator is a default (crc.py:22). -/
def crcPattern : RxPattern Str :=
  { re := .rep (.chr hexChar) 8 (some 8), name := c!"crc32", groups := [], children := false, validateAll := false,
    format := rawText, parentValid := surrounded, childValid := surrounded }

/-- `rebulk.regex(r"\d{4}", name="year", formatter=int, ...)` (date.py:28-33). -/
def yearPattern (E : RxEnv) : RxPattern Int :=
  { re := .rep E.digit 4 (some 4), name := c!"year", groups := [], children := false, validateAll := false,
    format := fun _ => pyInt E.u, parentValid := fun s m => surrounded s m && valueIs validYear m,
    childValid := fun s m => surrounded s m && valueIs validYear m }

/-- `rebulk.regex(build_or_pattern(week_words) + r"-?(\d{1,2})", name="week", children=True, ...)` (date.py:35-42). -/
def weekPattern (E : RxEnv) (words : List Str) : RxPattern Int :=
  { re := .cat [E.words words, dashRe, .grp 1 (.rep E.digit 1 (some 2))], name := c!"week", groups := [(1, c!"week")],
    children := true, validateAll := false, format := fun _ => pyInt E.u,
    parentValid := fun s m => surrounded s m && valueIs validWeek m,
    childValid := fun s m => surrounded s m && valueIs validWeek m }

/-- The `bonus` entry of options.json, loaded by bonus.py:26: `x(\d+)`. -/
def bonusPattern (E : RxEnv) : RxPattern Int :=
  { re := .cat [E.letter 'x', .grp 1 E.digits], name := c!"bonus", groups := [(1, c!"bonus")],
    children := true, validateAll := true, format := fun _ => pyInt E.u, parentValid := surrounded, childValid := fun _ _ => true }

/-- The `film` entry of options.json, loaded by film.py:27: `f(\d{1,2})`. -/
def filmPattern (E : RxEnv) : RxPattern Int :=
  { re := .cat [E.letter 'f', .grp 1 (.rep E.digit 1 (some 2))], name := c!"film", groups := [(1, c!"film")],
    children := true, validateAll := true, format := fun _ => pyInt E.u, parentValid := surrounded, childValid := fun _ _ => true }

/-- `lambda match: 0 < match.value < 100`. -/
def underHundred (n : Int) : Bool := 0 < n && n < 100

/-- The `_cd_of_cd_count` entry of options.json, loaded by cd.py:25: `cd-?(?P<cd>\d+)(?:-?of-?(?P<cd_count>\d+))?`. -/
def cdPattern (E : RxEnv) : RxPattern Int :=
  { re := .cat [E.word c!"cd", dashRe, .grp 1 E.digits,
      .opt (.cat [dashRe, E.word c!"of", dashRe, .grp 2 E.digits])], name := [],
    groups := [(1, c!"cd"), (2, c!"cd_count")], children := true, validateAll := false, format := fun _ => pyInt E.u,
    parentValid := fun _ _ => true, childValid := fun _ m => valueIs underHundred m }

/-- The `_cd_count` entry of options.json: `(?P<cd_count>\d+)-?cds?`. -/
def cdCountPattern (E : RxEnv) : RxPattern Int :=
  { re := .cat [.grp 1 E.digits, dashRe, E.word c!"cd", .opt (E.letter 's')], name := [], groups := [(1, c!"cd_count")],
    children := true, validateAll := false, format := fun _ => pyInt E.u,
    parentValid := fun _ _ => true, childValid := fun _ m => valueIs underHundred m }

end Guessit
