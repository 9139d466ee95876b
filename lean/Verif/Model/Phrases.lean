import Verif.Model.Strings

/-!
# The phrases of a configuration

Most values of `edition`, `other`, `audio_codec` and `streaming_service` are declared in config/options.json as lists of texts and of
small regular expressions (`director'?s?-cut`).  These are read here from the text of the expression, as far as they use
literals, `-` (which the abbreviation `dash` turns into a class), `.`, `\d`, classes of characters, groups, `|`, `?` and `{n}`.
-/

namespace Guessit

/-- What stands for one character. -/
inductive Sym where
  | lit (c : Char)
  /-- `-`, the abbreviation `dash` (rules/common/__init__.py:14) -/
  | dash
  /-- `.` -/
  | any
  /-- `\d` -/
  | digit
  deriving DecidableEq, Repr

/-- A regular expression without repetition. -/
inductive Phrase where
  | nil
  | sym (x : Sym)
  | seq (a b : Phrase)
  | alt (a b : Phrase)
  | opt (a : Phrase)
  deriving DecidableEq, Repr

/-- `r{n}` -/
def Phrase.times (p : Phrase) : Nat → Phrase
  | 0 => .nil
  | n + 1 => .seq p (p.times n)

/-- `[abc]`, as alternatives: the same characters.  There are no ranges. -/
def parseClass : Str → Option (Phrase × Str)
  | ']' :: _ => none
  | c :: ']' :: r => some (.sym (.lit c.toLower), r)
  | c :: r => match parseClass r with
    | some (p, r') => some (.alt (.sym (.lit c.toLower)) p, r')
    | none => none
  | [] => none

mutual
/-- Alternatives.  The syntax is that of Python's `re`; letters are put in lower case, as all these expressions ignore case.  What is not of the
fragment above is refused. -/
def parseAlts : Nat → Str → Option (Phrase × Str)
  | 0, _ => none
  | f + 1, s => match parseSeq f s with
    | some (p, '|' :: r) => (parseAlts f r).map fun x => (.alt p x.1, x.2)
    | x => x
/-- A sequence, up to `|`, `)` or the end. -/
def parseSeq : Nat → Str → Option (Phrase × Str)
  | 0, _ => none
  | _ + 1, [] => some (.nil, [])
  | f + 1, c :: s => if c = '|' ∨ c = ')' then some (.nil, c :: s) else match parseItem f (c :: s) with
    | some (p, r) => (parseSeq f r).map fun x => (.seq p x.1, x.2)
    | none => none
/-- One thing, perhaps with `?` or `{n}`. -/
def parseItem : Nat → Str → Option (Phrase × Str)
  | 0, _ => none
  | f + 1, s => match parseAtom f s with
    | some (p, '?' :: r) => some (.opt p, r)
    | some (p, '{' :: n :: '}' :: r) => some (p.times (n.toNat - 48), r)
    | x => x
/-- One thing.  Whether a group captures does not matter here. -/
def parseAtom : Nat → Str → Option (Phrase × Str)
  | 0, _ => none
  | f + 1, s => match s with
    | '(' :: '?' :: ':' :: r => match parseAlts f r with
      | some (p, ')' :: r') => some (p, r')
      | _ => none
    | '(' :: '?' :: _ => none
    | '(' :: r => match parseAlts f r with
      | some (p, ')' :: r') => some (p, r')
      | _ => none
    | '[' :: r => parseClass r
    | '\\' :: 'd' :: r => some (.sym .digit, r)
    | '-' :: r => some (.sym .dash, r)
    | '.' :: r => some (.sym .any, r)
    | c :: r => if c ∈ c!"\\{}+*?^$|)]" then none else some (.sym (.lit c.toLower), r)
    | [] => none
end

/-- A whole expression. -/
def parsePhrase (s : Str) : Option Phrase := match parseAlts (4 * s.length + 4) s with
  | some (p, []) => some p
  | _ => none

/-- Whether a symbol stands for a character (`re.IGNORECASE`). -/
def Sym.is (E : RxEnv) : Sym → Char → Bool
  | .lit l, c => E.same l c
  | .dash, c => sepsNoFs.contains c
  | .any, c => c != '\n'
  | .digit, c => E.u.isDigit c

/-- The expression. -/
def Phrase.re (E : RxEnv) : Phrase → Re
  | .nil => .eps
  | .sym x => .chr (x.is E)
  | .seq a b => .seq (a.re E) (b.re E)
  | .alt a b => .alt (a.re E) (b.re E)
  | .opt a => .opt (a.re E)

/-- The validators of these entries. -/
inductive Check where
  /-- `seps_surround`, the default (edition.py:25, other.py:31) -/
  | apart
  /-- `null` -/
  | none
  /-- `import:seps_after` -/
  | after
  deriving DecidableEq, Repr

/-- rules/common/validators.py:13-15, :32-45 -/
def Check.ok {V : Type} (k : Check) (s : Str) (m : RxMatch V) : Bool := match k with
  | .apart => surrounded s m
  | .none => true
  | .after => charsAfter seps s m.stop

/-- An entry of a table of options.json; the values are several when `value` is a list. -/
structure PhraseEntry where
  values : List Str
  strings : List Str
  regexes : List Str
  check : Check

/-- `rebulk.regex(text, ...)` with the value of the entry (config/__init__.py:134-148). -/
def PhraseEntry.pattern (E : RxEnv) (name : Str) (e : PhraseEntry) (p : Phrase) : RxPattern (List Str) :=
  { re := p.re E, name := name, groups := [], children := false, validateAll := false, format := fun _ _ => .ok e.values,
    parentValid := e.check.ok, childValid := fun _ _ => true }

/-- What the regular expressions of an entry find. -/
def PhraseEntry.phrases (E : RxEnv) (name : Str) (e : PhraseEntry) (s : Str) : List (RxMatch (List Str)) :=
  e.regexes.flatMap fun t => match parsePhrase t with
    | some p => (e.pattern E name p).found s
    | none => []

/-- What its texts find. -/
def PhraseEntry.words (u : Uni) (name : Str) (e : PhraseEntry) (s : Str) : List (RxMatch (List Str)) :=
  ({ words := e.strings, name := name, format := fun _ _ => .ok e.values, valid := e.check.ok } : StrPattern (List Str)).found u s

/-- What the entries of a table find (`load_config_patterns`, config/__init__.py:151-167). -/
def tableFound (E : RxEnv) (name : Str) (table : List PhraseEntry) (s : Str) : List (RxMatch (List Str)) :=
  table.flatMap fun e => e.words E.u name s ++ e.phrases E name s

end Guessit
