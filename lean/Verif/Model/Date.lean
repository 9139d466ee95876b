import Verif.Model.Numeral

/-!
# Dates (`guessit/rules/common/date.py`)

`dateutil.parser.parse` is external: it is a parameter, any function from the text and the two flags to a date or an
exception.  `\d` is `Uni.isDigit`.  All patterns are compiled with `re.IGNORECASE`: `re` then lets `[a-z]` match the 52
ASCII letters and `İ`, `ı`, `ſ`, U+212A, and lets the literal `s` match `ſ`.
-/

namespace Guessit

structure PyDate where
  year : Int
  month : Nat
  day : Nat
  deriving DecidableEq, Repr

/-- `parser.parse(text, dayfirst=d, yearfirst=y)` (third party). -/
abbrev DateParser := Str → (dayfirst yearfirst : Bool) → Except PyErr PyDate

/-- `_dsep` (date.py:10). -/
def dsep (c : Char) : Bool := c!"-/ .".contains c
/-- `_dsep_bis` (date.py:11), ignoring case. -/
def dsepBis (c : Char) : Bool := c!"-/ .xX".contains c

/-- `[a-z]` with `re.IGNORECASE`. -/
def azIgnoreCase (c : Char) : Bool :=
  ('a' ≤ c && c ≤ 'z') || ('A' ≤ c && c ≤ 'Z') || c!"İıſ\u212a".contains c

/-- `(?:st|nd|rd|th)?` with `re.IGNORECASE`. -/
def ordinalRe : Re :=
  .opt (.alts [.seq (.chr fun c => c!"sSſ".contains c) (.chr fun c => c!"tT".contains c),
    .seq (.chr fun c => c!"nN".contains c) (.chr fun c => c!"dD".contains c),
    .seq (.chr fun c => c!"rR".contains c) (.chr fun c => c!"dD".contains c),
    .seq (.chr fun c => c!"tT".contains c) (.chr fun c => c!"hH".contains c)])

/-- `\d{m,M}` -/
def digitsRe (u : Uni) (m M : Nat) : Re := .rep (.chr u.isDigit) m (some M)

/-- `(?:^|[^\d])` -/
def beforeRe (u : Uni) : Re := .alt .bol (.chr fun c => !u.isDigit c)
/-- `(?:$|[^\d])` -/
def afterRe (u : Uni) : Re := .alt .eol (.chr fun c => !u.isDigit c)

/-- `D((\d{n}))D` (date.py:15, 17). -/
def compactRe (u : Uni) (n : Nat) : Re := .cat [.chr dsep, .grp 1 (.grp 2 (digitsRe u n n)), .chr dsep]

/-- `(?:^|[^\d])((\d{a,b})P(\d{c,d})Q(\d{e,f}))(?:$|[^\d])` (date.py:19-25). -/
def tripleRe (u : Uni) (a b : Nat) (p : Char → Bool) (c d : Nat) (q : Char → Bool) (e f : Nat) : Re :=
  .cat [beforeRe u,
    .grp 1 (.cat [.grp 2 (digitsRe u a b), .chr p, .grp 3 (digitsRe u c d), .chr q, .grp 4 (digitsRe u e f)]),
    afterRe u]

/-- `(?:^|[^\d])((\d{1,2}(?:st|nd|rd|th)?D(?:[a-z]{3,10})D\d{4}))(?:$|[^\d])` (date.py:27). -/
def wordedRe (u : Uni) : Re :=
  .cat [beforeRe u,
    .grp 1 (.grp 2 (.cat [digitsRe u 1 2, ordinalRe, .chr dsep, .rep (.chr azIgnoreCase) 3 (some 10), .chr dsep, digitsRe u 4 4])),
    afterRe u]

/-- `date_regexps` (date.py:13-29), each with its number of groups. -/
def dateRegexps (u : Uni) : List (Re × Nat) :=
  [(compactRe u 8, 2), (compactRe u 6, 2),
   (tripleRe u 2 2 dsep 1 2 dsep 1 2, 4), (tripleRe u 1 2 dsep 1 2 dsep 2 2, 4),
   (tripleRe u 4 4 dsepBis 1 2 dsep 1 2, 4), (tripleRe u 1 2 dsep 1 2 dsepBis 4 4, 4),
   (wordedRe u, 2)]

/-- `valid_year` (date.py:32-34). -/
def validYear (year : Int) : Bool := 1920 ≤ year && year < 2030

/-- `valid_week` (date.py:37-39). -/
def validWeek (week : Int) : Bool := 1 ≤ week && week < 53

/-- `_is_int` (date.py:42-55). -/
def isInt (u : Uni) (s : Str) : Bool := match pyInt u s with
  | .ok _ => true
  | .error _ => false

/-- `_is_int(group) and test(int(part))` (date.py:70-81). -/
def intTest (u : Uni) (group part : Str) (test : Int → Bool) : Except PyErr Bool :=
  if isInt u group then
    match pyInt u part with
    | .ok n => .ok (test n)
    | .error e => .error e
  else .ok false

/-- The `if test: return answer` chain of `_guess_day_first_parameter`. -/
def firstTest : List (Except PyErr Bool × Bool) → Except PyErr (Option Bool)
  | [] => .ok none
  | (.error e, _) :: _ => .error e
  | (.ok true, answer) :: _ => .ok (some answer)
  | (.ok false, _) :: rest => firstTest rest

/-- `s[-n:]` -/
def lastN (n : Nat) (s : Str) : Str := s.drop (s.length - n)

/-- `_guess_day_first_parameter` (date.py:58-81); `groups` is never empty. -/
def guessDayFirst (u : Uni) (groups : List Str) : Except PyErr (Option Bool) :=
  match groups.head?, groups.getLast? with
  | some f, some l => firstTest [
      (intTest u f (f.take 4) validYear, false),
      (intTest u l (lastN 4 l) validYear, true),
      (intTest u f (f.take 2) (fun n => n > 31), false),
      (intTest u l (lastN 2 l) (fun n => n > 31), true)]
  | _, _ => .error .indexError

/-- The text of group `n` of a match; every group of the date patterns takes part in the match. -/
def groupText (s : Str) (c : Caps) (n : Nat) : Str := match c.lookup n with
  | some (a, b) => (s.take b).drop a
  | none => []

/-- `'-'.join(groups)` -/
def joinDash : List Str → Str
  | [] => []
  | [g] => g
  | g :: gs => g ++ '-' :: joinDash gs

/-- The `for kwargs in kwargs_list` loop (date.py:133-142). -/
def tryParses (parse : DateParser) (text : Str) : List (Bool × Bool) → Except PyErr (Option PyDate)
  | [] => .ok none
  | (d, y) :: rest => match parse text d y with
    | .ok date => if validYear date.year then .ok (some date) else tryParses parse text rest
    | .error .valueError => tryParses parse text rest
    | .error .typeError => tryParses parse text rest
    | .error e => .error e

/-- `dayfirst_opts`, `yearfirst_opts` and `kwargs_list` (date.py:123-132). -/
def kwargsList (yearFirst dayFirst : Option Bool) : List (Bool × Bool) :=
  let ys := match yearFirst with | none => [false, true] | some y => [y]
  let ds := match dayFirst with | none => [true, false] | some d => [d]
  ds.flatMap fun d => ys.map fun y => (d, y)

/-- One iteration's `day_first` (date.py:117-121). -/
def dayFirstFor (u : Uni) (yearFirst dayFirst : Option Bool) (groups : List Str) : Except PyErr (Option Bool) :=
  let df := if yearFirst = some true ∧ dayFirst = none then some false else dayFirst
  match df with
  | some d => .ok (some d)
  | none => guessDayFirst u groups

/-- The `for date_re in date_regexps` loop (date.py:105-142).  `dayFirst` is the local variable: the value guessed for one
pattern is still there for the next ones. -/
def searchDateLoop (u : Uni) (parse : DateParser) (s : Str) (yearFirst : Option Bool) :
    List (Re × Nat) → Option Bool → Except PyErr (Option (Nat × Nat × PyDate))
  | [], _ => .ok none
  | (re, k) :: rest, dayFirst => match re.search s with
    | none => searchDateLoop u parse s yearFirst rest dayFirst
    | some (_, _, caps) =>
      let groups := (List.range' 2 (k - 1)).map (groupText s caps)
      match dayFirstFor u yearFirst dayFirst groups with
      | .error e => .error e
      | .ok df => match tryParses parse (joinDash groups) (kwargsList yearFirst df) with
        | .error e => .error e
        | .ok (some date) => match caps.lookup 1 with
          | some (a, b) => .ok (some (a, b, date))
          | none => .error .indexError
        | .ok none => searchDateLoop u parse s yearFirst rest df

/-- `search_date` (date.py:84-142).  The options are `None`, `True` or `False`. -/
def searchDate (u : Uni) (parse : DateParser) (s : Str) (yearFirst dayFirst : Option Bool) :
    Except PyErr (Option (Nat × Nat × PyDate)) :=
  searchDateLoop u parse s yearFirst (dateRegexps u) dayFirst

end Guessit
