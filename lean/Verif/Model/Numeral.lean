import Verif.Model.Regex

/-!
# guessit/rules/common/numeral.py
-/

namespace Guessit

/-- Character tables of the Python runtime that the model leaves arbitrary. -/
structure Uni where
  /-- decimal digit value (`\d`, `int`) -/
  digit : Char → Option Nat
  /-- whitespace (`str.split`, `str.strip`) -/
  space : Char → Bool
  /-- `str.lower` -/
  lower : Str → Str
  /-- `str.upper` -/
  upper : Str → Str

/-- `\d` -/
def Uni.isDigit (u : Uni) (c : Char) : Bool := (u.digit c).isSome

/-- `roman_numeral` between `^` and `$` (numeral.py:10, 66). -/
def romanRe : Re :=
  .cat [.bol, .look (.rep (.chr fun c => c!"MCDLXVI".contains c) 1 none),
    .rep (.lit 'M') 0 (some 4),
    .alts [.text c!"CM", .text c!"CD", .seq (.rep (.lit 'D') 0 (some 1)) (.rep (.lit 'C') 0 (some 3))],
    .alts [.text c!"XC", .text c!"XL", .seq (.rep (.lit 'L') 0 (some 1)) (.rep (.lit 'X') 0 (some 3))],
    .alts [.text c!"IX", .text c!"IV", .seq (.rep (.lit 'V') 0 (some 1)) (.rep (.lit 'I') 0 (some 3))],
    .eol]

/-- `__romanNumeralMap` (numeral.py:50-64). -/
def romanMap : List (Str × Nat) :=
  [(c!"M", 1000), (c!"CM", 900), (c!"D", 500), (c!"CD", 400), (c!"C", 100), (c!"XC", 90), (c!"L", 50), (c!"XL", 40),
   (c!"X", 10), (c!"IX", 9), (c!"V", 5), (c!"IV", 4), (c!"I", 1)]

/-- `while value[index:index + len(num)] == num` (numeral.py:83-85): how often, and the text left (`value[index:]`). -/
def eat (num : Str) : Nat → Str → Nat × Str
  | 0, s => (0, s)
  | f + 1, s => if num.isPrefixOf s then
      let r := eat num f (s.drop num.length)
      (r.1 + 1, r.2)
    else (0, s)

/-- The `for` loop of `__parse_roman` (numeral.py:80-86). -/
def romanLoop : List (Str × Nat) → Nat → Str → Nat
  | [], acc, _ => acc
  | (num, k) :: rest, acc, s =>
    let r := eat num s.length s
    romanLoop rest (acc + r.1 * k) r.2

/-- `__parse_roman` (numeral.py:69-87). -/
def parseRoman (value : Str) : Except PyErr Nat :=
  match romanRe.search value with
  | none => .error .valueError
  | some _ => .ok (romanLoop romanMap 0 value)

/-- `english_word_numeral_list` (numeral.py:12-15). -/
def englishWords : List Str := [c!"zero", c!"one", c!"two", c!"three", c!"four", c!"five", c!"six", c!"seven", c!"eight",
  c!"nine", c!"ten", c!"eleven", c!"twelve", c!"thirteen", c!"fourteen", c!"fifteen", c!"sixteen", c!"seventeen",
  c!"eighteen", c!"nineteen", c!"twenty"]

/-- `french_word_numeral_list` (numeral.py:17-20). -/
def frenchWords : List Str := [c!"zéro", c!"un", c!"deux", c!"trois", c!"quatre", c!"cinq", c!"six", c!"sept", c!"huit",
  c!"neuf", c!"dix", c!"onze", c!"douze", c!"treize", c!"quatorze", c!"quinze", c!"seize", c!"dix-sept", c!"dix-huit",
  c!"dix-neuf", c!"vingt"]

/-- `french_alt_word_numeral_list` (numeral.py:22-25). -/
def frenchAltWords : List Str := [c!"zero", c!"une", c!"deux", c!"trois", c!"quatre", c!"cinq", c!"six", c!"sept",
  c!"huit", c!"neuf", c!"dix", c!"onze", c!"douze", c!"treize", c!"quatorze", c!"quinze", c!"seize", c!"dixsept",
  c!"dixhuit", c!"dixneuf", c!"vingt"]

/-- `list.index(x)`. -/
def indexOf? (xs : List Str) (x : Str) : Option Nat := xs.findIdx? (fun y => y = x)

/-- `__parse_word` (numeral.py:90-104). -/
def parseWordIn (u : Uni) (value : Str) : List (List Str) → Except PyErr Nat
  | [] => .error .valueError
  | l :: ls => match indexOf? l (u.lower value) with
    | some n => .ok n
    | none => parseWordIn u value ls

def parseWord (u : Uni) (value : Str) : Except PyErr Nat := parseWordIn u value [englishWords, frenchWords, frenchAltWords]

/-- `_clean_re = [^\d]*(\d+)[^\d]*` (numeral.py:107). -/
def cleanRe (u : Uni) : Re :=
  .cat [.rep (.chr fun c => !u.isDigit c) 0 none, .grp 1 (.rep (.chr u.isDigit) 1 none), .rep (.chr fun c => !u.isDigit c) 0 none]

/-- The value of a text of decimal digits. -/
def digitsValue (u : Uni) (s : Str) : Nat := s.foldl (fun n c => n * 10 + (u.digit c).getD 0) 0

/-- Digits with single underscores between them, as `int` accepts; `prev` is true just after a digit. -/
def intBody (u : Uni) (acc : Nat) (prev : Bool) : Str → Option Nat
  | [] => if prev then some acc else none
  | c :: s => match u.digit c with
    | some d => intBody u (acc * 10 + d) true s
    | none => if c = '_' ∧ prev = true ∧ s ≠ [] then intBody u acc false s else none

/-- `int(value)` on text. -/
def pyInt (u : Uni) (value : Str) : Except PyErr Int :=
  let t := ((value.dropWhile u.space).reverse.dropWhile u.space).reverse
  let r := match t with
    | '-' :: s => (intBody u 0 false s).map fun n : Nat => -(n : Int)
    | '+' :: s => (intBody u 0 false s).map fun n : Nat => (n : Int)
    | s => (intBody u 0 false s).map fun n : Nat => (n : Int)
  match r with
  | some n => .ok n
  | none => .error .valueError

/-- `str.split()`: the maximal runs of non-space characters; `cur` is the current word, reversed. -/
def splitFrom (u : Uni) (cur : Str) : Str → List Str
  | [] => if cur.isEmpty then [] else [cur.reverse]
  | c :: s => if u.space c then (if cur.isEmpty then splitFrom u [] s else cur.reverse :: splitFrom u [] s)
    else splitFrom u (c :: cur) s

def splitWords (u : Uni) (s : Str) : List Str := splitFrom u [] s

/-- `for word in ...: try: return f(word) except ValueError: pass`; `none` when no word parses. -/
def firstOk (f : Str → Except PyErr Nat) : List Str → Option Nat
  | [] => none
  | w :: ws => match f w with
    | .ok n => some n
    | .error _ => firstOk f ws

/-- The `int_enabled` branch (numeral.py:129-138); `none` means `except ValueError: pass`. -/
def numeralInt (u : Uni) (clean : Bool) (value : Str) : Option Int :=
  let direct := match pyInt u value with
    | .ok n => some n
    | .error _ => none
  if clean then
    match (cleanRe u).matchAt value 0 with
    | some (_, c) => match c.lookup 1 with
      | some (a, b) => match pyInt u (Re.sub value a b) with
        | .ok n => some n
        | .error _ => none
      | none => direct
    | none => direct
  else direct
where
  /-- `match.group(1)` -/
  Re.sub (s : Str) (a b : Nat) : Str := (s.take b).drop a

/-- The roman branch (numeral.py:139-149). -/
def numeralRoman (u : Uni) (clean : Bool) (value : Str) : Option Int :=
  let direct := match parseRoman value with
    | .ok n => some (n : Int)
    | .error _ => none
  if clean then
    match firstOk (fun w => parseRoman (u.upper w)) (splitWords u value) with
    | some n => some n
    | none => direct
  else direct

/-- The word branch (numeral.py:150-160). -/
def numeralWord (u : Uni) (clean : Bool) (value : Str) : Option Int :=
  let direct := match parseWord u value with
    | .ok n => some (n : Int)
    | .error _ => none
  if clean then
    match firstOk (parseWord u) (splitWords u value) with
    | some n => some n
    | none => direct
  else direct

/-- `parse_numeral` (numeral.py:110-161). -/
def parseNumeral (u : Uni) (value : Str) (intEnabled romanEnabled wordEnabled clean : Bool) : Except PyErr Int :=
  match (if intEnabled then numeralInt u clean value else none) with
  | some n => .ok n
  | none => match (if romanEnabled then numeralRoman u clean value else none) with
    | some n => .ok n
    | none => match (if wordEnabled then numeralWord u clean value else none) with
      | some n => .ok n
      | none => .error .valueError

end Guessit
