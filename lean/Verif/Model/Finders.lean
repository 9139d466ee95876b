import Verif.Model.Numeral

/-!
# Functional patterns: uuid (properties/crc.py), countries (properties/country.py), expected titles and groups
(common/expected.py), and `build_or_pattern` (reutils.py)
-/

namespace Guessit

/-! ## crc.py -/

/-- `0123456789` (crc.py:65). -/
def idDigits : Str := c!"0123456789"
/-- The letters (crc.py:67). -/
def idLetters : Str := c!"abcdefghijklmnopqrstuvwxyzABCDEFGHIJKLMNOPQRSTUVWXYZ"

/-- `[a-zA-Z0-9-]` (crc.py:43); without IGNORECASE. -/
def idChar (c : Char) : Bool :=
  (decide ('a' ≤ c) && decide (c ≤ 'z')) || (decide ('A' ≤ c) && decide (c ≤ 'Z')) || (decide ('0' ≤ c) && decide (c ≤ '9')) ||
    decide (c = '-')

/-- `_idnum` (crc.py:43). -/
def idnumRe : Re := .rep (.chr idChar) 20 none

/-- The local variables of the loop of `guess_idnumber` (crc.py:58-64). -/
structure IdState where
  switchCount : Nat := 0
  switchLetterCount : Nat := 0
  letterCount : Nat := 0
  lastLetter : Option Char := none
  last : Nat := 1

/-- One iteration of the loop (crc.py:65-80). -/
def idStep (s : IdState) (c : Char) : IdState :=
  let r : Nat × IdState :=
    if idDigits.contains c then (0, s)
    else if idLetters.contains c then
      (1, { s with
        switchLetterCount := if some c ≠ s.lastLetter then s.switchLetterCount + 1 else s.switchLetterCount
        lastLetter := some c
        letterCount := s.letterCount + 1 })
    else (2, s)
  { r.2 with switchCount := if r.1 ≠ s.last then r.2.switchCount + 1 else r.2.switchCount, last := r.1 }

/-- The test of crc.py:84-87.  `a / b > 0.4` on floats is `5 * a > 2 * b`: the quotient of two integers below 2^49 is
correctly rounded, and differs from 2/5 by at least 1 / (5 b) when it is not equal to it. -/
def idProbable (text : Str) : Bool :=
  let s := text.foldl idStep {}
  decide (5 * s.switchCount > 2 * text.length) &&
    (if s.letterCount > 0 then decide (5 * s.switchLetterCount > 2 * s.letterCount) else true)

/-- `guess_idnumber` (crc.py:46-90): the spans. -/
def guessIdnumber (s : Str) : List (Nat × Nat) :=
  (idnumRe.findIter s).filter fun r => idProbable ((s.take r.2).drop r.1)

/-! ## country.py -/

/-- `str.strip()` without argument. -/
def Uni.strip (u : Uni) (s : Str) : Str := ((s.dropWhile u.space).reverse.dropWhile u.space).reverse

/-- `babelfish` as far as countries are concerned: `Country.fromguessit` (`none`: it raises `babelfish.Error`), and the
lower-cased name and alpha2 code of a country. -/
structure Countries where
  fromGuessit : Str → Option Nat
  name : Nat → Str
  alpha2 : Nat → Str

/-- `CountryFinder.__init__` and `find` (country.py:100-122).  `lower` of the allowed list is applied here as in the
constructor; the result is (start, end, country). -/
def findCountries (u : Uni) (b : Countries) (allowed commonWords : List Str) (s : Str) : List (Nat × Nat × Nat) :=
  (iterWords (u.lower (u.strip s))).filterMap fun w =>
    if commonWords.contains (u.lower w.2) then none
    else match b.fromGuessit w.2 with
      | none => none
      | some c =>
        if (allowed.map u.lower).contains (u.lower (b.name c)) || (allowed.map u.lower).contains (u.lower (b.alpha2 c)) then
          some (w.1.1, w.1.2, c)
        else none

/-! ## expected.py -/

/-- `for sep in seps: text = text.replace(sep, ' ')` (expected.py:44-46). -/
def sepsToSpaces (s : Str) : Str := seps.foldl (fun acc c => replaceChar c ' ' acc) s

/-- `str.find(sub, i)` (`f` positions left). -/
def findSubFrom (s sub : Str) : Nat → Nat → Option Nat
  | 0, _ => none
  | f + 1, i => if sub.isPrefixOf (s.drop i) then some i else findSubFrom s sub f (i + 1)

/-- `rebulk.utils.find_all` on texts already lower-cased, for a non-empty `sub`; `f` bounds the number of results. -/
def findSubsFrom (s sub : Str) : Nat → Nat → List Nat
  | 0, _ => []
  | f + 1, i => match findSubFrom s sub (s.length + 1 - i) i with
    | none => []
    | some j => j :: findSubsFrom s sub f (j + sub.length)

/-- `find_all(string, sub, ignore_case=True)`; `none`: the generator never ends (`sub` is empty: `start` never moves). -/
def findSubs (u : Uni) (s sub : Str) : Option (List Nat) :=
  if u.lower sub = [] then none else some (findSubsFrom (u.lower s) (u.lower sub) ((u.lower s).length + 1) 0)

/-- A result of the expected function: a span, and the value for a plain text. -/
structure Found3 where
  start : Nat
  stop : Nat
  value : Option Str
  deriving DecidableEq, Repr

/-- The entries of `expected` (expected.py:36-51) from the current `input_string` on; `rx pattern text` are the spans of
the regular expression `pattern` in `text` (third-party `Rebulk().regex(...)`).  `none`: never ends.  Note that the
replaced `input_string` is the one the following entries see. -/
def expectedFrom (u : Uni) (rx : Str → Str → List (Nat × Nat)) : Str → List Str → Option (List Found3)
  | _, [] => some []
  | input, search :: rest =>
    if c!"re:".isPrefixOf search then
      match expectedFrom u rx input rest with
      | none => none
      | some l => some ((rx (replaceChar ' ' '-' (search.drop 3)) input).map (fun r => ⟨r.1, r.2, none⟩) ++ l)
    else
      let input' := sepsToSpaces input
      let search' := sepsToSpaces search
      match findSubs u input' search', expectedFrom u rx input' rest with
      | some starts, some l =>
        some (starts.map (fun i =>
          ⟨i, i + search'.length, some ((input'.take (i + search'.length)).drop i)⟩) ++ l)
      | _, _ => none

/-! ## reutils.py -/

/-- `re.escape` (Python 3.7 and later): `_special_chars_map`. -/
def reSpecial : Str := c!"()[]{}?*+-|^$\\.&~# \t\n\r" ++ [Char.ofNat 11, Char.ofNat 12]
def reEscape (s : Str) : Str := s.flatMap fun c => if reSpecial.contains c then ['\\', c] else [c]

/-- The loop of `build_or_pattern` (reutils.py:24-34); `acc` is `''.join(or_pattern)`, `first` is `not or_pattern`. -/
def buildOrLoop (name : Option Str) (escape : Bool) : Bool → Str → List Str → Str
  | _, acc, [] => acc
  | first, acc, p :: ps =>
    let acc := if first then
        acc ++ c!"(?" ++ (match name with | some (c :: n) => c!"P<" ++ (c :: n) ++ c!">" | _ => c!":")
      else acc ++ c!"|"
    buildOrLoop name escape false (acc ++ (if escape then c!"(?:" ++ reEscape p ++ c!")" else p)) ps

/-- `build_or_pattern` (reutils.py:11-36). -/
def buildOrPattern (patterns : List Str) (name : Option Str) (escape : Bool) : Str :=
  buildOrLoop name escape true [] patterns ++ c!")"

end Guessit
