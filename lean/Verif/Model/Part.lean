import Verif.Model.Recognise

/-! # guessit/rules/properties/part.py -/

namespace Guessit

/-- The abbreviation `dash` applied to a literal: `-` stands for any separator but the slashes. -/
def RxEnv.dashed (E : RxEnv) : RxEnv := { E with same := fun l c => if l = '-' then sepsNoFs.contains c else E.same l c }

/-- One decimal position of `roman_numeral` (numeral.py:10) under `re.IGNORECASE`: `(?:CM|CD|D?C{0,3})`. -/
def RxEnv.romanPlace (E : RxEnv) (o f t : Char) : Re :=
  .alts [E.word [o, t], E.word [o, f], .seq (.rep (E.letter f) 0 (some 1)) (.rep (E.letter o) 0 (some 3))]

/-- `roman_numeral` (numeral.py:10) under `re.IGNORECASE`. -/
def RxEnv.romanNumeral (E : RxEnv) : Re :=
  .cat [.look (.rep (.chr fun c => c!"mcdlxvi".any fun l => E.same l c) 1 none), .rep (E.letter 'm') 0 (some 4),
    E.romanPlace 'c' 'd' 'm', E.romanPlace 'x' 'l' 'c', E.romanPlace 'i' 'v' 'x']

/-- `__build_word_numeral` (numeral.py:28-46) applied to the three lists (numeral.py:46).  The `(?=\w+)` it writes before the
first word only guards that word, whose first letter satisfies it, and is left out. -/
def RxEnv.wordNumeral (E : RxEnv) : Re := E.dashed.words (englishWords ++ frenchWords ++ frenchAltWords)

/-- `numeral` (numeral.py:48): `\d{1,4}`, a Roman numeral or a number word. -/
def RxEnv.numeral (E : RxEnv) : Re := .alts [.rep E.digit 1 (some 4), E.romanNumeral, E.wordNumeral]

/-- `int_coercable` (rules/common/validators.py:16-29). -/
def intCoercable (u : Uni) (text : Str) : Bool := match pyInt u text with
  | .ok _ => true
  | .error _ => false

/-- The pattern of part.py:44-46; the child's validator is `and_(validate_roman, lambda m: 0 < m.value < 100)` (part.py:31-42). -/
def partPattern (E : RxEnv) (prefixes : List Str) : RxPattern Int :=
  { re := .cat [E.words prefixes, dashRe, .grp 1 E.numeral], name := [], groups := [(1, c!"part")], children := true, validateAll := true,
    format := fun _ t => parseNumeral E.u t true true true true, parentValid := surrounded,
    childValid := fun s m => (intCoercable E.u ((s.take m.stop).drop m.start) || surrounded s m) && valueIs underHundred m }

/-- `prefixes` in options.json. -/
def partPrefixes : List Str := [c!"pt", c!"part"]

end Guessit
