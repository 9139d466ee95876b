import Verif.Model.Recognise
import Verif.Spec.Numeral
import Verif.Spec.Text

/-! # What is recognised where (C113 and after) -/

namespace Guessit.Spec

/-- The character at `k` exists and satisfies `p`. -/
def CharAt (s : Str) (p : Char → Prop) (k : Nat) : Prop := ∃ c, s[k]? = some c ∧ p c

/-- Every character of `[i, j)` exists and satisfies `p`. -/
def AllOf (s : Str) (p : Char → Prop) (i j : Nat) : Prop := ∀ k, i ≤ k → k < j → CharAt s p k

/-- The text starts after a separator or at the start of the name. -/
def FreeBefore (s : Str) (i : Nat) : Prop := i = 0 ∨ CharAt s (· ∈ seps) (i - 1)
/-- The text ends before a separator or at the end of the name. -/
def FreeAfter (s : Str) (j : Nat) : Prop := s.length ≤ j ∨ CharAt s (· ∈ seps) j
/-- Both. -/
def Standing (s : Str) (i j : Nat) : Prop := FreeBefore s i ∧ FreeAfter s j

/-- A hexadecimal digit. -/
def Hex (c : Char) : Prop := c ∈ c!"0123456789abcdefABCDEF"

/-- A decimal digit. -/
def Digit (E : RxEnv) (c : Char) : Prop := E.u.isDigit c = true

/-- `[i, j)` is a number worth `n`: its digits, all of them digits. -/
structure Number (E : RxEnv) (s : Str) (i j : Nat) (n : Nat) : Prop where
  some : i < j
  digits : AllOf s (Digit E) i j
  value : n = digitsValue E.u (textOf s i j)

/-- The word `w`, in any case, stands at `i`. -/
def LiteralAt (E : RxEnv) (s : Str) (w : Str) (i : Nat) : Prop := ∀ k l, w[k]? = some l → CharAt s (fun c => E.same l c = true) (i + k)

/-- A word of letters. -/
def Lettered (w : Str) : Prop := w ≠ [] ∧ ∀ c ∈ w, c ∈ c!"abcdefghijklmnopqrstuvwxyz"

/-- No digit stands at `k`. -/
def NoDigitAt (E : RxEnv) (s : Str) (k : Nat) : Prop := ∀ c, s[k]? = some c → ¬ Digit E c

/-- Nothing or one separator that is not a slash, from `i` to `j`. -/
def MaybeSep (s : Str) (i j : Nat) : Prop := j = i ∨ (j = i + 1 ∧ CharAt s (fun c => c ∈ seps ∧ c ≠ '/' ∧ c ≠ '\\') i)

/-- `cd`, at most one separator that is not a slash, and all the digits of a number. -/
structure DiscAt (E : RxEnv) (s : Str) (i a b : Nat) : Prop where
  word : LiteralAt E s c!"cd" i
  sep : MaybeSep s (i + 2) a
  some : a < b
  digits : AllOf s (Digit E) a b
  last : NoDigitAt E s b

/-- `of`, with at most one separator on each side, and all the digits of a number. -/
structure OfAt (E : RxEnv) (s : Str) (b c d : Nat) : Prop where
  word : ∃ x, MaybeSep s b x ∧ LiteralAt E s c!"of" x ∧ MaybeSep s (x + 2) c
  some : c < d
  digits : AllOf s (Digit E) c d
  last : NoDigitAt E s d

/-- All the digits of a number, at most one separator, and `cd`. -/
structure CountedAt (E : RxEnv) (s : Str) (a b : Nat) : Prop where
  some : a < b
  digits : AllOf s (Digit E) a b
  first : a = 0 ∨ NoDigitAt E s (a - 1)
  word : ∃ x, MaybeSep s b x ∧ LiteralAt E s c!"cd" x

/-- Facts about Python's tables: on ASCII characters they are the usual ones, a letter is not a
digit, and no character is two letters. -/
structure Usual (E : RxEnv) : Prop where
  sane : Sane E.u
  digit : ∀ c : Char, c.toNat < 128 → E.u.digit c = if '0' ≤ c ∧ c ≤ '9' then some (c.toNat - 48) else none
  same : ∀ l ∈ c!"abcdefghijklmnopqrstuvwxyz", ∀ c : Char, c.toNat < 128 → (E.same l c = true ↔ c = l ∨ c = l.toUpper)
  apart : ∀ l ∈ c!"abcdefghijklmnopqrstuvwxyz", ∀ l' ∈ c!"abcdefghijklmnopqrstuvwxyz", ∀ c : Char, E.same l c = true → E.same l' c = true → l = l'
  letter : ∀ l ∈ c!"abcdefghijklmnopqrstuvwxyz", ∀ c : Char, E.same l c = true → E.u.isDigit c = false

/-! ## Parts (C118) -/

/-- The letters of number words, in both cases. -/
def wordLetters : Str := c!"abcdefghijklmnopqrstuvwxyzéABCDEFGHIJKLMNOPQRSTUVWXYZÉ"

/-- The upper-case form of one of them. -/
def upLetter (c : Char) : Char := if c = 'é' then 'É' else c.toUpper
/-- The lower-case form of one of them. -/
def lowLetter (c : Char) : Char := if c = 'É' then 'é' else c.toLower

/-- `str.upper`, `str.lower`, `str.split` and `int` treat these letters as letters. -/
structure Cased (u : Uni) : Prop where
  upper : ∀ t : Str, (∀ c ∈ t, c ∈ wordLetters) → u.upper t = t.map upLetter
  lower : ∀ t : Str, (∀ c ∈ t, c ∈ wordLetters) → u.lower t = t.map lowLetter
  space : ∀ c ∈ wordLetters, u.space c = false
  digit : ∀ c ∈ wordLetters, u.isDigit c = false

/-- In this text only the letters themselves count as letters (in Python this excludes the characters `ſ`, `ı`, `İ` and the sign
for Kelvin, which regular expressions take for `s`, `i`, `i` and `k` when they ignore case). -/
def PlainCase (E : RxEnv) (s : Str) : Prop :=
  ∀ c ∈ s, ∀ l ∈ c!"abcdefghijklmnopqrstuvwxyzé", E.same l c = true → c = l ∨ c = upLetter l

/-- `pt` or `part` at `i`, at most one separator that is not a slash, and then `a`. -/
def PartAt (E : RxEnv) (s : Str) (i a : Nat) : Prop :=
  (LiteralAt E s c!"pt" i ∧ MaybeSep s (i + 2) a) ∨ (LiteralAt E s c!"part" i ∧ MaybeSep s (i + 4) a)

/-- The word `w`, in any case, is written from `a` to `b`. -/
def Spelled (E : RxEnv) (s : Str) (w : Str) (a b : Nat) : Prop := b = a + w.length ∧ LiteralAt E s w a

/-- The number words that are recognised after `part`. -/
def partWords : List (Nat × List Str) :=
  [(1, [c!"one", c!"un"]), (2, [c!"two"]), (3, [c!"three", c!"trois"]), (4, [c!"four", c!"quatre"]), (5, [c!"five"]), (6, [c!"six"]),
   (7, [c!"seven", c!"sept"]), (8, [c!"eight", c!"huit"]), (9, [c!"nine", c!"neuf"]), (10, [c!"ten"]), (11, [c!"eleven", c!"onze"]),
   (12, [c!"twelve"]), (13, [c!"thirteen", c!"treize"]), (14, [c!"quatorze"]), (15, [c!"fifteen", c!"quinze"]), (16, [c!"seize"]),
   (20, [c!"twenty"])]

/-- `[a, b)` is the Roman numeral of `n`, or a number word for `n`. -/
def Worded (E : RxEnv) (s : Str) (a b n : Nat) : Prop :=
  Spelled E s ((roman n).map Char.toLower) a b ∨ ∃ ws, (n, ws) ∈ partWords ∧ ∃ w ∈ ws, Spelled E s w a b

end Guessit.Spec
