import Verif.Model.Numeral
import Mathlib.Data.List.SplitOn

/-!
# Specification of numerals (C25, C26)
-/

namespace Guessit.Spec

/-- One decimal digit in Roman numerals, from the signs for one, five and ten. -/
def romanDigit (one five ten : Char) : Nat → Str
  | 0 => []
  | 1 => [one]
  | 2 => [one, one]
  | 3 => [one, one, one]
  | 4 => [one, five]
  | 5 => [five]
  | 6 => [five, one]
  | 7 => [five, one, one]
  | 8 => [five, one, one, one]
  | 9 => [one, ten]
  | _ => []

/-- The canonical Roman numeral of `n < 5000`. -/
def roman (n : Nat) : Str :=
  List.replicate (n / 1000) 'M' ++ romanDigit 'C' 'D' 'M' (n / 100 % 10) ++ romanDigit 'X' 'L' 'C' (n / 10 % 10) ++
    romanDigit 'I' 'V' 'X' (n % 10)

/-- The English and French number words, with the French feminine and unhyphenated or unaccented spellings. -/
def wordTable : List (Nat × List Str) :=
  [(0, [c!"zero", c!"zéro"]), (1, [c!"one", c!"un", c!"une"]), (2, [c!"two", c!"deux"]), (3, [c!"three", c!"trois"]),
   (4, [c!"four", c!"quatre"]), (5, [c!"five", c!"cinq"]), (6, [c!"six"]), (7, [c!"seven", c!"sept"]),
   (8, [c!"eight", c!"huit"]), (9, [c!"nine", c!"neuf"]), (10, [c!"ten", c!"dix"]), (11, [c!"eleven", c!"onze"]),
   (12, [c!"twelve", c!"douze"]), (13, [c!"thirteen", c!"treize"]), (14, [c!"fourteen", c!"quatorze"]),
   (15, [c!"fifteen", c!"quinze"]), (16, [c!"sixteen", c!"seize"]), (17, [c!"seventeen", c!"dix-sept", c!"dixsept"]),
   (18, [c!"eighteen", c!"dix-huit", c!"dixhuit"]), (19, [c!"nineteen", c!"dix-neuf", c!"dixneuf"]),
   (20, [c!"twenty", c!"vingt"])]

/-- Facts about Python's character tables used by the numeral properties; `asciiUni` satisfies them. -/
structure Sane (u : Uni) : Prop where
  digit_space : ∀ c, (u.digit c).isSome → u.space c = false
  minus : u.digit '-' = none
  plus : u.digit '+' = none
  newline : u.space '\n' = true
  signs : ∀ c ∈ c!"MCDLXVI", u.space c = false
  upper_signs : ∀ w : Str, (∀ c ∈ w, c ∈ c!"MCDLXVI") → u.upper w = w
  lower_space : ∀ w : Str, (∃ c ∈ w, u.space c = true) → ∃ c ∈ u.lower w, u.space c = true
  lower_nil : u.lower [] = []
  words_space : ∀ e ∈ wordTable, ∀ w ∈ e.2, ∀ c ∈ w, u.space c = false

/-- The words of a text: its maximal stretches without white space. -/
def wordsOf (u : Uni) (s : Str) : List Str := (s.splitOnP u.space).filter (fun w => !w.isEmpty)

/-- `w` is a number word for `n`. -/
def WordNumber (w : Str) (n : Nat) : Prop := ∃ ws, (n, ws) ∈ wordTable ∧ w ∈ ws

/-- `w`, in any case, is a Roman numeral worth `n`. -/
def IsRoman (u : Uni) (w : Str) (n : Nat) : Prop := 1 ≤ n ∧ n < 5000 ∧ u.upper w = roman n

/-- `w` is a number word worth `n`. -/
def IsWord (u : Uni) (w : Str) (n : Nat) : Prop := WordNumber (u.lower w) n

/-- `n` is the value of the first word of `ws` that has one. -/
def FirstValue (value : Str → Nat → Prop) (ws : List Str) (n : Nat) : Prop :=
  ∃ pre w post, ws = pre ++ w :: post ∧ value w n ∧ ∀ x ∈ pre, ∀ m, ¬ value x m

/-- The documented reading of a numeral: the first run of digits; without digits, the first Roman word; without either,
the first number word. -/
inductive Reading (u : Uni) (value : Str) : Int → Prop
  | digits (pre ds post : Str) : value = pre ++ ds ++ post → (∀ c ∈ pre, u.isDigit c = false) → ds ≠ [] →
      (∀ c ∈ ds, u.isDigit c = true) → (∀ c, post.head? = some c → u.isDigit c = false) →
      Reading u value (digitsValue u ds)
  | roman (n : Nat) : (∀ c ∈ value, u.isDigit c = false) → FirstValue (IsRoman u) (wordsOf u value) n → Reading u value n
  | word (n : Nat) : (∀ c ∈ value, u.isDigit c = false) → (∀ w ∈ wordsOf u value, ∀ m, ¬ IsRoman u w m) →
      FirstValue (IsWord u) (wordsOf u value) n → Reading u value n

end Guessit.Spec
