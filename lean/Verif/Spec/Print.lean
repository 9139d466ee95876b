import Verif.Model.Print

/-!
# Reading JSON (RFC 8259), and what a guess looks like in JSON
-/

namespace Guessit.Spec

open Guessit

/-- JSON white space. -/
def jsonBlank (c : Char) : Bool := c = ' ' || c = '\t' || c = '\n' || c = '\r'

/-- The text after its leading white space. -/
def skipBlank (s : Str) : Str := s.dropWhile jsonBlank

/-- The value of a hexadecimal digit. -/
def hexVal (c : Char) : Option Nat :=
  if '0' ≤ c ∧ c ≤ '9' then some (c.toNat - 48)
  else if 'a' ≤ c ∧ c ≤ 'f' then some (c.toNat - 87)
  else if 'A' ≤ c ∧ c ≤ 'F' then some (c.toNat - 55)
  else none

/-- The character of `\uXXXX`; surrogates (halves of a pair) are refused. -/
def hexChar (a b c d : Char) : Option Char :=
  match hexVal a, hexVal b, hexVal c, hexVal d with
  | some x, some y, some z, some t =>
    let n := ((x * 16 + y) * 16 + z) * 16 + t
    if 0xD800 ≤ n ∧ n ≤ 0xDFFF then none else some (Char.ofNat n)
  | _, _, _, _ => none

/-- The two-character escapes. -/
def escapeOf (c : Char) : Option Char :=
  if c = '"' then some '"'
  else if c = '\\' then some '\\'
  else if c = '/' then some '/'
  else if c = 'b' then some (Char.ofNat 8)
  else if c = 'f' then some (Char.ofNat 12)
  else if c = 'n' then some '\n'
  else if c = 'r' then some '\r'
  else if c = 't' then some '\t'
  else none

/-- A character in front of what was read. -/
def putFirst (c : Char) (r : Option (Str × Str)) : Option (Str × Str) := r.map fun p => (c :: p.1, p.2)

/-- A string, after its opening quote: the string, and what follows the closing quote. -/
def readString : Str → Option (Str × Str)
  | [] => none
  | '"' :: r => some ([], r)
  | '\\' :: 'u' :: a :: b :: c :: d :: r => match hexChar a b c d with
    | none => none
    | some x => putFirst x (readString r)
  | '\\' :: e :: r => match escapeOf e with
    | none => none
    | some x => putFirst x (readString r)
  | c :: r => if c.toNat < 32 then none else putFirst c (readString r)

/-- A decimal digit. -/
def decDigit (c : Char) : Bool := '0' ≤ c && c ≤ '9'

/-- Digits after an optional sign. -/
def isSigned : Str → Bool
  | '+' :: ds => !ds.isEmpty && ds.all decDigit
  | '-' :: ds => !ds.isEmpty && ds.all decDigit
  | ds => !ds.isEmpty && ds.all decDigit

/-- `exp`, or nothing. -/
def isExp : Str → Bool
  | [] => true
  | e :: r => (e = 'e' || e = 'E') && isSigned r

/-- `frac` and `exp`, or less. -/
def isFrac : Str → Bool
  | '.' :: r => !(r.takeWhile decDigit).isEmpty && isExp (r.dropWhile decDigit)
  | r => isExp r

/-- A number without sign. -/
def isUnsigned (t : Str) : Bool :=
  (t.takeWhile decDigit = ['0'] || (match t.takeWhile decDigit with | [] => false | c :: _ => c ≠ '0')) && isFrac (t.dropWhile decDigit)

/-- A number. -/
def isNumber : Str → Bool
  | '-' :: t => isUnsigned t
  | t => isUnsigned t

/-- The characters of numbers. -/
def numChar (c : Char) : Bool := decDigit c || c = '-' || c = '+' || c = '.' || c = 'e' || c = 'E'

/-- A number, or one of the three words. -/
def readWord (s : Str) : Option (Json × Str) :=
  if (c!"null").isPrefixOf s then some (.null, s.drop 4)
  else if (c!"true").isPrefixOf s then some (.bool true, s.drop 4)
  else if (c!"false").isPrefixOf s then some (.bool false, s.drop 5)
  else if isNumber (s.takeWhile numChar) then some (.num (s.takeWhile numChar), s.dropWhile numChar)
  else none

mutual
/-- A value: the value, and what follows it.  The number bounds the depth of calls. -/
def readValue : Nat → Str → Option (Json × Str)
  | 0, _ => none
  | f + 1, s => match skipBlank s with
    | '"' :: r => match readString r with
      | none => none
      | some (t, r') => some (.str t, r')
    | '[' :: r => match skipBlank r with
      | ']' :: r' => some (.arr [], r')
      | r' => match readItems f r' with
        | none => none
        | some (xs, r'') => some (.arr xs, r'')
    | '{' :: r => match skipBlank r with
      | '}' :: r' => some (.obj [], r')
      | r' => match readEntries f r' with
        | none => none
        | some (es, r'') => some (.obj es, r'')
    | s' => readWord s'
/-- Items separated by commas, and the closing bracket. -/
def readItems : Nat → Str → Option (List Json × Str)
  | 0, _ => none
  | f + 1, s => match readValue f s with
    | none => none
    | some (x, r) => match skipBlank r with
      | ']' :: r' => some ([x], r')
      | ',' :: r' => match readItems f r' with
        | none => none
        | some (xs, r'') => some (x :: xs, r'')
      | _ => none
/-- Entries separated by commas, and the closing brace. -/
def readEntries : Nat → Str → Option (List (Str × Json) × Str)
  | 0, _ => none
  | f + 1, s => match skipBlank s with
    | '"' :: r => match readString r with
      | none => none
      | some (k, r') => match skipBlank r' with
        | ':' :: r1 => match readValue f r1 with
          | none => none
          | some (x, r2) => match skipBlank r2 with
            | '}' :: r3 => some ([(k, x)], r3)
            | ',' :: r3 => match readEntries f r3 with
              | none => none
              | some (es, r4) => some ((k, x) :: es, r4)
            | _ => none
        | _ => none
    | _ => none
end

/-- A whole text as a JSON document. -/
def readJson (s : Str) : Option Json := match readValue (s.length + 1) s with
  | none => none
  | some (j, r) => if skipBlank r = [] then some j else none

/-- What a JSON reader gets for a value of a guess: text, numbers, lists and dictionaries as they are; floats as numbers, other
objects by their name if they have one (languages, countries), else as text (dates, sizes). -/
inductive InJson (sh : Shown) : PyVal → Json → Prop
  | none : InJson sh .none .null
  | bool (b) : InJson sh (.bool b) (.bool b)
  | int (n) : InJson sh (.int n) (.num (intText n))
  | str (s) : InJson sh (.str s) (.str s)
  | bytes (b) : InJson sh (.bytes b) (.str (sh.bytesText b))
  | float (o t) : sh.float o = some t → InJson sh (.other o) (.num t)
  | named (o t) : sh.float o = Option.none → sh.name o = some t → InJson sh (.other o) (.str t)
  | object (o) : sh.float o = Option.none → sh.name o = Option.none → InJson sh (.other o) (.str (sh.text o))
  | list (xs js) : xs.length = js.length → (∀ p ∈ xs.zip js, InJson sh p.1 p.2) → InJson sh (.list xs) (.arr js)
  | dict (kvs) (js : List (Str × Json)) : kvs.map Prod.fst = js.map (fun e => Key.str e.1) →
      (∀ p ∈ (kvs.map Prod.snd).zip (js.map Prod.snd), InJson sh p.1 p.2) → InJson sh (.dict kvs) (.obj js)

/-- No dictionary in the value has a key that is not text. -/
inductive TextKeys : PyVal → Prop
  | none : TextKeys .none
  | bool (b) : TextKeys (.bool b)
  | int (n) : TextKeys (.int n)
  | str (s) : TextKeys (.str s)
  | bytes (b) : TextKeys (.bytes b)
  | other (o) : TextKeys (.other o)
  | list (xs) : (∀ x ∈ xs, TextKeys x) → TextKeys (.list xs)
  | dict (kvs) : (∀ e ∈ kvs, ∃ k, e.1 = Key.str k) → (∀ e ∈ kvs, TextKeys e.2) → TextKeys (.dict kvs)

/-- The value of decimal digits. -/
def decimalNat (ds : Str) : Nat := ds.foldl (fun n c => n * 10 + (c.toNat - 48)) 0

/-- The value of an integer in decimal notation. -/
def decimal : Str → Int
  | '-' :: ds => -(decimalNat ds : Int)
  | ds => decimalNat ds

/-- A JSON reader gets the value from the text. -/
def ReadsAs (sh : Shown) (t : Str) (v : PyVal) : Prop := ∃ j, readJson t = some j ∧ InJson sh v j

/-- The floats are printed as numbers. -/
def Numeric (sh : Shown) : Prop := ∀ o t, sh.float o = some t → isNumber t = true

/-- The text is one line, whatever ends lines: it has no control characters. -/
def OneLine (t : Str) : Prop := ∀ c ∈ t, 32 ≤ c.toNat

/-- The option is given and is not empty or false. -/
def Asked (options : Dict) (name : Str) : Prop := ∃ v, options.get? (.str name) = some v ∧ truthy v = true

/-- What Python's `print` shows of a value. -/
inductive Displays (sh : Shown) : PyVal → Str → Prop
  | none : Displays sh .none c!"None"
  | yes : Displays sh (.bool true) c!"True"
  | no : Displays sh (.bool false) c!"False"
  | int (n t) : isNumber t = true → decimal t = n → t = intText n → Displays sh (.int n) t
  | str (s) : Displays sh (.str s) s
  | bytes (b) : Displays sh (.bytes b) (sh.bytesText b)
  | float (o t) : sh.float o = some t → Displays sh (.other o) t
  | object (o) : sh.float o = Option.none → Displays sh (.other o) (sh.text o)
  | list (xs) : Displays sh (.list xs) (sh.containerText (.list xs))
  | dict (kvs) : Displays sh (.dict kvs) (sh.containerText (.dict kvs))

end Guessit.Spec
