import Verif.Py

/-!
# guessit/rules/common: separators, formatters, words, pattern, validators
-/

namespace Guessit

/-- `seps` (rules/common/__init__.py:8); the raw literal contains two backslashes. -/
def seps : Str := c!" [](){}+*|=-_~#/\\\\.,;:"

/-- `seps_no_groups` (rules/common/__init__.py:9): the contiguous brackets removed. -/
def sepsNoGroups : Str := c!" +*|=-_~#/\\\\.,;:"

/-- `seps_no_fs` (rules/common/__init__.py:10). -/
def sepsNoFs : Str := seps.filter (fun c => c ≠ '/' ∧ c ≠ '\\')

/-- `title_seps` (rules/common/__init__.py:12). -/
def titleSeps : Str := c!"-+/\\|"

/-- `c in seps`. -/
def isSep (c : Char) : Bool := seps.contains c

/-- Python's `s[i]` for an integer index: negative indices count from the end, `none` is `IndexError`. -/
def pyAt (s : Str) (i : Int) : Option Char :=
  if 0 ≤ i then s[i.toNat]? else if 0 ≤ (s.length : Int) + i then s[((s.length : Int) + i).toNat]? else none

/-- Python's clamping of a slice bound. -/
def pyBound (n : Nat) (i : Int) : Nat := if i < 0 then ((n : Int) + i).toNat else min i.toNat n

/-- Python's `s[i:j]`. -/
def pySlice {α : Type} (s : List α) (i j : Int) : List α := (s.take (pyBound s.length j)).drop (pyBound s.length i)

/-- `s.replace(a, b)` for one-character strings. -/
def replaceChar (a b : Char) (s : Str) : Str := s.map fun c => if c = a then b else c

/-- `s.strip(chars)`. -/
def stripChars (chars : Str) (s : Str) : Str :=
  ((s.dropWhile chars.contains).reverse.dropWhile chars.contains).reverse

/-- `_excluded_clean_chars` (formatters.py:10). -/
def excludedCleanChars : Str := c!",:;-/\\"

/-- `clean_chars` (formatters.py:11-14). -/
def cleanChars : Str := seps.filter fun c => !excludedCleanChars.contains c

/-- `_potential_before` (formatters.py:17-28).  For `i = 1` the index `i - 2` is `-1`: the last character. -/
def potentialBefore (i : Nat) (s : Str) : Bool :=
  decide (1 ≤ i) && (pyAt s i).any isSep && (pyAt s (i - 2)).any isSep && (pyAt s (i - 1)).any (fun c => !isSep c)

/-- `_potential_after` (formatters.py:31-43). -/
def potentialAfter (i : Nat) (s : Str) : Bool :=
  decide (i + 2 ≥ s.length) || (decide (s[i + 2]? = s[i]?) && (s[i + 1]?).any (fun c => !isSep c))

/-- `for char in clean_chars: clean_string = clean_string.replace(char, ' ')` (formatters.py:57-59). -/
def cleanString (s : Str) : Str := cleanChars.foldl (fun acc c => replaceChar c ' ' acc) s

/-- `indices` (formatters.py:65). -/
def sepIndices (s : Str) : List Nat := (List.range s.length).filter fun i => (s[i]?).any isSep

/-- `potential_indices` (formatters.py:71-75). -/
def potentialIndices (s : Str) : List Nat :=
  (sepIndices (cleanString s)).filter fun i => potentialBefore i s && potentialAfter i s

/-- `replace_indices` (formatters.py:77-81). -/
def replaceIndices (s : Str) : List Nat :=
  (potentialIndices s).filter fun i =>
    (decide (2 ≤ i) && (potentialIndices s).contains (i - 2)) || (potentialIndices s).contains (i + 2)

/-- `dots` (formatters.py:85). -/
def dots (s : Str) : Str := (replaceIndices s).filterMap fun i => s[i]?

/-- `clean_list` after the restoration loop (formatters.py:83-87). -/
def restored (s : Str) : Str :=
  (replaceIndices s).foldl (fun l i => match s[i]? with | some c => l.set i c | none => l) (cleanString s)

/-- `re.sub(' +', ' ', s)` (formatters.py:91); `prev` tells whether the character before was a space. -/
def collapseFrom (prev : Bool) : Str → Str
  | [] => []
  | c :: s => if c = ' ' then (if prev then collapseFrom true s else ' ' :: collapseFrom true s) else c :: collapseFrom false s

def collapseSpaces (s : Str) : Str := collapseFrom false s

/-- `cleanup` (formatters.py:46-92). -/
def cleanup (s : Str) : Str :=
  collapseSpaces (stripChars (seps.filter fun c => !(dots s).contains c) (restored s))

/-- `strip` with its default characters (formatters.py:95-104). -/
def stripSeps (s : Str) : Str := stripChars seps s

/-- `raw_cleanup` (formatters.py:107-115): `formatters(cleanup, strip)(raw.lower())`.  `lower` is Python's `str.lower`. -/
def rawCleanup (lower : Str → Str) (raw : Str) : Str := stripSeps (cleanup (lower raw))

/-- The inner loop of `reorder_title` over separators, for one article. -/
def reorderWith (lower : Str → Str) (title article : Str) : List Str → Option Str
  | [] => none
  | sep :: rest =>
    let suffix := sep ++ article
    if pySlice (lower title) (-(suffix.length : Int)) (lower title).length = suffix then
      some (pySlice title (-(suffix.length : Int) + sep.length) title.length ++ c!" " ++
        pySlice title 0 (-(suffix.length : Int)))
    else reorderWith lower title article rest

/-- `reorder_title` (formatters.py:118-136).  Simplification: `s[-0:]` of Python (an empty suffix) is not special-cased
here because `pyBound` treats `0` as `0`, as Python does. -/
def reorderTitle (lower : Str → Str) (articles separators : List Str) (title : Str) : Str :=
  match articles with
  | [] => title
  | a :: rest => match reorderWith lower title a separators with
    | some t => t
    | none => reorderTitle lower rest separators title

/-- The generator of `iter_words` (words.py:13-34): `i` position, `lastSep` is `last_sep_index + 1`. -/
def iterWordsFrom (s : Str) (i lastSep : Nat) (inside : Bool) : Str → List ((Nat × Nat) × Str)
  | [] => if inside then [((lastSep, i), (s.take i).drop lastSep)] else []
  | c :: rest =>
    if c.toNat < 128 ∧ isSep c = true then
      if inside then ((lastSep, i), (s.take i).drop lastSep) :: iterWordsFrom s (i + 1) (i + 1) false rest
      else iterWordsFrom s (i + 1) (i + 1) false rest
    else iterWordsFrom s (i + 1) lastSep true rest

/-- `iter_words` (words.py:13-34). -/
def iterWords (s : Str) : List ((Nat × Nat) × Str) := iterWordsFrom s 0 0 false s

/-- `name in value` for the lists (or strings) given to `includes`/`excludes`. -/
def inOption (name : Str) : PyVal → Bool
  | .list xs => pyIn (.str name) xs
  | .str s => (List.range (s.length + 1)).any fun i => name.isPrefixOf (s.drop i)
  | .dict d => (Dict.get? d (.str name)).isSome
  | _ => false

/-- `is_disabled` (pattern.py:8-27).  Returned as a truth value (the callers only test it). -/
def isDisabled (context : Dict) (name : Str) : Bool :=
  if context.isEmpty then false
  else if truthy (context.getD (.str c!"excludes")) && inOption name (context.getD (.str c!"excludes")) then true
  else truthy (context.getD (.str c!"includes")) && !inOption name (context.getD (.str c!"includes"))

/-- `and_` (validators.py:31-51): validators may raise. -/
def vAnd {α : Type} : List (α → Except PyErr Bool) → α → Except PyErr Bool
  | [], _ => .ok true
  | v :: vs, x => match v x with
    | .error e => .error e
    | .ok false => .ok false
    | .ok true => vAnd vs x

/-- `or_` (validators.py:54-74). -/
def vOr {α : Type} : List (α → Except PyErr Bool) → α → Except PyErr Bool
  | [], _ => .ok false
  | v :: vs, x => match v x with
    | .error e => .error e
    | .ok true => .ok true
    | .ok false => vOr vs x

/-- rebulk `chars_before(chars, match)`: the character before the span, if any, is one of `chars`. -/
def charsBefore (chars input : Str) (start : Nat) : Bool :=
  if start = 0 then true else (input[start - 1]?).any chars.contains

/-- rebulk `chars_after(chars, match)`. -/
def charsAfter (chars input : Str) (stop : Nat) : Bool :=
  if stop ≥ input.length then true else (input[stop]?).any chars.contains

/-- `seps_surround` (validators.py:12). -/
def sepsSurround (input : Str) (start stop : Nat) : Bool := charsBefore seps input start && charsAfter seps input stop

end Guessit
