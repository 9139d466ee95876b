import Verif.Model.Finders

/-!
# guessit/rules/properties/language.py: `LanguageWord` and `LanguageFinder`

`babelfish` is outside the model: a language is a number, and `Languages` gives what the finder asks of it.
-/

namespace Guessit

/-- `babelfish`: `Language.fromguessit` (`none`: it raises `babelfish.Error`); the name and alpha2 code when the language
has them, the alpha3 code; the undetermined and the multiple language. -/
structure Languages where
  fromGuessit : Str → Option Nat
  name : Nat → Option Str
  alpha2 : Nat → Option Str
  alpha3 : Nat → Str
  und : Nat
  mul : Nat

/-- `LanguageWord` (language.py:140-152).  `input_string` is passed to the functions; `next` are the words after this
one: `next_word` is the first of them, whose own `next_word` is the second, and so on. -/
structure LWord where
  start : Nat
  stop : Nat
  value : Str
  next : List ((Nat × Nat) × Str)
  deriving DecidableEq, Repr

/-- `word.next_word`. -/
def LWord.nextWord (w : LWord) : Option LWord := match w.next with
  | [] => none
  | v :: rest => some ⟨v.1.1, v.1.2, v.2, rest⟩

/-- `extended_word` (language.py:154-166). -/
def LWord.extended (input : Str) (w : LWord) : Option LWord := match w.nextWord with
  | none => none
  | some n =>
    let separator := (input.take n.start).drop w.stop
    let nextSeparator := (input.take (n.stop + 1)).drop n.stop
    if (separator = c!"-" ∧ separator ≠ nextSeparator) ∨ separator = c!" " ∨ separator = c!"." then
      some ⟨w.start, n.stop, replaceChar '.' ' ' ((input.take n.stop).drop w.start), n.next⟩
    else none

/-- `_LanguageMatch` (language.py:137). -/
structure LMatch where
  prop : Str
  word : LWord
  lang : Nat
  deriving DecidableEq, Repr

/-- `LanguageFinder.__init__` (language.py:199-213): the attributes. -/
structure LFinder where
  allowed : List Str
  weak : List Str
  prefixes : List (Str × List Str)
  suffixes : List (Str × List Str)

/-- `LanguageFinder.__init__`; `subtitleDisabled` is `is_disabled(context, 'subtitle_language')`. -/
def mkFinder (u : Uni) (allowedOption : List Str) (subtitleDisabled : Bool)
    (subPrefixes subSuffixes langPrefixes langSuffixes weak : List Str) : LFinder :=
  { allowed := allowedOption.map u.lower
    weak := weak
    prefixes := (if subtitleDisabled then [] else [(c!"subtitle_language", subPrefixes)]) ++ [(c!"language", langPrefixes)]
    suffixes := (if subtitleDisabled then [] else [(c!"subtitle_language", subSuffixes)]) ++ [(c!"language", langSuffixes)] }

/-- `parse_language` (language.py:347-361). -/
def parseLanguage (u : Uni) (b : Languages) (f : LFinder) (w : Str) : Option Nat := match b.fromGuessit w with
  | none => none
  | some l =>
    if (b.name l).any (fun n => f.allowed.contains (u.lower n)) || (b.alpha2 l).any (fun n => f.allowed.contains (u.lower n)) ||
        f.allowed.contains (u.lower (b.alpha3 l)) then some l
    else none

/-- `create_language_match` (language.py:338-345). -/
def createMatch (u : Uni) (b : Languages) (f : LFinder) (key : Str) (w : LWord) : Option LMatch :=
  (parseLanguage u b f (u.lower w.value)).map fun l => ⟨key, w, l⟩

/-- `find_language_match_for_word` (language.py:328-336). -/
def findWord (u : Uni) (b : Languages) (f : LFinder) (input : Str) (key : Str) (w : LWord) : Option LMatch :=
  match (w.extended input).bind (createMatch u b f key) with
  | some m => some m
  | none => createMatch u b f key w

/-- `abs(a - b) <= 1`. -/
def near (a b : Nat) : Bool := decide (a ≤ b + 1) && decide (b ≤ a + 1)

/-- The body of the innermost loop of `find_match_for_word` (language.py:307-325): the match for one affix. -/
def affixMatch (u : Uni) (b : Languages) (f : LFinder) (input : Str) (isAffix : Str → Str → Bool) (stripAffix : Str → Str → Str)
    (word : LWord) (fallback : Option LWord) (cur : LWord) (key part : Str) : Option LMatch :=
  let wordLang := u.lower cur.value
  if !isAffix wordLang part then none
  else
    let value := stripAffix wordLang part
    if value = [] then
      let m := match fallback with
        | some fb => if near fb.start word.stop || near word.start fb.stop then findWord u b f input key fb else none
        | none => none
      match m with
      | some m => some m
      | none => if f.weak.contains part then none else createMatch u b f key ⟨cur.start, cur.stop, c!"und", []⟩
    else createMatch u b f key ⟨cur.start, cur.stop, value, []⟩

/-- The first result of a loop. -/
def firstSome {α β : Type} (g : α → Option β) : List α → Option β
  | [] => none
  | a :: l => match g a with
    | some b => some b
    | none => firstSome g l

/-- `find_match_for_word` (language.py:295-326). -/
def findAffixed (u : Uni) (b : Languages) (f : LFinder) (input : Str) (affixes : List (Str × List Str))
    (isAffix : Str → Str → Bool) (stripAffix : Str → Str → Str) (word : LWord) (fallback : Option LWord) : Option LMatch :=
  firstSome (fun cur => firstSome (fun e => firstSome (fun part =>
      affixMatch u b f input isAffix stripAffix word fallback cur e.1 part) e.2) affixes)
    ((word.extended input).toList ++ [word])

/-- `iter_matches_for_candidate` (language.py:268-293). -/
def candidateMatches (u : Uni) (b : Languages) (f : LFinder) (input : Str) (w : LWord) : List LMatch :=
  (findAffixed u b f input f.prefixes (fun s p => p.isPrefixOf s) (fun s p => s.drop p.length) w w.nextWord).toList ++
  ((w.nextWord).bind fun n =>
    findAffixed u b f input f.suffixes (fun s p => p.isSuffixOf s) (fun s p => s.take (s.length - p.length)) n (some w)).toList ++
  (findWord u b f input c!"language" w).toList

/-- The candidates of `iter_language_matches` (language.py:253-262): every word, linked to its successors. -/
def candidatesOf : List ((Nat × Nat) × Str) → List LWord
  | [] => []
  | w :: rest => ⟨w.1.1, w.1.2, w.2, rest⟩ :: candidatesOf rest

/-- `iter_language_matches` (language.py:249-266). -/
def languageMatches (u : Uni) (b : Languages) (f : LFinder) (input : Str) : List LMatch :=
  (candidatesOf (iterWords input)).flatMap (candidateMatches u b f input)

/-- `to_rebulk_match` (language.py:172-192): start, end, name, the language or (for the undetermined one) the text of the
word, tags. -/
structure LOut where
  start : Nat
  stop : Nat
  name : Str
  value : Nat ⊕ Str
  tags : List Str
  deriving DecidableEq, Repr

def toOut (u : Uni) (b : Languages) (m : LMatch) : LOut :=
  if m.lang = b.und then ⟨m.word.start, m.word.stop, m.prop, .inr (u.lower m.word.value), [c!"weak-language"]⟩
  else ⟨m.word.start, m.word.stop, m.prop, .inl m.lang, []⟩

/-- `defaultdict(set)` with `map[key].add(value)`: the keys in order of first insertion.  The sets are lists here: which
equal matches are merged, and in which order a set is iterated, is not modelled. -/
def addTo (key : Str) (m : LMatch) : List (Str × List LMatch) → List (Str × List LMatch)
  | [] => [(key, [m])]
  | (k, ms) :: rest => if k = key then (k, ms ++ [m]) :: rest else (k, ms) :: addTo key m rest

/-- The three maps of `find` (language.py:222-233). -/
structure LMaps where
  regular : List (Str × List LMatch) := []
  undetermined : List (Str × List LMatch) := []
  multi : List (Str × List LMatch) := []

def addMatch (b : Languages) (maps : LMaps) (m : LMatch) : LMaps :=
  if m.lang = b.und then { maps with undetermined := addTo m.prop m maps.undetermined }
  else if m.lang = b.mul then { maps with multi := addTo m.prop m maps.multi }
  else { maps with regular := addTo m.prop m maps.regular }

def hasKey (l : List (Str × List LMatch)) (k : Str) : Bool := l.any fun e => decide (e.1 = k)

/-- `LanguageFinder.find` (language.py:215-247). -/
def findLanguages (u : Uni) (b : Languages) (f : LFinder) (input : Str) : List LOut :=
  let maps := (languageMatches u b f input).foldl (addMatch b) {}
  ((maps.multi.flatMap fun e => if hasKey maps.regular e.1 || !hasKey maps.undetermined e.1 then e.2 else []) ++
   (maps.undetermined.flatMap fun e => if !hasKey maps.regular e.1 then e.2 else []) ++
   (maps.regular.flatMap fun e => e.2)).map (toOut u b)

end Guessit
