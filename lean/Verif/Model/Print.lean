import Verif.Model.Cli
import Verif.Model.Quantity

/-!
# What the command prints: guessit/jsonutils.py, guessit/__main__.py:21-91

`json.dumps` of the standard library is modelled with the options guessit passes (`ensure_ascii=False`, with and without
`indent=4`); `yaml.dump`, `str` of a list and the attributes of opaque objects are parameters.
-/

namespace Guessit

/-- A JSON document; numbers are kept as the text they are written with. -/
inductive Json where
  | null
  | bool (b : Bool)
  | num (text : Str)
  | str (s : Str)
  | arr (xs : List Json)
  | obj (kvs : List (Str × Json))
  deriving Repr

/-- How opaque values (languages, countries, dates, quantities, floats) present themselves. -/
structure Shown where
  /-- `float.__repr__(o)` when the value is a float -/
  float : Nat → Option Str
  /-- `str(o.name)` when the value has a `name` -/
  name : Nat → Option Str
  /-- `str(o)` -/
  text : Nat → Str
  /-- `str(b)` of bytes -/
  bytesText : List UInt8 → Str
  /-- `str(v)` of lists and dictionaries -/
  containerText : PyVal → Str

/-- `GuessitEncoder.default` (jsonutils.py:16-22) on a value that is not a match. -/
def encoderDefault (sh : Shown) (o : Nat) : Str := match sh.name o with
  | some n => n
  | none => sh.text o

mutual
/-- What `json.dumps(value, cls=GuessitEncoder)` encodes: bytes and opaque objects go through `GuessitEncoder.default`
(jsonutils.py:16-22), bytes as keys are refused (`TypeError`). -/
def jsonOf (sh : Shown) : PyVal → Except PyErr Json
  | .none => .ok .null
  | .bool b => .ok (.bool b)
  | .int n => .ok (.num (intText n))
  | .str s => .ok (.str s)
  | .bytes b => .ok (.str (sh.bytesText b))
  | .other o => match sh.float o with
    | some t => .ok (.num t)
    | none => .ok (.str (encoderDefault sh o))
  | .list xs => match jsonOfList sh xs with
    | .error e => .error e
    | .ok js => .ok (.arr js)
  | .dict kvs => match jsonOfItems sh kvs with
    | .error e => .error e
    | .ok js => .ok (.obj js)
termination_by structural v => v
/-- The items of a list. -/
def jsonOfList (sh : Shown) : List PyVal → Except PyErr (List Json)
  | [] => .ok []
  | x :: xs => match jsonOf sh x with
    | .error e => .error e
    | .ok j => match jsonOfList sh xs with
      | .error e => .error e
      | .ok js => .ok (j :: js)
termination_by structural l => l
/-- The entries of a dictionary. -/
def jsonOfItems (sh : Shown) : List (Key × PyVal) → Except PyErr (List (Str × Json))
  | [] => .ok []
  | e :: rest => match jsonOfItem sh e with
    | .error e => .error e
    | .ok p => match jsonOfItems sh rest with
      | .error e => .error e
      | .ok ps => .ok (p :: ps)
termination_by structural l => l
/-- One entry. -/
def jsonOfItem (sh : Shown) : Key × PyVal → Except PyErr (Str × Json)
  | (.bytes _, _) => .error .typeError
  | (.str k, v) => match jsonOf sh v with
    | .error e => .error e
    | .ok j => .ok (k, j)
termination_by structural e => e
end

/-- A digit of `'\\u{0:04x}'`. -/
def hexDigit (n : Nat) : Char := if n < 10 then Char.ofNat (48 + n) else Char.ofNat (87 + n)

/-- `ESCAPE_DCT` and `'\\u{0:04x}'` of the standard `json.encoder`, for `ensure_ascii=False`. -/
def escapeChar (c : Char) : Str :=
  if c = '"' then c!"\\\""
  else if c = '\\' then c!"\\\\"
  else if c = '\n' then c!"\\n"
  else if c = '\r' then c!"\\r"
  else if c = '\t' then c!"\\t"
  else if c.toNat = 8 then c!"\\b"
  else if c.toNat = 12 then c!"\\f"
  else if c.toNat < 32 then c!"\\u00" ++ [hexDigit (c.toNat / 16), hexDigit (c.toNat % 16)]
  else [c]

/-- A text in quotes. -/
def quote (s : Str) : Str := '"' :: (s.flatMap escapeChar ++ ['"'])

/-- Where the parts of a document go: what follows an opening bracket, a comma, and what precedes a closing bracket, at a depth. -/
structure Layout where
  inner : Nat → Str
  between : Nat → Str
  last : Nat → Str

/-- The default of `json.dumps`. -/
def compact : Layout := ⟨fun _ => [], fun _ => c!" ", fun _ => []⟩

/-- `indent=4` (the separator after an item is then a bare comma). -/
def indented : Layout :=
  ⟨fun d => '\n' :: List.replicate (4 * (d + 1)) ' ', fun d => '\n' :: List.replicate (4 * (d + 1)) ' ',
    fun d => '\n' :: List.replicate (4 * d) ' '⟩

mutual
/-- The text of a document at a depth. -/
def render (L : Layout) (d : Nat) : Json → Str
  | .null => c!"null"
  | .bool true => c!"true"
  | .bool false => c!"false"
  | .num t => t
  | .str s => quote s
  | .arr [] => c!"[]"
  | .arr (x :: xs) => '[' :: (L.inner d ++ render L (d + 1) x ++ renderList L d xs)
  | .obj [] => c!"{}"
  | .obj (e :: es) => '{' :: (L.inner d ++ renderEntry L d e ++ renderItems L d es)
termination_by structural j => j
/-- The items after the first, and the closing bracket. -/
def renderList (L : Layout) (d : Nat) : List Json → Str
  | [] => L.last d ++ c!"]"
  | x :: xs => ',' :: (L.between d ++ render L (d + 1) x ++ renderList L d xs)
termination_by structural l => l
/-- The entries after the first, and the closing brace. -/
def renderItems (L : Layout) (d : Nat) : List (Str × Json) → Str
  | [] => L.last d ++ c!"}"
  | e :: es => ',' :: (L.between d ++ renderEntry L d e ++ renderItems L d es)
termination_by structural l => l
/-- `key: value`. -/
def renderEntry (L : Layout) (d : Nat) : Str × Json → Str
  | (k, v) => quote k ++ c!": " ++ render L (d + 1) v
termination_by structural e => e
end

/-- `json.dumps(value, cls=GuessitEncoder, ensure_ascii=False)`, with `indent=4` or not (__main__.py:42, 59, 70, 72). -/
def jsonDumps (sh : Shown) (L : Layout) (v : PyVal) : Except PyErr Str :=
  match jsonOf sh v with
  | .error e => .error e
  | .ok j => .ok (render L 0 j)

/-- `str(value)`, as `print` uses it. -/
def pyStr (sh : Shown) : PyVal → Str
  | .none => c!"None"
  | .bool true => c!"True"
  | .bool false => c!"False"
  | .int n => intText n
  | .str s => s
  | .bytes b => sh.bytesText b
  | .other o => match sh.float o with
    | some t => t
    | none => sh.text o
  | v => sh.containerText v

/-- The loop over the lines of the YAML document (__main__.py:50-57): the first loses its last character and gets `? `, the
first character of the second becomes `:`. -/
def yamlLines : List Str → List Str
  | [] => []
  | [l] => [c!"? " ++ l.dropLast]
  | l :: m :: rest => (c!"? " ++ l.dropLast) :: (c!":" ++ m.drop 1) :: rest

/-- Everything printed is written with this. -/
structure Writer where
  shown : Shown
  /-- `yaml.dump({filename: guess}, …).splitlines()` -/
  yamlGuess : Str → Dict → List Str
  /-- `yaml.dump(value, …)` -/
  yamlDump : PyVal → Str

/-- The heading printed before guessing (__main__.py:31-32). -/
def guessHead (options : Dict) (name : Str) : List Str :=
  if !truthy (options.getD (.str c!"yaml")) && !truthy (options.getD (.str c!"json")) &&
    !truthy (options.getD (.str c!"show_property")) then [c!"For: " ++ name] else []

/-- `guess.get(options.get('show_property'), '')` (__main__.py:37).  An option that is not text or bytes is no key here. -/
def shownProperty (options guess : Dict) : PyVal :=
  match options.getD (.str c!"show_property") with
  | .str k => (guess.get? (.str k)).getD (.str [])
  | .bytes k => (guess.get? (.bytes k)).getD (.str [])
  | _ => .str []

/-- What `guess_filename` prints after guessing (__main__.py:36-59): the arguments of the calls of `print`. -/
def guessBody (w : Writer) (options : Dict) (name : Str) (guess : Dict) : Except PyErr (List Str) :=
  if truthy (options.getD (.str c!"show_property")) then .ok [pyStr w.shown (shownProperty options guess)]
  else if truthy (options.getD (.str c!"json")) then match jsonDumps w.shown compact (.dict guess) with
    | .error e => .error e
    | .ok t => .ok [t]
  else if truthy (options.getD (.str c!"yaml")) then .ok (yamlLines (w.yamlGuess name guess))
  else match jsonDumps w.shown indented (.dict guess) with
    | .error e => .error e
    | .ok t => .ok [c!"GuessIt found: " ++ t]

/-- What the guesses of a run print (__main__.py:143-146): a failing guess leaves its heading only. -/
def printGuesses (w : Writer) (options : Dict) : List CliAct → Except PyErr (List Str)
  | [] => .ok []
  | .guess (.str n) (.value (.dict d)) :: rest => match guessBody w options n d with
    | .error e => .error e
    | .ok body => match printGuesses w options rest with
      | .error e => .error e
      | .ok more => .ok (guessHead options n ++ body ++ more)
  | .guess (.str n) _ :: rest => match printGuesses w options rest with
    | .error e => .error e
    | .ok more => .ok (guessHead options n ++ more)
  | _ :: rest => printGuesses w options rest

/-- Insertion of a name in a list sorted by `str.__lt__` (code point by code point). -/
def insertText (x : Str) : List Str → List Str
  | [] => [x]
  | y :: ys => if x < y then x :: y :: ys else y :: insertText x ys

/-- `sorted(names)`. -/
def sortTexts (l : List Str) : List Str := l.foldl (fun acc x => insertText x acc) []

/-- The values listed under a property (__main__.py:86-91).  Simplification: values that are no list have none. -/
def valueLines (sh : Shown) (options : Dict) : PyVal → List Str
  | .list vs => if truthy (options.getD (.str c!"values")) then vs.map fun v => c!"    [!] " ++ pyStr sh v else []
  | _ => []

/-- `display_properties` after `api.properties` (__main__.py:68-91); the names of properties are text. -/
def propertiesBody (w : Writer) (options : Dict) (props : List (Str × PyVal)) : Except PyErr (List Str) :=
  let all := PyVal.dict (props.map fun e => (Key.str e.1, e.2))
  let names := PyVal.list (props.map fun e => .str e.1)
  let chosen := if truthy (options.getD (.str c!"values")) then all else names
  if truthy (options.getD (.str c!"json")) then match jsonDumps w.shown compact chosen with
    | .error e => .error e
    | .ok t => .ok [t]
  else if truthy (options.getD (.str c!"yaml")) then .ok [w.yamlDump chosen]
  else .ok (c!"GuessIt properties:" :: (sortTexts (props.map Prod.fst)).flatMap fun n =>
    (c!"  [+] " ++ n) :: valueLines w.shown options ((List.lookup n props).getD .none))

end Guessit
