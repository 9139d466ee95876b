import Verif.Model.Patterns
import Mathlib.Data.List.Forall2

/-!
# What a pattern configuration declares, in words of the configuration file
-/

namespace Guessit.Spec

open Guessit

/-- Following attribute names from an object. -/
inductive Reaches (W : World) : PyVal → List Str → PyVal → Prop where
  | here (o : PyVal) : Reaches W o [] o
  | step {o o' r : PyVal} {a : Str} {as : List Str} :
      W.attr o a = .ok o' → Reaches W o' as r → Reaches W o (a :: as) r

/-- A reference `module:a.b` (or, when it has no dot, an attribute of the default module) denotes `o`. -/
def Refers (W : World) (dflt : Option Str) (ref : Str) (o : PyVal) : Prop :=
  ∃ (module : Str) (parts : List Str) (m : PyVal),
    (if '.' ∈ ref then ref = module ++ ':' :: List.intercalate ['.'] parts ∧ ∀ p ∈ parts, ':' ∉ p
      else dflt = some module ∧ ref = List.intercalate ['.'] parts) ∧
    parts ≠ [] ∧ (∀ p ∈ parts, '.' ∉ p) ∧ W.importModule module = .ok m ∧ Reaches W m parts o

/-- What a text written where code is expected stands for: `import:reference`, `eval:expression`, a lambda expression, or
itself. -/
inductive StandsFor (W : World) (dflt : Option Str) : Str → PyVal → Prop where
  | reference {r : Str} {o : PyVal} : Refers W dflt r o → StandsFor W dflt (c!"import:" ++ r) o
  | expression {r : Str} {o : PyVal} : W.evaluate r = .ok o → StandsFor W dflt (c!"eval:" ++ r) o
  | function {v r : Str} {o : PyVal} : (v = c!"lambda " ++ r ∨ v = c!"lambda:" ++ r) → W.evaluate v = .ok o →
      StandsFor W dflt v o
  | plain {v : Str} : (∀ p ∈ [c!"import:", c!"eval:", c!"lambda ", c!"lambda:"], ∀ r, v ≠ p ++ r) →
      StandsFor W dflt v (.str v)

mutual
/-- The value of an option that holds code: nothing, one text, or a table of such values. -/
inductive Code (W : World) (dflt : Option Str) : PyVal → PyVal → Prop where
  | absent : Code W dflt .none .none
  | one {v : Str} {o : PyVal} : StandsFor W dflt v o → Code W dflt (.str v) o
  | table {kvs r : Dict} : CodeTable W dflt kvs r → Code W dflt (.dict kvs) (.dict r)
/-- The same names, each with the value its text stands for. -/
inductive CodeTable (W : World) (dflt : Option Str) : Dict → Dict → Prop where
  | nil : CodeTable W dflt [] []
  | cons {k : Key} {v w : PyVal} {kvs r : Dict} : Code W dflt v w → CodeTable W dflt kvs r →
      CodeTable W dflt ((k, v) :: kvs) ((k, w) :: r)
end

/-- The options whose text stands for code. -/
def HoldsCode (n : Key) : Prop := n = .str c!"validator" ∨ n = .str c!"conflict_solver" ∨ n = .str c!"formatter"

/-- Where references without a dot are looked up. -/
def Home : Key → Option Str := fun n =>
  if n = .str c!"validator" then some c!"guessit.rules.common.validators"
  else if n = .str c!"formatter" then some c!"guessit.rules.common.formatters" else none

/-- What option `n` written as `v` becomes. -/
def Becomes (W : World) (n : Key) (v w : PyVal) : Prop :=
  (HoldsCode n → Code W (Home n) v w) ∧ (¬ HoldsCode n → w = v)

/-- The value named by the key of an entry: none for keys beginning with an underscore. -/
def named : Key → Option PyVal
  | .str ('_' :: _) => none
  | .str v => some (.str v)
  | .bytes _ => none

/-- The option `n` of the patterns of a kind: from the options for that kind, else from the entry, else (for `value`) the key,
else from the options for all patterns.  The lists of patterns are not options. -/
def written (o : LoadOptions) (kind : PatKind) (key : Key) (entry : Dict) (n : Key) : Option PyVal :=
  (o.forKind kind).bind (Dict.get? · n) <|>
    (if n = .str c!"regex" ∨ n = .str c!"string" then none else
      Dict.get? entry n <|> (if n = .str c!"value" then named key else none) <|> o.common.bind (Dict.get? · n))

/-- `opts` are the options written, each with what it becomes. -/
def OptionsAre (W : World) (written : Key → Option PyVal) (opts : Dict) : Prop :=
  ∀ n, (Dict.get? opts n = none ↔ written n = none) ∧
    (∀ v w, written n = some v → Dict.get? opts n = some w → Becomes W n v w) ∧
    (written n ≠ none → ∃ s, n = .str s)

/-- An entry that declares patterns, as a table and possibly one pattern text (a bare text, or the older `pattern` key). -/
inductive Reads (o : LoadOptions) : PyVal → Dict → Option Str → Prop where
  | text {s : Str} : o.common.bind (Dict.get? · (.str c!"pattern")) = none → Reads o (.str s) [] (some s)
  | nothing : o.common.bind (Dict.get? · (.str c!"pattern")) = none → Reads o (.list []) [] none
  | table {e : Dict} : Dict.get? e (.str c!"pattern") = none → o.common.bind (Dict.get? · (.str c!"pattern")) = none →
      Reads o (.dict e) e none
  | older {e : Dict} {p : Str} : Dict.get? e (.str c!"pattern") = some (.str p) → Reads o (.dict e) e (some p)

/-- The pattern text, when it is of this kind. -/
def docText (kind : PatKind) : Option Str → Option Str
  | none => none
  | some ('r' :: 'e' :: ':' :: r) => if kind = .regex then some r else none
  | some s => if kind = .string then some s else none

/-- What an entry lists as its patterns of a kind. -/
def listed (o : LoadOptions) (kind : PatKind) (entry : Dict) (text : Option Str) : Option PyVal :=
  (docText kind text).map (fun s => PyVal.list [.str s]) <|> Dict.get? entry kind.key <|>
    o.common.bind (Dict.get? · kind.key)

/-- The calls for the patterns of one kind: one, or none when nothing is listed. -/
def KindCalls (W : World) (o : LoadOptions) (key : Key) (entry : Dict) (text : Option Str) (kind : PatKind) (cs : List PCall) : Prop :=
  match listed o kind entry text with
  | none => cs = []
  | some v => if truthy v = false then cs = [] else
      ∃ opts, OptionsAre W (written o kind key entry) opts ∧
        cs = [.declare kind (match v with | .list l => l | v => [v]) opts]

/-- The calls one entry stands for. -/
def EntryCalls (W : World) (o : LoadOptions) (key : Key) (entry : PyVal) (cs : List PCall) : Prop :=
  (∃ (e : Dict) (v : Str) (f : PyVal), entry = .dict e ∧ Dict.get? e (.str c!"callable") = some (.str v) ∧ StandsFor W none v f ∧
      (∀ p ∈ e, ∃ s, p.1 = .str s) ∧
      W.invoke f (e.filter fun p => p.1 ≠ .str c!"callable") = .ok () ∧
      cs = [.invoke f (e.filter fun p => p.1 ≠ .str c!"callable")]) ∨
  ((∀ e, entry = .dict e → Dict.get? e (.str c!"callable") = none) ∧ (∃ s, key = .str s) ∧
    ∃ (e : Dict) (text : Option Str) (rs ss : List PCall), Reads o entry e text ∧
      KindCalls W o key e text .regex rs ∧ KindCalls W o key e text .string ss ∧ cs = rs ++ ss)

/-- The entries of a configuration in order, with their keys. -/
def entriesOf (config : Dict) : List (Key × PyVal) :=
  config.flatMap fun e => match e.2 with
    | .list l => l.map fun v => (e.1, v)
    | v => [(e.1, v)]

/-- The calls of a list of entries, one group per entry. -/
def CallsOf (W : World) (o : LoadOptions) (es : List (Key × PyVal)) (calls : List PCall) : Prop :=
  ∃ per : List (List PCall), List.Forall₂ (fun e cs => EntryCalls W o e.1 e.2 cs) es per ∧ calls = per.flatten

/-- Module and attribute names contain no colon. -/
def PlainNames (W : World) : Prop :=
  (∀ m o, W.importModule m = .ok o → ':' ∉ m) ∧ (∀ x a o, W.attr x a = .ok o → ':' ∉ a)

/-- Dictionaries with distinct keys, as Python has them. -/
def RealTables (o : LoadOptions) (config : Dict) : Prop :=
  (∀ k d, o.forKind k = some d → d.WF) ∧ (∀ d, o.common = some d → d.WF) ∧
    ∀ e ∈ entriesOf config, ∀ d, e.2 = .dict d → Dict.WF d

end Guessit.Spec

namespace Guessit.Spec

open Guessit

/-- The states of the loader in a process: any configurations loaded before, successfully or not. -/
inductive Loaded (W : World) : LState → Prop where
  | start : Loaded W ⟨[], []⟩
  | load {s : LState} (config : PyVal) (o : Option LoadOptions) :
      Loaded W s → Loaded W (loadConfigPatterns W config o s).1

/-- An entry after it has been loaded: a function entry has lost `callable`, another entry the older `pattern`. -/
def spent : PyVal → PyVal
  | .dict e =>
    if Dict.get? e (.str c!"callable") = none
    then .dict (e.filter fun p => p.1 ≠ .str c!"pattern")
    else .dict (e.filter fun p => p.1 ≠ .str c!"callable")
  | v => v

/-- The entry or the list of entries of a key after they have been loaded. -/
def spentRaw : PyVal → PyVal
  | .list l => .list (l.map spent)
  | v => spent v

/-- A configuration after it has been loaded. -/
def spentConfig (config : Dict) : Dict := config.map fun e => (e.1, spentRaw e.2)

/-- The kind of a pattern text: `re:` marks a regular expression. -/
def textKind : Str → PatKind
  | 'r' :: 'e' :: ':' :: _ => .regex
  | _ => .string

/-- The pattern without the mark. -/
def textBody : Str → Str
  | 'r' :: 'e' :: ':' :: r => r
  | s => s

/-- The options of a pattern text under a key: the value, unless the key begins with an underscore. -/
def keyOptions : Str → Dict
  | '_' :: _ => []
  | k => [(.str c!"value", .str k)]

/-- The call for one pattern text under a key, when no options are given. -/
def textCall (key p : Str) : PCall := .declare (textKind p) [.str (textBody p)] (keyOptions key)

end Guessit.Spec
