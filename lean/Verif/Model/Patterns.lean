import Verif.Model.Options

/-!
# guessit/config/__init__.py — declaring the patterns of a configuration

Calls made on the `Rebulk` object and calls of configured functions are recorded in order.  Importing a module, reading an
attribute, evaluating an expression and calling a configured function are supplied by `World`.
-/

namespace Guessit

/-- What the loader uses that is outside guessit. -/
structure World where
  /-- `importlib.import_module(name)` -/
  importModule : Str → Except PyErr PyVal
  /-- `getattr(object, name)` -/
  attr : PyVal → Str → Except PyErr PyVal
  /-- `eval(compile(text, '<string>', 'eval'))` -/
  evaluate : Str → Except PyErr PyVal
  /-- `f(rebulk, **kwargs)`; what the function declares itself is not modelled -/
  invoke : PyVal → Dict → Except PyErr Unit

/-- `_pattern_types` (config/__init__.py:14). -/
inductive PatKind where
  | regex | string
  deriving DecidableEq, Repr

/-- The key under which an entry lists its patterns of a kind (config/__init__.py:14, 137). -/
def PatKind.key : PatKind → Key
  | .regex => .str c!"regex"
  | .string => .str c!"string"

/-- `"pattern"` (config/__init__.py:85). -/
def kPattern : Key := .str c!"pattern"
/-- `"callable"` (config/__init__.py:131). -/
def kCallable : Key := .str c!"callable"
/-- `'value'` (config/__init__.py:77). -/
def kValue : Key := .str c!"value"

/-- A call observed from outside. -/
inductive PCall where
  /-- `rebulk.regex(*patterns, **options)` or `rebulk.string(*patterns, **options)` -/
  | declare (kind : PatKind) (patterns : List PyVal) (options : Dict)
  /-- `f(rebulk, **kwargs)` -/
  | invoke (f : PyVal) (kwargs : Dict)

/-- The loader's state: `_import_cache` (config/__init__.py:11) and the calls made so far. -/
structure LState where
  cache : List (Str × PyVal)
  calls : List PCall

/-- A loader computation; what was done before an exception stays done. -/
abbrev LM (α : Type) := LState → LState × Except PyErr α

def LM.pure {α : Type} (x : α) : LM α := fun s => (s, .ok x)
def LM.raise {α : Type} (e : PyErr) : LM α := fun s => (s, .error e)
def LM.bind {α β : Type} (x : LM α) (f : α → LM β) : LM β := fun s => match x s with
  | (s', .ok v) => f v s'
  | (s', .error e) => (s', .error e)
def LM.lift {α : Type} (x : Except PyErr α) : LM α := fun s => (s, x)
/-- Record a call. -/
def LM.call (c : PCall) : LM Unit := fun s => ({ s with calls := s.calls ++ [c] }, .ok ())

/-- `text.startswith(prefix)`; the rest of the text when it does. -/
def afterPrefix (p s : Str) : Option Str := if p.isPrefixOf s then some (s.drop p.length) else none

/-- `text.rsplit(':', 1)`, when it has two parts (config/__init__.py:32). -/
def rsplitColon : Str → Option (Str × Str)
  | [] => none
  | x :: xs => match rsplitColon xs with
    | some (a, b) => some (x :: a, b)
    | none => if x = ':' then some ([], xs) else none

/-- `text.split(".")` (config/__init__.py:43). -/
def splitDots : Str → List Str
  | [] => [[]]
  | x :: xs => if x = '.' then [] :: splitDots xs else match splitDots xs with
    | [] => [[x]]
    | p :: ps => (x :: p) :: ps

/-- Where a reference points: module and target (config/__init__.py:31-35).  Without a colon the unpacking of
`rsplit` raises `ValueError`; without a default module `None + ":"` raises `TypeError`. -/
def refParts (value : Str) (dflt : Option Str) : Except PyErr (Str × Str) :=
  if '.' ∈ value then match rsplitColon value with
    | some p => .ok p
    | none => .error .valueError
  else match dflt with
    | some m => .ok (m, value)
    | none => .error .typeError

/-- `for item in target.split("."): imported = getattr(imported, item)` (config/__init__.py:42-44). -/
def attrPath (W : World) (obj : PyVal) : List Str → Except PyErr PyVal
  | [] => .ok obj
  | a :: as => match W.attr obj a with
    | .error e => .error e
    | .ok o => attrPath W o as

/-- `mod = import_module(module_name)` and the attributes of the target (config/__init__.py:40-44). -/
def fetch (W : World) (module target : Str) : Except PyErr PyVal :=
  match W.importModule module with
  | .error e => .error e
  | .ok m => attrPath W m (splitDots target)

/-- `_import(value, default_module_name)` (config/__init__.py:30-48). -/
def importRef (W : World) (value : Str) (dflt : Option Str) : LM PyVal := fun s =>
  match refParts value dflt with
  | .error e => (s, .error e)
  | .ok (m, t) => match List.lookup (m ++ c!":" ++ t) s.cache with
    | some o => (s, .ok o)
    | none => match fetch W m t with
      | .error e => (s, .error e)
      | .ok o => ({ s with cache := (m ++ c!":" ++ t, o) :: s.cache }, .ok o)

/-- `_process_option_executable(value, default_module_name)` (config/__init__.py:58-67).  `_eval`
(config/__init__.py:51-55) never fills its cache.  A value that is not text has no usable `startswith`. -/
def processExec (W : World) (dflt : Option Str) : PyVal → LM PyVal
  | .str v => match afterPrefix c!"import:" v with
    | some r => importRef W r dflt
    | none => match afterPrefix c!"eval:" v with
      | some r => LM.lift (W.evaluate r)
      | none => if (c!"lambda ").isPrefixOf v || (c!"lambda:").isPrefixOf v then LM.lift (W.evaluate v)
        else LM.pure (.str v)
  | .bytes _ => LM.raise .typeError
  | _ => LM.raise .attributeError

/-- Names of the options that hold code (config/__init__.py:22). -/
def execOption (k : Key) : Bool := k = .str c!"validator" || k = .str c!"conflict_solver" || k = .str c!"formatter"

/-- `_default_module_names.get(name)` (config/__init__.py:15-18, 26). -/
def defaultModule (k : Key) : Option Str :=
  if k = .str c!"validator" then some c!"guessit.rules.common.validators"
  else if k = .str c!"formatter" then some c!"guessit.rules.common.formatters" else none

mutual
/-- `_process_option(name, value)` for a name that holds code (config/__init__.py:22-26). -/
def processCode (W : World) (dflt : Option Str) : PyVal → LM PyVal
  | .dict kvs => LM.bind (processItems W dflt kvs) fun r => LM.pure (.dict r)
  | .none => LM.pure .none
  | v => processExec W dflt v
termination_by structural v => v
/-- The dictionary comprehension of `_process_option` (config/__init__.py:24). -/
def processItems (W : World) (dflt : Option Str) : List (Key × PyVal) → LM Dict
  | [] => LM.pure []
  | e :: rest => LM.bind (processItem W dflt e) fun p => LM.bind (processItems W dflt rest) fun r => LM.pure (p :: r)
termination_by structural l => l
/-- One item of that comprehension. -/
def processItem (W : World) (dflt : Option Str) : Key × PyVal → LM (Key × PyVal)
  | (k, v) => LM.bind (processCode W dflt v) fun w => LM.pure (k, w)
termination_by structural e => e
end

/-- `_process_option(name, value)` (config/__init__.py:21-27). -/
def processOption (W : World) (k : Key) (v : PyVal) : LM PyVal :=
  if execOption k then processCode W (defaultModule k) v else LM.pure v

/-- `{name: _process_option(name, value) for name, value in item_options.items()}` (config/__init__.py:111). -/
def processOptions (W : World) : Dict → LM Dict
  | [] => LM.pure []
  | (k, v) :: rest =>
    LM.bind (processOption W k v) fun w => LM.bind (processOptions W rest) fun r => LM.pure ((k, w) :: r)

/-- `dict.update`. -/
def updateDict (d : Dict) (e : Dict) : Dict := e.foldl (fun acc kv => acc.set kv.1 kv.2) d

/-- The names of keyword arguments must be text. -/
def textKeys (d : Dict) : Bool := d.all fun e => match e.1 with
  | .str _ => true
  | .bytes _ => false

/-- The `options` argument: under `None` the options of every pattern, under a kind the options of that kind
(config/__init__.py:94-122). -/
structure LoadOptions where
  common : Option Dict
  forKind : PatKind → Option Dict

/-- `load_patterns(rebulk, pattern_type, patterns, options)` (config/__init__.py:94-112).  Simplification: `options` is a
dictionary (with the default `None` the code raises `AttributeError`). -/
def loadPatterns (W : World) (kind : PatKind) (patterns : List PyVal) (o : LoadOptions) : LM Unit :=
  LM.bind (processOptions W (updateDict (o.common.getD []) ((o.forKind kind).getD []))) fun opts =>
    if textKeys opts then LM.call (.declare kind patterns opts) else LM.raise .typeError

/-- `re:` or plain text (config/__init__.py:79-82, 87-90). -/
def withText (d : Dict) (s : Str) : Dict := match afterPrefix c!"re:" s with
  | some r => d.set PatKind.regex.key (.list [.str r])
  | none => d.set PatKind.string.key (.list [.str s])

/-- `dict(options.get(None, {}))` with the value named by the key (config/__init__.py:75-77). -/
def baseDecl (o : LoadOptions) : Key → Except PyErr Dict
  | .bytes _ => .error .typeError
  | .str v => .ok (if (c!"_").isPrefixOf v then o.common.getD [] else (o.common.getD []).set kValue (.str v))

/-- `_build_entry_decl` for a dictionary (config/__init__.py:84-90) with the entry it leaves behind. -/
def dictDecl (d e : Dict) : Except PyErr (Dict × PyVal) :=
  match (updateDict d e).get? kPattern with
  | none => .ok (updateDict d e, .dict e)
  | some _ => match Dict.get? e kPattern with
    | none => .error .keyError
    | some (.str p) => .ok (withText (updateDict d e) p, .dict (Dict.del e kPattern))
    | some _ => .error .attributeError

/-- `_build_entry_decl(entry, options, value)` (config/__init__.py:74-91): the declaration, and the entry afterwards.
Simplification: a non-empty list as an entry always raises (`dict.update` would accept a list of pairs). -/
def buildDecl (o : LoadOptions) (value : Key) (entry : PyVal) : Except PyErr (Dict × PyVal) :=
  match baseDecl o value with
  | .error e => .error e
  | .ok d => match entry with
    | .str s => match (withText d s).get? kPattern with
      | none => .ok (withText d s, .str s)
      | some _ => .error .attributeError
    | .dict e => dictDecl d e
    | .list [] => match d.get? kPattern with
      | none => .ok (d, .list [])
      | some _ => .error .typeError
    | .list _ => .error .valueError
    | _ => .error .typeError

/-- `patterns if isinstance(patterns, list) else [patterns]` (config/__init__.py:128, 141-142). -/
def asList : PyVal → List PyVal
  | .list l => l
  | v => [v]

/-- One turn of the loop over the kinds of pattern (config/__init__.py:137-152). -/
def loadKind (W : World) (o : LoadOptions) (decl : Dict) (kind : PatKind) : LM Unit :=
  if truthy (decl.getD kind.key) then
    loadPatterns W kind (asList (decl.getD kind.key))
      { o with common := some ((decl.del PatKind.regex.key).del PatKind.string.key) }
  else LM.pure ()

/-- `_process_callable_entry` after `entry.pop("callable")` (config/__init__.py:70-71, 131-133). -/
def callEntry (W : World) (spec : PyVal) (entry : Dict) : LM Unit :=
  LM.bind (processExec W none spec) fun f =>
    if textKeys entry then LM.bind (LM.call (.invoke f entry)) fun _ => LM.lift (W.invoke f entry)
    else LM.raise .typeError

/-- An entry with patterns (config/__init__.py:135-152). -/
def declareEntry (W : World) (o : LoadOptions) (value : Key) (entry : PyVal) : LM PyVal :=
  LM.bind (LM.lift (buildDecl o value entry)) fun r =>
    LM.bind (loadKind W o r.1 .regex) fun _ => LM.bind (loadKind W o r.1 .string) fun _ => LM.pure r.2

/-- One turn of the loop over entries (config/__init__.py:130-152); the result is the entry afterwards. -/
def loadEntry (W : World) (o : LoadOptions) (value : Key) (entry : PyVal) : LM PyVal :=
  match entry with
  | .dict e => match Dict.get? e kCallable with
    | some spec => LM.bind (callEntry W spec (Dict.del e kCallable)) fun _ => LM.pure (.dict (Dict.del e kCallable))
    | none => declareEntry W o value (.dict e)
  | v => declareEntry W o value v

/-- `for entry in entries` (config/__init__.py:129). -/
def loadEntries (W : World) (o : LoadOptions) (value : Key) : List PyVal → LM (List PyVal)
  | [] => LM.pure []
  | e :: es => LM.bind (loadEntry W o value e) fun e' => LM.bind (loadEntries W o value es) fun es' =>
    LM.pure (e' :: es')

/-- The entries of one key (config/__init__.py:128-129). -/
def loadRaw (W : World) (o : LoadOptions) (value : Key) : PyVal → LM PyVal
  | .list l => LM.bind (loadEntries W o value l) fun l' => LM.pure (.list l')
  | v => loadEntry W o value v

/-- `for value, raw_entries in config.items()` (config/__init__.py:127). -/
def loadItems (W : World) (o : LoadOptions) : Dict → LM Dict
  | [] => LM.pure []
  | (k, raw) :: rest => LM.bind (loadRaw W o k raw) fun raw' => LM.bind (loadItems W o rest) fun rest' =>
    LM.pure ((k, raw') :: rest')

/-- `load_config_patterns(rebulk, config, options)` (config/__init__.py:115-152); the result is the configuration as the
call leaves it (known only when the call succeeds).  Simplification: no two entries are the same object. -/
def loadConfigPatterns (W : World) (config : PyVal) (o : Option LoadOptions) : LM Dict :=
  match config with
  | .dict d => loadItems W (o.getD ⟨none, fun _ => none⟩) d
  | _ => LM.raise .attributeError

end Guessit
