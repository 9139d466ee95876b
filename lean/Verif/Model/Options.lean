import Verif.Py

/-!
# guessit/options.py — option merging and configuration loading
-/

namespace Guessit

/-- The key `'pristine'` (guessit/options.py:217, 240). -/
def kPristine : Key := .str c!"pristine"

/-- Reading one entry of a `pristine` list as a dictionary key: `to_reset in merged` (options.py:222-224).
Unhashable entries raise `TypeError`; hashable entries that are neither text nor bytes are never keys. -/
def pristineKey : PyVal → Except PyErr (Option Key)
  | .str s => .ok (some (.str s))
  | .bytes b => .ok (some (.bytes b))
  | .list _ => .error .typeError
  | .dict _ => .error .typeError
  | _ => .ok Option.none

/-- `for to_reset in pristine: if to_reset in merged: del merged[to_reset]` (options.py:222-224). -/
def resetKeys (merged : Dict) : List PyVal → Except PyErr Dict
  | [] => .ok merged
  | p :: ps =>
    match pristineKey p with
    | .error e => .error e
    | .ok (some k) => resetKeys (merged.del k) ps
    | .ok Option.none => resetKeys merged ps

/-- `pristine = options.get('pristine'); if pristine is True: merged = {} elif pristine: ...` (options.py:217-224). -/
def applyPristine (merged : Dict) : PyVal → Except PyErr Dict
  | .bool true => .ok []
  | p => if truthy p then
      match pyIter p with
      | .error e => .error e
      | .ok ks => resetKeys merged ks
    else .ok merged

/-- `for val in value: if val not in merged[option] and val is not None: merged[option].append(val)`
(options.py:242-244). -/
def appendNew (l : List PyVal) : List PyVal → List PyVal
  | [] => l
  | .none :: vs => appendNew l vs
  | v :: vs => if pyIn v l then appendNew l vs else appendNew (l ++ [v]) vs

mutual
/-- Body of the loop `for options in options[1:]` of `merge_options` (options.py:215-227).  A truthy value that is
not a dictionary has no `.get` and raises `AttributeError`; for the empty dictionary, which is falsy, the branch below
reduces to `.ok merged`. -/
def mergeInto (merged : Dict) : PyVal → Except PyErr Dict
  | .dict items =>
    match applyPristine merged (Dict.getD items kPristine) with
    | .error e => .error e
    | .ok base => mergeItems base items
  | v => if truthy v then .error .attributeError else .ok merged
termination_by structural v => v
/-- `for (option, value) in options.items(): merge_option_value(option, value, merged)` (options.py:226-227). -/
def mergeItems (merged : Dict) : List (Key × PyVal) → Except PyErr Dict
  | [] => .ok merged
  | e :: rest =>
    match mergeValue merged e with
    | .error e => .error e
    | .ok m => mergeItems m rest
termination_by structural l => l
/-- `merge_option_value(option, value, merged)` (options.py:232-250).  In the nested-dictionary case the code calls
`merge_options(merged[option], value)`: the first argument is deep-copied into a fresh dictionary (identity on
values), the second is merged into it. -/
def mergeValue (merged : Dict) : Key × PyVal → Except PyErr Dict
  | (_, .none) => .ok merged
  | (k, v) =>
    if k = kPristine then .ok merged else
    match merged.get? k with
    | some (.list l) =>
      match pyIter v with
      | .error e => .error e
      | .ok vals => .ok (merged.set k (.list (appendNew l vals)))
    | some (.dict d) =>
      match mergeInto d v with
      | .error e => .error e
      | .ok d' => .ok (merged.set k (.dict d'))
    | _ => .ok (merged.set k v)
termination_by structural e => e
end

/-- `merged = {}; if options[0]: merged.update(copy.deepcopy(options[0]))` (options.py:210-213).
Simplification: `dict.update` also accepts a list of pairs; here every truthy non-dictionary raises `TypeError`. -/
def mergeFirst : PyVal → Except PyErr Dict
  | .dict d => .ok d
  | v => if truthy v then .error .typeError else .ok []

/-- The loop over the remaining arguments (options.py:215-227). -/
def mergeRest (merged : Dict) : List PyVal → Except PyErr Dict
  | [] => .ok merged
  | o :: os =>
    match mergeInto merged o with
    | .error e => .error e
    | .ok m => mergeRest m os

/-- `merge_options(*options)` (options.py:201-229). -/
def mergeOptions : List PyVal → Except PyErr Dict
  | [] => .ok []
  | o :: os =>
    match mergeFirst o with
    | .error e => .error e
    | .ok m => mergeRest m os

/-! ## Configuration files -/

/-- `s.endswith(suffix)`. -/
def endsWith (s suffix : Str) : Bool := suffix.isSuffixOf s

/-- `os.path.join(a, b)` on POSIX (CPython posixpath.py), used at options.py:296-307. -/
def pathJoin (a b : Str) : Str :=
  match b with
  | '/' :: _ => b
  | _ => if a.isEmpty || endsWith a c!"/" then a ++ b else a ++ c!"/" ++ b

/-- What `load_config` observes of the outside world. -/
structure Env where
  /-- parsed `guessit/config/options.json` (packaged default) -/
  defaults : PyVal
  home : Str
  cwd : Str
  /-- `import yaml` succeeds -/
  yaml : Bool
  /-- `os.path.exists` -/
  pathExists : Str → Bool
  /-- `json.load` / `yaml.load` of an opened file; raises when unreadable or malformed -/
  readFile : Str → Except PyErr PyVal
  /-- `json.loads` of the given text -/
  jsonLoads : Str → Option PyVal

/-- `get_options_file_locations(homedir, cwd, yaml_supported)` (options.py:284-309). -/
def optionsFileLocations (home cwd : Str) (yaml : Bool) : List Str :=
  let configdirs : List (Str × Str) :=
    [(pathJoin home c!".guessit", c!"options"),
     (pathJoin (pathJoin home c!".config") c!"guessit", c!"options"),
     (cwd, c!"guessit.options")]
  let configexts : List Str := if yaml then [c!"json", c!"yaml", c!"yml"] else [c!"json"]
  configdirs.flatMap fun d => configexts.map fun e => pathJoin d.1 (d.2 ++ c!"." ++ e)

/-- `load_config_file(filepath)` (options.py:253-281).  A non-text path has no `.endswith`. -/
def loadConfigFile (env : Env) : PyVal → Except PyErr PyVal
  | .str path =>
    if endsWith path c!".json" then env.readFile path
    else if endsWith path c!".yaml" || endsWith path c!".yml" then
      if env.yaml then env.readFile path else .error .configuration
    else
      match env.jsonLoads path with
      | some v => .ok v
      | Option.none => .error .configuration
  | _ => .error .attributeError

/-- `for config_file in config_files: ... if config_file_options: configurations.append(...)` (options.py:183-186). -/
def loadFiles (env : Env) : List PyVal → Except PyErr (List PyVal)
  | [] => .ok []
  | f :: fs =>
    match loadConfigFile env f with
    | .error e => .error e
    | .ok v =>
      match loadFiles env fs with
      | .error e => .error e
      | .ok vs => .ok (if truthy v then v :: vs else vs)

def kAdvanced : Key := .str c!"advanced_config"
def kConfig : Key := .str c!"config"
def kNoUser : Key := .str c!"no_user_config"
def kNoDefault : Key := .str c!"no_default_config"

/-- The existing user configuration files, in location order (options.py:164-177). -/
def userFiles (env : Env) : List PyVal :=
  ((optionsFileLocations env.home env.cwd env.yaml).filter env.pathExists).map .str

/-- `config_files + custom_config_files` (options.py:179-181): `list + non-list` raises `TypeError`. -/
def allFiles (env : Env) (options : Dict) : Except PyErr (List PyVal) :=
  let user := if truthy (options.getD kNoUser) then [] else userFiles env
  let custom := options.getD kConfig
  if truthy custom then
    match custom with
    | .list fs => .ok (user ++ fs)
    | _ => .error .typeError
  else .ok user

/-- `default_options['advanced_config']` (options.py:196). -/
def defaultAdvanced (env : Env) : Except PyErr PyVal :=
  match env.defaults with
  | .dict d => match Dict.get? d kAdvanced with
    | some v => .ok v
    | Option.none => .error .keyError
  | _ => .error .typeError

/-- `load_config(options)` (options.py:149-198). -/
def loadConfig (env : Env) (options : Dict) : Except PyErr Dict :=
  match allFiles env options with
  | .error e => .error e
  | .ok files =>
    match loadFiles env files with
    | .error e => .error e
    | .ok fromFiles =>
      let configurations := (if truthy (options.getD kNoDefault) then [] else [env.defaults]) ++ fromFiles
      match mergeOptions configurations with
      | .error e => .error e
      | .ok config =>
        if (config.get? kAdvanced).isSome then .ok config
        else
          match defaultAdvanced env with
          | .error e => .error e
          | .ok adv => .ok (config.set kAdvanced adv)

end Guessit
