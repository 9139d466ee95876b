import Verif.Model.Api
import Verif.Model.Finders

/-!
# The command line: the argument parser of guessit/options.py and guessit/__main__.py

`argparse` itself is third-party: how the words of the command line are assigned to options is not modelled.  Its contract
is: the namespace starts from the defaults, and every recognised occurrence of an option applies its action.
-/

namespace Guessit

/-- The actions used by the parser: `store_true`, `store`, `append`. -/
inductive ArgAction where
  | storeTrue | store | append
  deriving DecidableEq

structure ArgSpec where
  dest : Str
  action : ArgAction
  default : PyVal

/-- The optional arguments of `build_argument_parser` (options.py:41-110), in order. -/
def argTable : List ArgSpec :=
  [⟨c!"type", .store, .none⟩, ⟨c!"name_only", .storeTrue, .none⟩, ⟨c!"date_year_first", .storeTrue, .none⟩,
   ⟨c!"date_day_first", .storeTrue, .none⟩, ⟨c!"allowed_languages", .append, .none⟩, ⟨c!"allowed_countries", .append, .none⟩,
   ⟨c!"episode_prefer_number", .storeTrue, .none⟩, ⟨c!"expected_title", .append, .none⟩, ⟨c!"expected_group", .append, .none⟩,
   ⟨c!"includes", .append, .none⟩, ⟨c!"excludes", .append, .none⟩, ⟨c!"input_file", .store, .none⟩,
   ⟨c!"verbose", .storeTrue, .none⟩, ⟨c!"show_property", .store, .none⟩, ⟨c!"advanced", .storeTrue, .none⟩,
   ⟨c!"single_value", .storeTrue, .none⟩, ⟨c!"enforce_list", .storeTrue, .none⟩, ⟨c!"json", .storeTrue, .none⟩,
   ⟨c!"yaml", .storeTrue, .none⟩, ⟨c!"output_input_string", .storeTrue, .bool false⟩, ⟨c!"config", .append, .none⟩,
   ⟨c!"no_user_config", .storeTrue, .none⟩, ⟨c!"no_default_config", .storeTrue, .none⟩, ⟨c!"properties", .storeTrue, .none⟩,
   ⟨c!"values", .storeTrue, .none⟩, ⟨c!"version", .storeTrue, .none⟩]

/-- One recognised option: which one, and its argument (unused by flags). -/
structure Occ where
  dest : Str
  arg : Str

/-- The effect of an occurrence on the namespace (argparse: `_StoreTrueAction`, `_StoreAction`, `_AppendAction`). -/
def applyOcc (ns : Dict) (o : Occ) : Dict :=
  match argTable.find? (fun a => a.dest = o.dest) with
  | none => ns
  | some a => match a.action with
    | .storeTrue => ns.set (.str o.dest) (.bool true)
    | .store => ns.set (.str o.dest) (.str o.arg)
    | .append => match ns.getD (.str o.dest) with
      | .list l => ns.set (.str o.dest) (.list (l ++ [.str o.arg]))
      | _ => ns.set (.str o.dest) (.list [.str o.arg])

/-- `vars(argument_parser.parse_args(args))` (options.py:128, 135) for a command line that is recognised as the names
`names` (the positional `filename`, `nargs='*'`: a list, empty when there is none) and the options `occs`. -/
def parseNamespace (names : List Str) (occs : List Occ) : Dict :=
  occs.foldl applyOcc (argTable.map (fun a => (Key.str a.dest, a.default)) ++ [(Key.str c!"filename", .list (names.map .str))])

/-! ## `__main__.py` -/

/-- What a run of the command shows, in order. -/
inductive CliAct where
  | version                                -- the version banner
  | yamlIgnored                            -- the message that `--yaml` is ignored
  | properties (out : Outcome)             -- `display_properties`
  | guess (name : NameArg) (out : Outcome) -- `guess_filename`
  | help                                   -- `argument_parser.print_help()`

/-- How a name reaches `api.guessit`: a value that is neither text nor bytes is not handled (`TypeError`). -/
def cliName : PyVal → Option NameArg
  | .str s => some (.str s)
  | .bytes b => some (.bytes b)
  | _ => none

/-- `for filename in filenames: guess_filename(filename, options)` (__main__.py:143-146): the first exception ends it.
Formatting and printing of the result are not modelled. -/
def guessAllNames {R} (S : Sys R) (env : Env) (options : Dict) : Api R → List PyVal → List CliAct × Option Outcome
  | _, [] => ([], none)
  | st, n :: ns => match cliName n with
    | none => ([], some (.raised .typeError))
    | some name => match st.guessit S env name (.dict options) with
      | (st', .value v) =>
        let r := guessAllNames S env options st' ns
        (.guess name (.value v) :: r.1, r.2)
      | (_, out) => ([.guess name out], some out)

/-- `options.get(key)` iterated (`for filename in options.get('filename')`), nothing when falsy. -/
def iterOption (options : Dict) (key : Str) : Except PyErr (List PyVal) :=
  if truthy (options.getD (.str key)) then pyIter (options.getD (.str key)) else .ok []

/-- The names to guess (__main__.py:133-141); `readLines` opens a file and splits it in lines. -/
def cliNames (u : Uni) (readLines : PyVal → Except PyErr (List Str)) (options : Dict) : Except PyErr (List PyVal) :=
  match iterOption options c!"filename" with
  | .error e => .error e
  | .ok given =>
    match (if truthy (options.getD (.str c!"input_file")) then readLines (options.getD (.str c!"input_file")) else .ok []) with
    | .error e => .error e
    | .ok lines => .ok ((given ++ lines.map (fun l => PyVal.str (u.strip l))).filter truthy)

/-- `main(args)` (__main__.py:94-150) from the parsed options on: what is shown, and the exception that ended it if any.
Logging is not modelled. -/
def cliMain {R} (S : Sys R) (u : Uni) (env : Env) (readLines : PyVal → Except PyErr (List Str)) (st : Api R) (parsed : Dict) :
    List CliAct × Option Outcome :=
  match loadConfig env parsed with
  | .error e => ([], some (.raised e))
  | .ok config => match mergeOptions [.dict config, .dict parsed] with
    | .error e => ([], some (.raised e))
    | .ok merged =>
      let showVersion := truthy (merged.getD (.str c!"version"))
      let a1 := if showVersion then [CliAct.version] else []
      let ignored := truthy (merged.getD (.str c!"yaml")) && !env.yaml
      let options := if ignored then merged.del (.str c!"yaml") else merged
      let a2 := if ignored then [CliAct.yamlIgnored] else []
      let showProps := truthy (options.getD (.str c!"properties")) || truthy (options.getD (.str c!"values"))
      let props := st.properties S env (.dict options)
      let st1 := if showProps then props.1 else st
      let a3 := if showProps then [CliAct.properties props.2] else []
      match showProps, props.2 with
      | true, .raised e => (a1 ++ a2 ++ a3, some (.raised e))
      | true, .guessitException n => (a1 ++ a2 ++ a3, some (.guessitException n))
      | _, _ => match cliNames u readLines options with
        | .error e => (a1 ++ a2 ++ a3, some (.raised e))
        | .ok names =>
          let r := guessAllNames S env options st1 names
          let helpRequired := !showVersion && !showProps && names.isEmpty
          (a1 ++ a2 ++ a3 ++ r.1 ++ (if helpRequired then [CliAct.help] else []), r.2)

end Guessit
