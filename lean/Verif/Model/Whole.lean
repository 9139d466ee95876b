import Verif.Model.Program
import Verif.Model.Api

/-!
# The whole of guessit

`guessit(name, options)` (api.py:180-225) with the patterns and the rules of the shipped configuration in the place of `rebulk.matches(string, options)`.
-/

namespace Guessit

/-- The value of a match as a Python value; `obj` says which Python value an opaque value is (a language, a country, a date, a quantity or a list of strings). -/
def pyOf (obj : Nat → PyVal) : MVal → PyVal
  | .str t => .str t
  | .int n => .int n
  | .obj k => obj k

/-- What `to_dict` reads of the matches.  Simplified: a match without name is left out, where rebulk would use the key `None`; no match is without name (C146). -/
def outMatches (obj : Nat → PyVal) (s : Ms) : List OutMatch :=
  s.live.filterMap fun m => m.name.map fun n => { start := m.start, stop := m.stop, name := n, value := pyOf obj (m.value s.input) }

/-- guessit with the rules of the shipped configuration.  The builder (rules/__init__.py:40-99) makes the declarations of `allDeclared` and the rules of `guessitPlugs`; simplified:
it makes them whatever `advanced_config` is. -/
def guessitSys (O : Outside) (base : RuleEnv) (obj : Nat → PyVal) (shlexSplit : Str → Except PyErr (List Str)) (parseArgs : List Str → Except PyErr Dict)
    (introspect : Dict → Except PyErr PyVal) : Sys Unit where
  shlexSplit := shlexSplit
  parseArgs := parseArgs
  build := fun _ => .ok ()
  rules := fun _ text options => match program O base options text with
    | .error e => .error e
    | .ok s => .ok (outMatches obj s)
  introspect := fun _ options => introspect options

end Guessit
