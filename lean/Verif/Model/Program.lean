import Verif.Model.Pipeline
import Verif.Model.Declared
import Verif.Model.Marks

/-!
# The whole program

`Rebulk.matches` (rebulk, external) as guessit uses it: the markers are set, every declaration that is not disabled reports what it finds, and the rules run on that.
-/

namespace Guessit

/-- What the declarations that are not disabled find, declaration after declaration, each with its number; the first error is raised. -/
def familiesOf (g : Dict) (s : Str) : Nat → List Declared → Except PyErr (List (Nat × Family))
  | _, [] => .ok []
  | n, d :: ds =>
    if passes g d.needs && d.wanted g then match d.found g s with
      | .error e => .error e
      | .ok fs => match familiesOf g s (n + 1) ds with
        | .error e => .error e
        | .ok rest => .ok (fs.map (fun f => (n, f)) ++ rest)
    else familiesOf g s (n + 1) ds

/-- Where the identities of the matches of the patterns begin; a rule gives small ones to the matches it makes (what they are does not matter to the rules: no rule asks for
the relatives of a match that is no longer, or was never, in a family). -/
def firstIdentity : Nat := 1048576

/-- The matches of an input, with their families. -/
def grownOf (O : Outside) (g : Dict) (s : Str) : Except PyErr (List Grown) := match familiesOf g s 0 (allDeclared O) with
  | .error e => .error e
  | .ok fs => .ok (growFrom firstIdentity fs)

/-- `int(proper.children.named('proper_count', 0).value)` (other.py:102-103); the group is made of digits. -/
def properNumber (u : Uni) (gs : List Grown) (input : Str) (m : Mt) : Option Int :=
  ((familyOf gs m).bind fun g => (named g.kids c!"proper_count").head?).bind fun c => match pyInt u (c.raw input) with
    | .ok n => some n
    | .error _ => none

/-- The environment of the rules: what the configuration and Python give (`base`), and what the patterns found.  The value of the undetermined language is a string: rebulk
leaves a value that is given unformatted (`to_rebulk_match`, language.py:180-186). -/
def ruleEnvOf (O : Outside) (base : RuleEnv) (gs : List Grown) (input : Str) : RuleEnv :=
  { base with
    und := .str c!"und"
    kin := kinOf gs
    solverOf := fun s m => (tradeOf gs m).map (solverFor { uni := O.rx.u, input := s.input, kin := kinOf gs s, usGb := O.usGb })
    number := properNumber O.rx.u gs input }

/-- What the rules begin with (rules/__init__.py:53-54: the markers are made first). -/
def beginning (g : Dict) (gs : List Grown) (s : Str) : Ms := { input := s, live := reportedBy gs, markers := marksOf g c!"([{" c!")]}" s }

/-- `Rebulk.matches(string, context)`. -/
def program (O : Outside) (base : RuleEnv) (g : Dict) (s : Str) : Except PyErr Ms := match grownOf O g s with
  | .error e => .error e
  | .ok gs => engine (ruleEnvOf O base gs s) g (beginning g gs s)

end Guessit
