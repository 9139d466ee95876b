import Verif.Model.Api

/-! # Specification vocabulary for calls of `guessit` (C153 and later) -/

namespace Guessit.Spec

/-- The options in force in a call: those of the configuration, and those of the caller on top. -/
def optionsInForce {R : Type} (S : Sys R) (env : Env) (st : Api R) (o : OptArg) : Except PyErr Dict := match sanitize S o with
  | .error e => .error e
  | .ok options => match (st.configure S env options none false).2 with
    | .error e => .error e.err
    | .ok config => mergeOptions [.dict config, .dict options]

/-- The dictionary has the property `p`. -/
def Has (d : Dict) (p : Str) : Prop := ∃ v, d.get? (.str p) = some v

/-- The value of a property in the dictionary, when there is one value: itself, or the list of it with `enforce_list`. -/
def oneValue (opts : Dict) (v : PyVal) : PyVal := if truthy (opts.getD (.str c!"enforce_list")) then .list [v] else v

end Guessit.Spec
