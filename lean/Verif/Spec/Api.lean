import Verif.Model.Api

/-!
# Specification vocabulary for the API properties (C08–C16)
-/

namespace Guessit.Spec

/-- The configuration that a call with these options defines on its own: what its files say, decoded. -/
def ownConfig (env : Env) (options : Dict) : Except PyErr Dict :=
  match loadConfig env options with
  | .error e => .error e
  | .ok c => fixDict [] c

/-- The advanced configuration that a call with these options defines on its own. -/
def ownAdvanced (env : Env) (options : Dict) : Except PyErr Dict :=
  match ownConfig env options with
  | .error e => .error e
  | .ok c => mergeOptions [c.getD (.str c!"advanced_config"), options.getD (.str c!"advanced_config")]

/-- The calls that use the default rules builder. -/
def DefaultBuilder {R : Type} : Call R → Prop
  | .configure _ (some _) _ => False
  | _ => True

/-- The call returned normally. -/
def Outcome.Success : Outcome → Prop
  | .value _ => True
  | _ => False

/-- The options a call passes, if it takes options. -/
def Call.opts? {R : Type} : Call R → Option OptArg
  | .configure o _ _ => some o
  | .guessit _ o => some o
  | .properties o => some o
  | .reset => none

/-- Whether a call forces reloading. -/
def Call.force {R : Type} : Call R → Bool
  | .configure _ _ f => f
  | _ => false

/-- A call whose configuration step fails while merging the advanced configuration or while building the rules. -/
def BreaksConfig {R : Type} (S : Sys R) (env : Env) (st : Api R) (c : Call R) : Prop :=
  ∃ o options e, Call.opts? c = some o ∧ sanitize S o = .ok options ∧
    ((st.configure S env options none (Call.force c)).2 = .error (.merge e) ∨
     (st.configure S env options none (Call.force c)).2 = .error (.build e))

/-- No call of the history breaks the configuration (they may fail in any other way). -/
def NeverBreaks {R : Type} (S : Sys R) (env : Env) : Api R → List (Call R) → Prop
  | _, [] => True
  | st, c :: cs => ¬ BreaksConfig S env st c ∧ NeverBreaks S env (st.step S env c).1 cs

/-- Running a history of calls in a fixed environment. -/
def runAll {R : Type} (S : Sys R) (env : Env) (st : Api R) (cs : List (Call R)) : Api R × List Outcome :=
  Api.run S st (cs.map fun c => (env, c))

end Guessit.Spec
