import Verif.Model.Whole
import Verif.Props.EngineExamples
import Verif.Props.SeasonEpisodeExamples
import Verif.Props.Api

/-! # A run of the whole program, for the examples -/

namespace Guessit

def plainFloats : Floats where
  F := Str
  ofText := id
  toText := id
  eq := fun a b => decide (a = b)
  eqInt := fun _ _ => false

/-- ASCII letters, no languages and no countries, dates not parsed. -/
def asciiOutside : Outside where
  rx := asciiRx
  wordChar := fun c => c.isAlphanum || c = '_'
  cap := id
  fl := plainFloats
  langs := ⟨fun _ => none, fun _ => none, fun _ => none, fun _ => [], 0, 1⟩
  countries := ⟨fun _ => none, fun _ => [], fun _ => []⟩
  parse := fun _ _ _ => .error .valueError
  regex := fun _ _ => []
  codes := ⟨fun _ => 0, fun _ => 1, fun _ => 2, fun n => 3 + n, fun n => 4 + n⟩
  usGb := fun _ => false

def asciiBase : RuleEnv := { asciiEnv with toInt := fun v => match v with | .int n => some n | _ => none }

/-- guessit with these tables. -/
def asciiSys : Sys Unit := guessitSys asciiOutside asciiBase (fun _ => .none) (fun _ => .ok []) (fun _ => .ok []) (fun _ => .ok .none)

def dictOf : Outcome → Option Dict
  | .value (.dict d) => some d
  | _ => none

theorem dictOf_some {x : Outcome} {d : Dict} (h : dictOf x = some d) : x = .value (.dict d) := by
  unfold dictOf at h
  split at h
  · cases h; rfl
  · cases h

/-- The keys of the dictionary, with their values where they are texts or numbers. -/
def plainItems (x : Outcome) : Option (List (Str × Option (Str ⊕ Int))) := (dictOf x).map fun d => d.map fun kv => ((match kv.1 with | .str s => s | _ => []), match kv.2 with
  | .str s => some (.inl s)
  | .int n => some (.inr n)
  | _ => none)

end Guessit
