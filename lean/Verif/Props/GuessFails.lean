import Verif.Props.GuessRuns

/-! # Calls that fail in `StripSeparators` -/

namespace Guessit
open Spec

set_option maxRecDepth 100000

/-- The call raises `GuessitException`. -/
def fails : Outcome → Bool
  | .guessitException _ => true
  | _ => false

/-- Python's lowering of `İ` (U+0130) is two characters, `i` and a dot above. -/
def longUni : Uni := { asciiUni with lower := fun t => t.flatMap fun c => if c = 'İ' then ['i', '̇'] else [c.toLower] }
def longOutside : Outside := { asciiOutside with rx := { asciiRx with u := longUni } }
def longSys : Sys Unit := guessitSys longOutside { asciiBase with uni := longUni } (fun _ => .none) (fun _ => .ok []) (fun _ => .ok []) (fun _ => .ok .none)

/-- `guessit('a - b', {'expected_title': ['-']})` raises: the expected title is found, it is one separator, and there is nothing left of it when it is stripped. -/
theorem C37_expected_counterexample : fails ((Api.init : Api Unit).guessit asciiSys toyEnv (.str c!"a - b") (.dict [(.str c!"expected_title", .list [.str c!"-"])])).2 = true := by
  decide +kernel

/-- `guessit('İİİ.4k.')` raises: `4k` is looked for in the lowered name, which is longer than the name, so it is reported after the end of the name, where there is no text. -/
theorem C37_lowered_counterexample : fails ((Api.init : Api Unit).guessit longSys toyEnv (.str c!"İİİ.4k.") .none).2 = true := by
  decide +kernel

/-- What is reported in that name before the rules: a screen size after its end. -/
theorem C152_lowered_counterexample : ∃ gs, grownOf longOutside [] c!"İİİ.4k." = .ok gs ∧
    ∃ m ∈ reportedBy gs, m.name = some c!"screen_size" ∧ c!"İİİ.4k.".length ≤ m.start := by
  have h : (match grownOf longOutside [] c!"İİİ.4k." with
      | .ok gs => (reportedBy gs).any fun m => decide (m.name = some c!"screen_size") && decide (7 ≤ m.start)
      | .error _ => false) = true := by decide +kernel
  split at h
  · rename_i gs hg
    obtain ⟨m, hm, hx⟩ := List.any_eq_true.1 h
    rw [Bool.and_eq_true] at hx
    exact ⟨gs, hg, m, hm, of_decide_eq_true hx.1, of_decide_eq_true hx.2⟩
  · cases h

end Guessit
