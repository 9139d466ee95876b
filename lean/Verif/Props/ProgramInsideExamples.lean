import Verif.Props.ProgramInside
import Verif.Props.GuessRuns

/-! # A run that meets the hypotheses of C152 and C37 for the whole program -/

namespace Guessit
open Spec

set_option maxRecDepth 100000

theorem asciiOutside_sized : asciiOutside.Sized where
  lower := fun t => List.length_map ..
  regex := by intro p t x hx; cases hx

/-- The places of what the patterns report. -/
def placesOf (x : Except PyErr (List Grown)) : Option (List (Nat × Nat)) := match x with
  | .ok gs => some ((reportedBy gs).map fun m => (m.start, m.stop))
  | .error _ => none

/-- The patterns find numbers, containers and a year in `(2001).mkv`. -/
theorem bracket_places : placesOf (grownOf asciiOutside [] c!"(2001).mkv") = some [(1, 5), (1, 5), (1, 5), (1, 3), (3, 5), (6, 10), (7, 10), (1, 5)] := by
  decide +kernel

/-- C152 and C37 speak of `(2001).mkv`. -/
example (s' : Ms) (h : program asciiOutside asciiBase [] c!"(2001).mkv" = .ok s') :
    (∀ m ∈ s'.live, (m.name ≠ some c!"type" → m.name ≠ some c!"mimetype" → m.start < m.stop ∧ m.stop ≤ 10) ∧
      (m.name = some c!"type" ∨ m.name = some c!"mimetype" → m.start = 10 ∧ m.stop = 10)) ∧
    ∀ m ∈ s'.live, m.name ≠ some c!"type" → m.name ≠ some c!"mimetype" → Bare (m.raw c!"(2001).mkv") :=
  ⟨C152_program asciiOutside asciiOutside_sized asciiBase asciiBase_lower rfl [] c!"(2001).mkv" s' h,
    C37_program asciiOutside asciiOutside_sized asciiBase asciiBase_lower rfl [] c!"(2001).mkv" s' h⟩

end Guessit
