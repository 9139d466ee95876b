import Verif.Spec.Vocabulary
import Verif.Model.Title
import Mathlib.Tactic.Ring

/-! # C134: what counts as a separator, and what a number is -/

namespace Guessit
open Spec

/-- C134: the separators are these 21 characters. -/
theorem C134_separators (c : Char) : c ∈ seps ↔ c ∈ signs := by
  have h1 : ∀ c ∈ seps, c ∈ signs := by decide
  have h2 : ∀ c ∈ signs, c ∈ seps := by decide
  exact ⟨h1 c, h2 c⟩

/-- C134: those that are not brackets. -/
theorem C134_noBrackets (c : Char) : c ∈ sepsNoGroups ↔ c ∈ signs ∧ c ∉ c!"[](){}" := by
  have h1 : ∀ c ∈ sepsNoGroups, c ∈ signs ∧ c ∉ c!"[](){}" := by decide
  have h2 : ∀ c ∈ signs, c ∉ c!"[](){}" → c ∈ sepsNoGroups := by decide
  exact ⟨h1 c, fun h => h2 c h.1 h.2⟩

/-- C134: those that are not slashes. -/
theorem C134_noSlashes (c : Char) : c ∈ sepsNoFs ↔ c ∈ signs ∧ c ≠ '/' ∧ c ≠ '\\' := by
  have h1 : ∀ c ∈ sepsNoFs, c ∈ signs ∧ c ≠ '/' ∧ c ≠ '\\' := by decide
  have h2 : ∀ c ∈ signs, c ≠ '/' → c ≠ '\\' → c ∈ sepsNoFs := by decide
  exact ⟨h1 c, fun h => h2 c h.1 h.2.1 h.2.2⟩

/-- C134: the separators that split a title are these. -/
theorem C134_titles (c : Char) : c ∈ titleSeps ↔ c = '-' ∨ c = '+' ∨ c = '/' ∨ c = '\\' ∨ c = '|' := by
  simp [titleSeps]

/-- C134: between the numbers of a list of episodes or seasons stands a word of the configuration, or one separator that is not a slash. -/
theorem C134_between (C : EpisodeConfig) (w : Str) : w ∈ C.separators ↔
    w ∈ C.discreteSeparators ∨ w ∈ C.rangeSeparators ∨ ∃ c ∈ signs, c ≠ '/' ∧ c ≠ '\\' ∧ w = [c] := by
  have hweak : w ∈ C.weak ↔ (∃ c ∈ sepsNoFs, [c] = w) ∧ w ∉ C.rangeSeparators := by
    simp [EpisodeConfig.weak, List.mem_filter]
  rw [EpisodeConfig.separators, List.mem_append, List.mem_append, hweak]
  by_cases hr : w ∈ C.rangeSeparators
  · simp [hr]
  · simp only [hr, not_false_eq_true, and_true, or_false, false_or]
    refine or_congr_right ⟨?_, ?_⟩
    · rintro ⟨c, h1, rfl⟩
      obtain ⟨h2, h3, h4⟩ := (C134_noSlashes c).1 h1
      exact ⟨c, h2, h3, h4, rfl⟩
    · rintro ⟨c, h2, h3, h4, rfl⟩
      exact ⟨c, (C134_noSlashes c).2 ⟨h2, h3, h4⟩, rfl⟩

/-- C134: the separators that ask for consecutive numbers are those that make no range. -/
theorem C134_weak (C : EpisodeConfig) (w : Str) : w ∈ C.weak ↔ (∃ c ∈ signs, c ≠ '/' ∧ c ≠ '\\' ∧ w = [c]) ∧ w ∉ C.rangeSeparators := by
  have hweak : w ∈ C.weak ↔ (∃ c ∈ sepsNoFs, [c] = w) ∧ w ∉ C.rangeSeparators := by
    simp [EpisodeConfig.weak, List.mem_filter]
  rw [hweak]
  refine and_congr_left fun _ => ⟨?_, ?_⟩
  · rintro ⟨c, h1, rfl⟩
    obtain ⟨h2, h3, h4⟩ := (C134_noSlashes c).1 h1
    exact ⟨c, h2, h3, h4, rfl⟩
  · rintro ⟨c, h2, h3, h4, rfl⟩
    exact ⟨c, (C134_noSlashes c).2 ⟨h2, h3, h4⟩, rfl⟩

theorem digits_from (u : Uni) (s : Str) : ∀ n, s.foldl (fun n c => n * 10 + (u.digit c).getD 0) n = n * 10 ^ s.length + decimalValue (s.map fun c => (u.digit c).getD 0) := by
  induction s with
  | nil => intro n; simp [decimalValue]
  | cons c s ih =>
    intro n
    rw [List.foldl_cons, ih, List.map_cons, decimalValue, List.length_map, List.length_cons, Nat.pow_succ]
    ring

/-- C134: a number is read in base ten. -/
theorem C134_number (u : Uni) (s : Str) : digitsValue u s = decimalValue (s.map fun c => (u.digit c).getD 0) := by
  rw [digitsValue, digits_from]; simp

example : decimalValue [1, 0, 8] = 108 := by decide
example : c!"and" ∈ defaultEpisodes.separators ∧ c!"." ∈ defaultEpisodes.separators ∧ c!"/" ∉ defaultEpisodes.separators ∧ c!"." ∈ defaultEpisodes.weak ∧ c!"-" ∉ defaultEpisodes.weak := by decide

end Guessit
