import Verif.Props.EnginePlaceRun
import Verif.Props.EngineExamples

/-! # C152: examples -/

namespace Guessit
open Spec

theorem asciiEnv_inside (input : Str) : Inside asciiEnv input where
  sizes := by
    rintro s m c rfl hw _ _ hc
    obtain ⟨h1, h2⟩ := List.mem_filter.1 hc
    rw [Bool.and_eq_true, decide_eq_true_eq] at h2
    exact ⟨h2.1, (hw.1 c h1).1, hw.2 c h1⟩
  marked := by
    rintro s m c rfl hw _ _ hc
    obtain ⟨h1, h2⟩ := List.mem_filter.1 hc
    rw [Bool.and_eq_true, decide_eq_true_eq] at h2
    exact ⟨h2.1, (hw.1 c h1).1, hw.2 c h1⟩
  lower := rfl

/-- What the patterns find in `[GRP].Pilot.720p.mkv`. -/
def bracketed : Ms where
  input := c!"[GRP].Pilot.720p.mkv"
  markers := [{ id := 100, start := 0, stop := 20, name := some c!"path" }, { id := 101, start := 0, stop := 5, name := some c!"group" }]
  live := [{ id := 4, start := 12, stop := 16, name := some c!"screen_size" },
    { id := 8, start := 16, stop := 20, name := some c!"container", tags := [c!"extension"] }]

theorem bracketed_marked : Marked bracketed where
  wf := by unfold WellFormed; decide
  plain := by
    rintro g ⟨hg, hn⟩
    simp only [bracketed, List.mem_cons, List.not_mem_nil, or_false] at hg
    rcases hg with rfl | rfl
    · exact absurd hn (by decide)
    · exact ⟨rfl, rfl, rfl, rfl⟩
  ends := by
    rintro g ⟨hg, hn⟩ i hi c hc
    simp only [bracketed, List.mem_cons, List.not_mem_nil, or_false] at hg
    rcases hg with rfl | rfl
    · exact absurd hn (by decide)
    · rcases hi with rfl | hi
      · cases hc; decide
      · have : i = 4 := by simpa using hi
        subst this
        cases hc; decide

theorem bracketed_before : Early bracketed where
  ids := by decide
  raw := by decide
  groups := by decide
  starts := by decide
  stops := by decide

theorem bracketed_given : PatternsGive [] bracketed.input bracketed.live := by
  intro m hm
  simp only [bracketed, List.mem_cons, List.not_mem_nil, or_false] at hm
  rcases hm with rfl | rfl
  · exact ⟨{ needs := [[c!"screen_size"]], gives := [c!"screen_size"] }, by simp [sources, otherSources], by decide, fun h => absurd h (by decide),
      Or.inr ⟨⟨c!"screen_size", by decide, rfl, fun h => absurd h (by decide)⟩, rfl⟩⟩
  · exact ⟨{ needs := [[c!"container"]], gives := [c!"container"] }, by simp [sources, otherSources], by decide, fun h => absurd h (by decide),
      Or.inr ⟨⟨c!"container", by decide, rfl, fun h => absurd h (by decide)⟩, rfl⟩⟩

/-- The hypotheses hold of it. -/
example (s' : Ms) (h : engine asciiEnv [] bracketed = .ok s') :
    ∀ m ∈ s'.live, (m.name ≠ some c!"type" → m.name ≠ some c!"mimetype" → m.start < m.stop ∧ m.stop ≤ 20) ∧
      (m.name = some c!"type" ∨ m.name = some c!"mimetype" → m.start = 20 ∧ m.stop = 20) :=
  C152_place asciiEnv asciiEnv_natural [] bracketed s' bracketed_given (asciiEnv_inside _) bracketed_marked bracketed_before
    (by unfold WellFormed; decide) h


/-- And this is what is reported. -/
example : reported (engine asciiEnv [] bracketed) = some [
    (some c!"screen_size", 12, 16, .str c!"720p"), (some c!"container", 16, 20, .str c!"mkv"), (some c!"title", 5, 12, .str c!"Pilot"),
    (some c!"release_group", 0, 5, .str c!"GRP"), (some c!"mimetype", 20, 20, .str c!"video/x-matroska"), (some c!"type", 20, 20, .str c!"movie")] := by
  decide +kernel

end Guessit
