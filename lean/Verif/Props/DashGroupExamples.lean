import Verif.Props.DashGroup
import Verif.Props.TitleRenameExamples

/-! # Examples for C87 -/

namespace Guessit
open Spec

/-- The spans, names and values of the matches. -/
def report (s : Ms) : List (Option Str × Nat × Nat × MVal) := s.live.map fun m => (m.name, m.start, m.stop, m.value s.input)

def pathMark (a b : Nat) : Mt := wordMt 0 a b [] c!"path"

def dashState : Ms where
  input := c!"A.720p.x264-CS.mkv"
  live := [wordMt 1 2 6 [] c!"screen_size", wordMt 2 7 11 [] c!"video_codec", wordMt 3 14 18 [] c!"container"]
  markers := [pathMark 0 18]

example : report (dashRun stdGroup dashState) = report dashState ++ [(some c!"release_group", 11, 14, .str c!"CS")] := by decide +kernel

theorem plainParts_of {s : Ms} (h : ∀ m ∈ s.markers, m.start = 0 ∨ sepIn s.input seps m.start = false) : PlainParts s := by
  intro p hp
  rcases h p hp.1 with h | h
  · exact .inl h
  · exact .inr (sepIn_false.1 h)

theorem dashState_laid : Laid dashState := laid_of (by decide) (by decide) (by decide) (by decide) (by decide)

/-- The hypotheses of `C87_end_partial` are met. -/
example : ∃ c, EndGroup stdGroup.u.strip dashState (pathMark 0 18) c ∧ c.start = 11 ∧ c.stop = 14 ∧ ∃ mid, Drops dashState mid (AtEnds c) ∧
    dashRun stdGroup dashState = { mid with live := mid.live ++ named? (cleanGroup stdGroup) dashState c.start c.stop } := by
  have hp : IsPart dashState (pathMark 0 18) := ⟨List.mem_singleton.2 rfl, rfl⟩
  have hpl : PlainParts dashState := plainParts_of (by decide)
  have h : ((detectEnd stdGroup dashState (pathMark 0 18)).map fun c => (c.start, c.stop)) = some (11, 14) := by decide +kernel
  rw [Option.map_eq_some_iff] at h
  obtain ⟨c, h1, h2⟩ := h
  have hc := (detectEnd_iff dashState_laid hp).1 h1
  have h11 : c.start = 11 := congrArg Prod.fst h2
  have h14 : c.stop = 14 := congrArg Prod.snd h2
  refine ⟨c, hc, h11, h14, C87_end_partial stdGroup dashState dashState_laid hpl (by decide) (pathMark 0 18) ?_ c hc⟩
  refine ⟨[], [], rfl, ⟨rfl, ?_⟩, by simp⟩
  rw [← decides_iff dashState_laid hp (hpl _ hp)]
  decide +kernel

def startState : Ms where
  input := c!"abc-the.title.1080p"
  live := [wordMt 1 14 19 [] c!"screen_size"]
  markers := [pathMark 0 19]

example : report (dashRun stdGroup startState) = report startState ++ [(some c!"release_group", 0, 3, .str c!"abc")] := by decide +kernel

theorem startState_laid : Laid startState := laid_of (by decide) (by decide) (by decide) (by decide) (by decide)

/-- The hypotheses of `C87_start_partial` are met. -/
example : ∃ k, StartGroup startState (pathMark 0 19) k ∧
    dashRun stdGroup startState = { startState with live := startState.live ++ [groupMatch (cleanGroup stdGroup) 0 k] } := by
  have hp : IsPart startState (pathMark 0 19) := ⟨List.mem_singleton.2 rfl, rfl⟩
  have hpl : PlainParts startState := plainParts_of (by decide)
  have h : (detectStart startState (pathMark 0 19)).isSome = true := by decide +kernel
  obtain ⟨c, hc⟩ := Option.isSome_iff_exists.1 h
  obtain ⟨k, hk, _⟩ := (detectStart_iff startState_laid hp (hpl _ hp)).1 hc
  refine ⟨k, hk, C87_start_partial stdGroup startState startState_laid hpl (by decide) (pathMark 0 19) ?_ ?_ k hk⟩
  · refine ⟨[], [], rfl, ⟨rfl, ?_⟩, by simp⟩
    rw [← decides_iff startState_laid hp (hpl _ hp)]
    decide +kernel
  · rintro ⟨c, hc⟩
    rw [← detectEnd_iff startState_laid hp] at hc
    have : (detectEnd stdGroup startState (pathMark 0 19)).isSome = false := by decide +kernel
    rw [hc] at this
    cases this

def byState : Ms where
  input := c!"A.720p.x264-BY.mkv"
  live := [wordMt 1 2 6 [] c!"screen_size", wordMt 2 7 11 [] c!"video_codec", wordMt 4 12 14 [] c!"country", wordMt 3 14 18 [] c!"container"]
  markers := [pathMark 0 18]

/-- C87: when the name of the group is a forbidden word, the match found there is dropped although no release group is reported. -/
theorem C87_removed_counterexample : report (dashRun stdGroup byState) =
    [(some c!"screen_size", 2, 6, .str c!"720p"), (some c!"video_codec", 7, 11, .str c!"x264"), (some c!"container", 14, 18, .str c!".mkv")] := by
  decide +kernel

def paritySt (live : List Mt) : Ms where
  input := c!"a/-bc-d.e"
  live := live
  markers := [pathMark 0 1, pathMark 2 9]

/-- C87: in an element of the path that begins with a separator, whether the group is found depends on what was found in the element
before. -/
theorem C87_parity_counterexample : report (dashRun stdGroup (paritySt [])) = [(some c!"release_group", 2, 5, .str c!"bc")] ∧
    report (dashRun stdGroup (paritySt [wordMt 1 0 1 []])) = report (paritySt [wordMt 1 0 1 []]) := by decide +kernel

end Guessit
