import Verif.Props.EngineMarks
import Verif.Props.DashGroupExamples

/-! # Examples for C88 and C89 -/

namespace Guessit
open Spec

def sceneState : Ms where
  input := c!"T.720p.x264[GRP]/U.x264-B.1.mkv"
  live := [wordMt 1 0 1 [] c!"title", wordMt 2 2 6 [] c!"screen_size", wordMt 3 7 11 [] c!"video_codec",
    wordMt 4 17 18 [] c!"title", wordMt 5 19 23 [] c!"video_codec", wordMt 6 24 25 [] c!"title", wordMt 7 27 31 [] c!"container"]
  markers := marksOf [] c!"([{" c!")]}" c!"T.720p.x264[GRP]/U.x264-B.1.mkv"

theorem sceneState_sound : Sound sceneState := sound_of (by decide) (by decide)

/-- In the directory the group is unwrapped; in the name the second title becomes part of the group. -/
example : report (sceneRun stdGroup sceneState) =
    [(some c!"title", 0, 1, .str c!"T"), (some c!"screen_size", 2, 6, .str c!"720p"), (some c!"video_codec", 7, 11, .str c!"x264"),
     (some c!"title", 17, 18, .str c!"U"), (some c!"video_codec", 19, 23, .str c!"x264"), (some c!"container", 27, 31, .str c!".mkv"),
     (some c!"release_group", 23, 27, .str c!"B.1"), (some c!"release_group", 12, 15, .str c!"GRP")] := by decide +kernel

/-- The hypotheses of `C88_scene` are met. -/
example : Laid sceneState ∧ PartsApart sceneState ∧ PlainGroups sceneState := by
  obtain ⟨h1, h2, h3, _⟩ := C23_state_laid [] c!"([{" c!")]}" (by decide) sceneState sceneState_sound rfl
  exact ⟨h1, h2, h3⟩

/-- There are scene release groups in both elements. -/
example : (∃ g, SceneOf (cleanGroup stdGroup) stdGroup.intLike sceneState (mark c!"path" 0 16) g ∧ g.start = 12 ∧ g.stop = 15) ∧
    ∃ g, SceneOf (cleanGroup stdGroup) stdGroup.intLike sceneState (mark c!"path" 17 31) g ∧ g.start = 23 ∧ g.stop = 27 := by
  obtain ⟨_, _, h3, _⟩ := C23_state_laid [] c!"([{" c!")]}" (by decide) sceneState sceneState_sound rfl
  constructor
  · have h : ((sceneFound stdGroup sceneState (mark c!"path" 0 16)).map fun c => (c.start, c.stop)) = some (12, 15) := by decide +kernel
    rw [Option.map_eq_some_iff] at h
    obtain ⟨c, hc, he⟩ := h
    exact ⟨c, (sceneFound_iff sceneState_sound h3 (by decide) (by decide)).1 hc, congrArg Prod.fst he, congrArg Prod.snd he⟩
  · have h : ((sceneFound stdGroup sceneState (mark c!"path" 17 31)).map fun c => (c.start, c.stop)) = some (23, 27) := by decide +kernel
    rw [Option.map_eq_some_iff] at h
    obtain ⟨c, hc, he⟩ := h
    exact ⟨c, (sceneFound_iff sceneState_sound h3 (by decide) (by decide)).1 hc, congrArg Prod.fst he, congrArg Prod.snd he⟩

def animeState : Ms where
  input := c!"[12] [GRP FR] Show - 01.mkv"
  live := [wordMt 1 10 12 [c!"weak-language"] c!"language", wordMt 2 14 18 [] c!"title", wordMt 3 21 23 [] c!"episode",
    wordMt 4 23 27 [] c!"container"]
  markers := marksOf [] c!"([{" c!")]}" c!"[12] [GRP FR] Show - 01.mkv"

theorem animeState_sound : Sound animeState := sound_of (by decide) (by decide)

/-- A group that is a number is not taken; the language in doubt inside the group is dropped. -/
example : report (animeRun stdGroup animeState) =
    [(some c!"title", 14, 18, .str c!"Show"), (some c!"episode", 21, 23, .str c!"01"), (some c!"container", 23, 27, .str c!".mkv"),
     (some c!"release_group", 5, 13, .str c!"GRP FR")] := by decide +kernel

/-- The hypotheses of `C89_anime` are met, and there is such a group. -/
example : Laid animeState ∧ PlainGroups animeState ∧ (¬ ∃ m ∈ animeState.live, m.name = some c!"release_group") ∧
    ∃ g, AnimeGroup stdGroup.intLike animeState (mark c!"path" 0 27) g ∧ g.start = 5 ∧ g.stop = 13 := by
  obtain ⟨h1, _, h3, _⟩ := C23_state_laid [] c!"([{" c!")]}" (by decide) animeState animeState_sound rfl
  refine ⟨h1, h3, by decide, ?_⟩
  have h : ((firstTrue (rangeOf animeState.input animeState.markers 0 27 (emptyGroup stdGroup animeState))).map fun c => (c.start, c.stop)) =
      some (5, 13) := by decide +kernel
  rw [Option.map_eq_some_iff] at h
  obtain ⟨c, hc, he⟩ := h
  exact ⟨c, (animeGroup_iff (part := mark c!"path" 0 27) h1 h3).1 hc, congrArg Prod.fst he, congrArg Prod.snd he⟩

end Guessit
