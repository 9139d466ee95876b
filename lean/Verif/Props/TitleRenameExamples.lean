import Verif.Props.TitleRename
import Verif.Props.TitleWhole

/-! # Examples for C80–C85, and the film title that is lost -/

namespace Guessit
open Spec

theorem laid_of {s : Ms} (h1 : ∀ m ∈ s.live, m.start < m.stop ∧ m.stop ≤ s.input.length) (h2 : (s.live.map fun m => (m.start, m.stop)).Nodup)
    (h3 : ∀ m ∈ s.markers, m.start < m.stop ∧ m.stop ≤ s.input.length) (h4 : (s.markers.map (Mt.key s.input)).Nodup)
    (h5 : ∀ m ∈ s.markers, m.name = some c!"path" → m.stop = s.input.length ∨ s.input[m.stop]? = some '/' ∨ s.input[m.stop]? = some '\\') :
    Laid s where
  sound := sound_of h1 h2
  markers := h3
  distinct := h4
  parts := by
    rintro part ⟨p1, p2⟩
    rcases h5 part p1 p2 with h | h | h
    · exact .inl h
    · exact .inr ⟨_, h, .inl rfl⟩
    · exact .inr ⟨_, h, .inr rfl⟩

/-! ## C80 -/

def seriesState : Ms where
  input := c!"Great Show/Season 1/E01.mkv"
  live := [wordMt 1 11 19 [] c!"season", wordMt 2 20 23 [] c!"episode", wordMt 3 24 27 [] c!"container"]
  markers := [wordMt 4 0 10 [] c!"path", wordMt 5 11 19 [] c!"path", wordMt 6 20 27 [] c!"path"]

/-- The title is `Great Show`. -/
example : Laid seriesState ∧ (∀ m ∈ seriesState.live, c!"weak-episode" ∈ m.tags → m.name ≠ none) ∧
    (∀ m ∈ seriesState.live, c!"filepart-title" ∉ m.tags) ∧
    LastParts seriesState [wordMt 4 0 10 [] c!"path", wordMt 5 11 19 [] c!"path", wordMt 6 20 27 [] c!"path"] ∧
    FoundIn seriesState (wordMt 6 20 27 [] c!"path") c!"episode" ∧ FoundIn seriesState (wordMt 5 11 19 [] c!"path") c!"season" ∧
    (∃ i, Covers (wordMt 4 0 10 [] c!"path") i ∧ WordAt seriesState.input i ∧ FreeForTitle (fun _ => false) seriesState i) ∧
    (filepart3 (fun _ => false) seriesState).live.map (fun m => (m.start, m.stop, m.name)) =
      [(11, 19, some c!"season"), (20, 23, some c!"episode"), (24, 27, some c!"container"), (0, 10, some c!"title")] := by
  refine ⟨laid_of (by decide) (by decide) (by decide) (by decide +kernel) (by decide), by decide, by decide, ⟨[], rfl⟩,
    ⟨wordMt 2 20 23 [] c!"episode", by simp [seriesState], rfl, by unfold Overlaps; decide⟩,
    ⟨wordMt 1 11 19 [] c!"season", by simp [seriesState], rfl, by unfold Overlaps; decide⟩,
    ⟨0, by unfold Covers; decide, ⟨'G', by decide, by decide⟩, ?_⟩, by decide +kernel⟩
  intro m hm _
  have : ∀ m ∈ seriesState.live, ¬ Covers m 0 := by unfold Covers; decide
  exact this m hm

def showState : Ms where
  input := c!"Great Show/S01E01.mkv"
  live := [wordMt 1 11 14 [] c!"season", wordMt 2 14 17 [] c!"episode"]
  markers := [wordMt 4 0 10 [] c!"path", wordMt 5 11 21 [] c!"path"]

example : Laid showState ∧ LastParts showState [wordMt 4 0 10 [] c!"path", wordMt 5 11 21 [] c!"path"] ∧
    FoundIn showState (wordMt 5 11 21 [] c!"path") c!"episode" ∧ FoundIn showState (wordMt 5 11 21 [] c!"path") c!"season" ∧
    (∃ i, Covers (wordMt 4 0 10 [] c!"path") i ∧ WordAt showState.input i ∧ FreeForTitle (fun _ => false) showState i) ∧
    (filepart2 (fun _ => false) showState).live.map (fun m => (m.start, m.stop, m.name, m.tags)) =
      [(11, 14, some c!"season", []), (14, 17, some c!"episode", []), (0, 10, some c!"title", [c!"filepart-title"])] := by
  refine ⟨laid_of (by decide) (by decide) (by decide) (by decide +kernel) (by decide), ⟨[], rfl⟩,
    ⟨wordMt 2 14 17 [] c!"episode", by simp [showState], rfl, by unfold Overlaps; decide⟩,
    ⟨wordMt 1 11 14 [] c!"season", by simp [showState], rfl, by unfold Overlaps; decide⟩,
    ⟨0, by unfold Covers; decide, ⟨'G', by decide, by decide⟩, ?_⟩, by decide +kernel⟩
  intro m hm _
  have : ∀ m ∈ showState.live, ¬ Covers m 0 := by unfold Covers; decide
  exact this m hm

/-! ## C81, C82 -/

/-- `Great Show/S01E01.Pilot`: two titles, the one after the episode is renamed. -/
def twoTitles : Ms where
  input := c!"Great Show/S01E01.Pilot"
  live := [wordMt 1 0 10 [c!"title"] c!"title", wordMt 2 14 17 [] c!"episode", wordMt 3 18 23 [c!"title"] c!"title"]
  markers := []

example : Sound twoTitles ∧ (titleToEpisodeTitle twoTitles).live.map (fun m => (m.start, m.stop, m.name)) =
    [(0, 10, some c!"title"), (14, 17, some c!"episode"), (18, 23, some c!"episode_title")] :=
  ⟨sound_of (by decide) (by decide), by decide +kernel⟩

/-- With one title nothing changes. -/
example : (titleToEpisodeTitle { twoTitles with live := twoTitles.live.drop 1 }).live.map (fun m => (m.start, m.name)) =
    [(14, some c!"episode"), (18, some c!"title")] := by decide +kernel

/-- `S01E01 Show - Pilot`: the alternative title becomes the episode title; in a file that is no episode it would not stay one. -/
def altState : Ms where
  input := c!"S01E01 Show - Pilot"
  live := [wordMt 1 3 6 [] c!"episode", wordMt 2 7 11 [c!"title"] c!"title", wordMt 3 14 19 [c!"title"] c!"alternative_title"]
  markers := []

example : Sound altState ∧ ToReplace alone altState (wordMt 3 14 19 [c!"title"] c!"alternative_title") ∧
    (alternativeTitleReplace alone altState).live.map (fun m => (m.start, m.name)) =
      [(3, some c!"episode"), (7, some c!"title"), (14, some c!"episode_title")] := by
  have hs : Sound altState := sound_of (by decide) (by decide)
  refine ⟨hs, ?_, by decide +kernel⟩
  rw [← toReplace_iff hs]
  rfl

def subState : Ms where
  input := c!"Movie 2010 Sub"
  live := [wordMt 1 6 10 [] c!"year", wordMt 2 11 14 [] c!"episode_title"]
  markers := []

example : Sound subState ∧ (renameEpisodeTitleWhenMovie subState).live.map (fun m => (m.start, m.name)) =
    [(6, some c!"year"), (11, some c!"alternative_title")] := ⟨sound_of (by decide) (by decide), by decide +kernel⟩

/-! ## C83 -/

/-- `Show.S01E01.Part.1.of.it.720p`: the part number is a piece of the episode title. -/
def partState : Ms where
  input := c!"Show.S01E01.Part.1.of.it.720p"
  live := [wordMt 1 8 11 [] c!"episode", wordMt 2 12 18 [] c!"part", wordMt 3 25 29 [] c!"screen_size"]
  markers := [wordMt 4 0 29 [] c!"path"]

example : Laid partState ∧ (removeTitleConflicts alone partState).live.map (fun m => (m.start, m.name)) =
    [(8, some c!"episode"), (25, some c!"screen_size")] :=
  ⟨laid_of (by decide) (by decide) (by decide) (by decide +kernel) (by decide), by decide +kernel⟩

/-- Without text after it, it stays. -/
example : (removeTitleConflicts alone { partState with input := c!"Show.S01E01.Part.1.......720p" }).live.map (fun m => (m.start, m.name)) =
    [(8, some c!"episode"), (12, some c!"part"), (25, some c!"screen_size")] := by decide +kernel

/-! ## C84, C85 -/

def bonusState : Ms where
  input := c!"Movie/x01-Making.Of.720p"
  live := [wordMt 1 6 9 [] c!"bonus", wordMt 2 20 24 [] c!"screen_size"]
  markers := [wordMt 3 0 5 [] c!"path", wordMt 4 6 24 [] c!"path"]

example : Laid bonusState ∧ FirstOf bonusState.live (fun m => m.name = some c!"bonus" ∧ m.priv = false) (wordMt 1 6 9 [] c!"bonus") ∧
    EndMark bonusState.markers c!"path" (wordMt 1 6 9 [] c!"bonus") (wordMt 4 6 24 [] c!"path") ∧
    outcome (bonusTitle bonusState) = some [(6, 9, some c!"bonus"), (20, 24, some c!"screen_size"), (9, 20, some c!"bonus_title")] := by
  refine ⟨laid_of (by decide) (by decide) (by decide) (by decide +kernel) (by decide), ⟨[], _, rfl, ⟨rfl, rfl⟩, by simp⟩,
    .inl ⟨[wordMt 3 0 5 [] c!"path"], [], rfl, by decide, by decide⟩, by decide +kernel⟩

/-- A film in a collection. -/
def filmState : Ms where
  input := c!"films/720p-James Bond-f21"
  live := [wordMt 1 6 10 [] c!"screen_size", wordMt 2 22 25 [] c!"film"]
  markers := [wordMt 3 0 5 [] c!"path", wordMt 4 6 25 [] c!"path"]

def filmAlone : Ms where
  input := c!"720p-James Bond-f21"
  live := [wordMt 1 0 4 [] c!"screen_size", wordMt 2 16 19 [] c!"film"]
  markers := [wordMt 4 0 19 [] c!"path"]

/-- C85: for `720p-James Bond-f21` the film title is `James Bond`; in a directory, no film title is reported for it. -/
theorem C85_counterexample : Laid filmState ∧ Laid filmAlone ∧
    FirstOf filmState.live (fun m => m.name = some c!"film" ∧ m.priv = false) (wordMt 2 22 25 [] c!"film") ∧
    EndMark filmState.markers c!"path" (wordMt 2 22 25 [] c!"film") (wordMt 4 6 25 [] c!"path") ∧
    FirstFree filmState 6 22 10 22 ∧ HasWordIn filmState.input 10 22 ∧
    outcome (filmTitle filmState) = some [(6, 10, some c!"screen_size"), (22, 25, some c!"film")] ∧
    outcome (filmTitle filmAlone) = some [(0, 4, some c!"screen_size"), (16, 19, some c!"film"), (4, 16, some c!"film_title")] := by
  have hfree : ∀ i, 10 ≤ i → i < 22 → ∀ m ∈ filmState.live, ¬ Covers m i := by
    intro i h1 h2 m hm
    have : m = wordMt 1 6 10 [] c!"screen_size" ∨ m = wordMt 2 22 25 [] c!"film" := by simpa [filmState] using hm
    rcases this with rfl | rfl
    · intro h; have := h.2; simp only [wordMt] at this; omega
    · intro h; have := h.1; simp only [wordMt] at this; omega
  refine ⟨laid_of (by decide) (by decide) (by decide) (by decide +kernel) (by decide),
    laid_of (by decide) (by decide) (by decide) (by decide +kernel) (by decide),
    ⟨[wordMt 1 6 10 [] c!"screen_size"], [], rfl, ⟨rfl, rfl⟩, by decide⟩,
    .inl ⟨[wordMt 3 0 5 [] c!"path"], [], rfl, by decide, by decide⟩, ⟨by decide, by decide, by decide, ?_, hfree, .inl rfl⟩,
    ⟨11, by decide, by decide, 'J', by decide, by decide⟩, by decide +kernel, by decide +kernel⟩
  intro i h1 h2
  exact ⟨wordMt 1 6 10 [] c!"screen_size", by simp [filmState], by show 6 ≤ i; omega, by show i < 10; omega⟩

end Guessit
