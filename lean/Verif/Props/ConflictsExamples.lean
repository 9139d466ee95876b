import Verif.Props.Absolute
import Verif.Props.SceneGroupExamples

/-! # Examples for C90–C92 -/

namespace Guessit
open Spec

/-- A number that comes from the pattern `from_`. -/
def numMt (id a b : Nat) (name from_ : Str) (v : Int) : Mt :=
  { id, start := a, stop := b, name := some name, val := some (.int v), iname := some from_, tags := [c!"weak-episode"] }

/-- The range separators are children of the initiators of the episodes they link, those with identities below 10. -/
def rangeKin : Kin where
  initiator := id
  children m := if m.id < 10 then [wordMt 0 5 6 [] c!"episodeSeparator"] else []
  pattern := Mt.id
  ancestors _ := []

/-- `a 101-102 304/b 506`: `304` and `506` may be episodes of absolute numbering, or a season and an episode. -/
def rangeState : Ms where
  input := c!"a 101-102 304/b 506"
  live := [numMt 1 2 5 c!"episode" c!"weak_episode" 101, numMt 2 6 9 c!"episode" c!"weak_episode" 102,
    numMt 11 10 11 c!"season" c!"weak_duplicate" 3, numMt 12 11 13 c!"episode" c!"weak_duplicate" 4,
    numMt 13 16 19 c!"episode" c!"weak_episode" 506,
    numMt 14 16 17 c!"season" c!"weak_duplicate" 5, numMt 15 17 19 c!"episode" c!"weak_duplicate" 6]
  markers := marksOf [] c!"([{" c!")]}" c!"a 101-102 304/b 506"

theorem rangeState_sound : Sound rangeState := sound_of (by decide) (by decide)

theorem rangeState_laid : Laid rangeState ∧ PlainGroups rangeState := by
  obtain ⟨h1, _, h3, _⟩ := C23_state_laid [] c!"([{" c!")]}" (by decide) rangeState rangeState_sound rfl
  exact ⟨h1, h3⟩

theorem rangeState_plain : ¬ LooksAnime rangeState := by
  rw [← isAnime_iff rangeState_laid.1 rangeState_laid.2]
  decide +kernel

/-- The range of the directory is kept; both readings of `506` are lost: what was decided for the directory leaks to the name. -/
example : report (weakConflicts rangeKin none rangeState) =
    [(some c!"episode", 2, 5, .int 101), (some c!"episode", 6, 9, .int 102)] := by decide +kernel

/-- There is a name, with no range in it, of which no reading is kept, because of a directory before it. -/
theorem C90_leak_counterexample : ∃ (kin : Kin) (s : Ms) (part x y : Mt), Laid s ∧ PlainGroups s ∧ ¬ LooksAnime s ∧ IsPart s part ∧
    x ∈ s.live ∧ Overlaps part x ∧ x.iname = some c!"weak_episode" ∧ y ∈ s.live ∧ Overlaps part y ∧ y.iname = some c!"weak_duplicate" ∧
    (¬ ∃ m ∈ s.live, Ranged kin m ∧ Overlaps part m) ∧ ¬ ∃ m ∈ (weakConflicts kin none s).live, Overlaps part m := by
  refine ⟨rangeKin, rangeState, mark c!"path" 14 19, numMt 13 16 19 c!"episode" c!"weak_episode" 506,
    numMt 14 16 17 c!"season" c!"weak_duplicate" 5, rangeState_laid.1, rangeState_laid.2, rangeState_plain, ?_, ?_, ?_, rfl, ?_, ?_, rfl, ?_, ?_⟩
  · exact ⟨by simp [show rangeState.markers = [mark c!"path" 0 13, mark c!"path" 14 19] from rfl], rfl⟩
  · simp [rangeState]
  · unfold Overlaps; decide
  · simp [rangeState]
  · unfold Overlaps; decide
  · unfold Ranged Overlaps; decide
  · have h : ((weakConflicts rangeKin none rangeState).live.all fun m => !(decide (m.start < 19) && decide (14 < m.stop))) = true := by
      decide +kernel
    rw [List.all_eq_true] at h
    rintro ⟨m, hm, h1, h2⟩
    have := h m hm
    simp [h1, h2] at this
    have e1 : (mark c!"path" 14 19).stop = 19 := rfl
    have e2 : (mark c!"path" 14 19).start = 14 := rfl
    omega

/-- The hypotheses of `C90_not_anime` are met, and there are parts of each sort. -/
example : (∃ q, RangePart rangeKin rangeState q) ∧ ∃ part, IsPart rangeState part ∧ HasFrom rangeState c!"weak_duplicate" part ∧
    ¬ ∃ m ∈ rangeState.live, Ranged rangeKin m ∧ Overlaps part m := by
  have hm : rangeState.markers = [mark c!"path" 0 13, mark c!"path" 14 19] := rfl
  refine ⟨⟨mark c!"path" 0 13, ⟨by rw [hm]; simp, rfl⟩, ?_, ?_⟩, mark c!"path" 14 19, ⟨by rw [hm]; simp, rfl⟩, ?_, ?_⟩
  · unfold HasFrom Overlaps; decide
  · unfold Ranged Overlaps; decide
  · unfold HasFrom Overlaps; decide
  · unfold Ranged Overlaps; decide

/-- `[G] A 102`, brackets in which nothing was found: an anime. -/
def fansubState : Ms where
  input := c!"[G] A 102"
  live := [numMt 1 6 9 c!"episode" c!"weak_episode" 102, numMt 2 6 7 c!"season" c!"weak_duplicate" 1, numMt 3 7 9 c!"episode" c!"weak_duplicate" 2]
  markers := marksOf [] c!"([{" c!")]}" c!"[G] A 102"

theorem fansubState_sound : Sound fansubState := sound_of (by decide) (by decide)

/-- The absolute number is kept, and tagged. -/
example : ((weakConflicts rangeKin none fansubState).live.map fun m => (m.start, m.stop, m.tags)) =
    [(6, 9, [c!"weak-episode", c!"anime"])] := by decide +kernel

/-- The hypotheses of `C90_anime` are met. -/
example : Laid fansubState ∧ PlainGroups fansubState ∧ LooksAnime fansubState := by
  obtain ⟨h1, _, h3, _⟩ := C23_state_laid [] c!"([{" c!")]}" (by decide) fansubState fansubState_sound rfl
  refine ⟨h1, h3, ?_⟩
  rw [← isAnime_iff h1 h3]
  decide +kernel

/-! ## C91 -/

/-- `112 Name S02E05`, where `112` is dropped (there is an SxxExx episode), and `113 Name`, where it is renamed. -/
def leadState : Ms where
  input := c!"112 Name S02E05/113 Name"
  live := [numMt 1 0 3 c!"episode" c!"weak_episode" 112, { numMt 2 10 12 c!"season" c!"season" 2 with tags := [c!"SxxExx"] },
    { numMt 3 13 15 c!"episode" c!"episode" 5 with tags := [c!"SxxExx"] }, numMt 4 16 19 c!"episode" c!"weak_episode" 113]
  markers := marksOf [] c!"([{" c!")]}" c!"112 Name S02E05/113 Name"

theorem leadState_sound : Sound leadState := sound_of (by decide) (by decide)

/-- No match has children. -/
def loneKin : Kin where
  initiator := id
  children _ := []
  pattern := Mt.id
  ancestors _ := []

/-- The weak number of the name becomes an absolute episode: it is itself the "episode beyond the first character". -/
example : ((renameAbsolute loneKin leadState).map report) =
    some [(some c!"season", 10, 12, .int 2), (some c!"episode", 13, 15, .int 5), (some c!"absolute_episode", 16, 19, .int 113)] := by decide +kernel

theorem leadState_laid : Laid leadState := (C23_state_laid [] c!"([{" c!")]}" (by decide) leadState leadState_sound rfl).1

theorem lead_no_ranges (s : Ms) : ¬ ∃ i j, TwoRanges loneKin s i j := by
  rintro ⟨i, _, ⟨_, a, b, h, _⟩, _⟩
  exact absurd h.length_le (by simp [loneKin])

/-- The hypotheses of `C91_leading` are met, by both sorts of numbers. -/
example : Laid leadState ∧ ¬ Found leadState.live c!"absolute_episode" ∧ (¬ ∃ i j, TwoRanges loneKin leadState i j) ∧
    (∃ e, EpisodeBeyond leadState (mark c!"path" 0 15) e ∧ c!"SxxExx" ∈ e.tags) ∧
    LeadingNumber leadState (mark c!"path" 16 24) (numMt 4 16 19 c!"episode" c!"weak_episode" 113) := by
  have hm : leadState.markers = [mark c!"path" 0 15, mark c!"path" 16 24] := rfl
  refine ⟨leadState_laid, by unfold Found; decide, lead_no_ranges _, ?_, ⟨by rw [hm]; simp, rfl⟩, rfl, rfl, ?_⟩
  · refine ⟨{ numMt 3 13 15 c!"episode" c!"episode" 5 with tags := [c!"SxxExx"] }, ⟨by simp [leadState], rfl, by decide, by decide⟩, by simp⟩
  · exact ⟨numMt 4 16 19 c!"episode" c!"weak_episode" 113, by simp [leadState], rfl, by decide, by decide⟩

/-- A weak number that is the only episode of a name becomes an absolute episode. -/
theorem C91_lone_counterexample : ∃ (kin : Kin) (s : Ms) (part x : Mt), Laid s ∧ IsPart s part ∧ x ∈ s.live ∧ x.name = some c!"episode" ∧ Overlaps part x ∧
    (∀ y ∈ s.live, y.name = some c!"episode" → Overlaps part y → y.start = x.start ∧ y.stop = x.stop) ∧
    ∃ s', renameAbsolute kin s = some s' ∧ (∀ y ∈ s'.live, y.name = some c!"episode" → ¬ Overlaps part y) ∧
      called c!"absolute_episode" x ∈ s'.live := by
  obtain ⟨s', h1, h2⟩ := C91_leading loneKin leadState leadState_laid (by unfold Found; decide) (lead_no_ranges _)
  have hm : leadState.markers = [mark c!"path" 0 15, mark c!"path" 16 24] := rfl
  have hlead : LeadingNumber leadState (mark c!"path" 16 24) (numMt 4 16 19 c!"episode" c!"weak_episode" 113) :=
    ⟨⟨by rw [hm]; simp, rfl⟩, rfl, rfl, numMt 4 16 19 c!"episode" c!"weak_episode" 113, by simp [leadState], rfl, by decide, by decide⟩
  have hno : ¬ ∃ e, EpisodeBeyond leadState (mark c!"path" 16 24) e ∧ c!"SxxExx" ∈ e.tags := by
    have hd : ∀ e ∈ leadState.live, e.name = some c!"episode" → 17 < e.stop → c!"SxxExx" ∉ e.tags := by decide
    rintro ⟨e, ⟨e1, e2, e3, e4⟩, e5⟩
    exact hd e e1 e2 e4 e5
  have hin : numMt 4 16 19 c!"episode" c!"weak_episode" 113 ∈ leadState.live := by simp [leadState]
  refine ⟨loneKin, leadState, mark c!"path" 16 24, numMt 4 16 19 c!"episode" c!"weak_episode" 113, leadState_laid, hlead.1, hin, rfl, ?_, ?_, s', h1, ?_, ?_⟩
  · unfold Overlaps; decide
  · unfold Overlaps; decide
  · have hr : ((renameAbsolute loneKin leadState).map fun s => s.live.all fun m =>
        !(decide (m.name = some c!"episode") && decide (m.start < 24) && decide (16 < m.stop))) = some true := by decide +kernel
    rw [h1, Option.map_some, Option.some.injEq, List.all_eq_true] at hr
    rintro y hy hn ⟨o1, o2⟩
    have := hr y hy
    have e1 : (mark c!"path" 16 24).stop = 24 := rfl
    have e2 : (mark c!"path" 16 24).start = 16 := rfl
    rw [e1] at o1
    rw [e2] at o2
    simp [hn, o1, o2] at this
  · obtain ⟨kept, changed, _, _, _, h5, h6⟩ := h2.moved
    rw [h6]
    exact List.mem_append.2 (Or.inr (List.mem_map.2 ⟨_, (h5 _).2 ⟨hin, _, hlead, hno⟩, rfl⟩))

/-- `S02E04-05 25-26`: the matches 1 and 2 belong to the whole match 10, the matches 3 and 4 to the whole match 20. -/
def twoKin : Kin where
  initiator m := if m.id ≤ 2 then wordMt 10 2 11 [] c!"a" else wordMt 20 12 17 [] c!"b"
  children m := if m.id = 10 then [numMt 1 6 8 c!"episode" c!"a" 4, numMt 2 9 11 c!"episode" c!"a" 5]
    else [numMt 3 12 14 c!"episode" c!"b" 25, numMt 4 15 17 c!"episode" c!"b" 26]
  pattern := Mt.id
  ancestors _ := []

def twoState : Ms where
  input := c!"A S02E04-05 25-26"
  live := [numMt 1 6 8 c!"episode" c!"a" 4, numMt 2 9 11 c!"episode" c!"a" 5, numMt 3 12 14 c!"episode" c!"b" 25, numMt 4 15 17 c!"episode" c!"b" 26]
  markers := marksOf [] c!"([{" c!")]}" c!"A S02E04-05 25-26"

theorem twoState_sound : Sound twoState := sound_of (by decide) (by decide)

example : ((renameAbsolute twoKin twoState).map report) =
    some [(some c!"episode", 6, 8, .int 4), (some c!"episode", 9, 11, .int 5), (some c!"absolute_episode", 12, 14, .int 25),
      (some c!"absolute_episode", 15, 17, .int 26)] := by decide +kernel

/-- The hypotheses of `C91_two` are met. -/
example : Laid twoState ∧ ¬ Found twoState.live c!"absolute_episode" ∧ TwoRanges twoKin twoState (wordMt 10 2 11 [] c!"a") (wordMt 20 12 17 [] c!"b") ∧
    FirstOf twoState.live (InRangeOf twoKin twoState (wordMt 10 2 11 [] c!"a")) (numMt 1 6 8 c!"episode" c!"a" 4) ∧
    FirstOf twoState.live (InRangeOf twoKin twoState (wordMt 20 12 17 [] c!"b")) (numMt 3 12 14 c!"episode" c!"b" 25) := by
  refine ⟨(C23_state_laid [] c!"([{" c!")]}" (by decide) twoState twoState_sound rfl).1, by unfold Found; decide, ⟨?_, ?_, by decide +kernel, ?_⟩, ?_, ?_⟩
  · exact ⟨⟨numMt 1 6 8 c!"episode" c!"a" 4, by simp [twoState], rfl, rfl⟩, _, _, List.Sublist.refl [_, _], rfl, rfl⟩
  · exact ⟨⟨numMt 3 12 14 c!"episode" c!"b" 25, by simp [twoState], rfl, rfl⟩, _, _, List.Sublist.refl [_, _], rfl, rfl⟩
  · rintro k ⟨⟨m, _, _, rfl⟩, _⟩
    by_cases hm : m.id ≤ 2
    · exact Or.inl (by simp [twoKin, hm])
    · exact Or.inr (by simp [twoKin, hm])
  · refine ⟨[], [numMt 2 9 11 c!"episode" c!"a" 5, numMt 3 12 14 c!"episode" c!"b" 25, numMt 4 15 17 c!"episode" c!"b" 26], rfl, ⟨rfl, rfl⟩, by simp⟩
  · refine ⟨[numMt 1 6 8 c!"episode" c!"a" 4, numMt 2 9 11 c!"episode" c!"a" 5], [numMt 4 15 17 c!"episode" c!"b" 26], rfl, ⟨rfl, rfl⟩, ?_⟩
    intro z hz
    simp only [List.mem_cons, List.not_mem_nil, or_false] at hz
    rintro ⟨_, hc⟩
    rcases hz with rfl | rfl
    · exact absurd (congrArg MtKey.start hc) (by decide)
    · exact absurd (congrArg MtKey.start hc) (by decide)

/-! ## C92 -/

/-- `S01D02`: the marker `D` and the number come from the same match. -/
def discKin : Kin where
  initiator _ := wordMt 10 0 6 [] c!"a"
  children _ := [numMt 1 1 3 c!"season" c!"a" 1, wordMt 2 3 4 [] c!"episodeMarker", numMt 3 4 6 c!"episode" c!"a" 2]
  pattern := Mt.id
  ancestors _ := []

def discState : Ms where
  input := c!"S01D02"
  live := [numMt 1 1 3 c!"season" c!"a" 1, wordMt 2 3 4 [] c!"episodeMarker", numMt 3 4 6 c!"episode" c!"a" 2]
  markers := []

example : report (renameDisc discKin (List.map Char.toLower) false discState) =
    [(some c!"season", 1, 3, .int 1), (some c!"disc", 4, 6, .int 2), (some c!"discMarker", 3, 4, .str c!"D")] := by decide +kernel
example : report (renameDisc discKin (List.map Char.toLower) true discState) = [] := by decide +kernel

/-- The hypotheses of `C92_disc` and `C92_disabled` are met, and there is a marker. -/
example : Sound discState ∧ KinFound discKin discState ∧ DiscMarker (List.map Char.toLower) discState (wordMt 2 3 4 [] c!"episodeMarker") := by
  have hs : Sound discState := sound_of (by decide) (by decide)
  refine ⟨hs, ?_, by simp [discState], rfl, c!"D", by decide +kernel, by decide⟩
  intro m _ c hc x hx hk
  exact key_inj hs hx hc hk

end Guessit
