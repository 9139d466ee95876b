import Verif.Props.EnginePlaceTitles
import Verif.Props.EnginePlaceRules

/-! # Where the release groups are -/

namespace Guessit
open Spec

/-- A separator opens and closes every bracketed group. -/
def EndsInSeps (s : Ms) : Prop := ∀ g, InGroups s g → ∀ i, i = g.start ∨ i + 1 = g.stop → ∀ c, s.input[i]? = some c → c ∈ seps

theorem wordy_slice {input : Str} {h : Nat × Nat} (hw : wordy input h = true) : sliceOf input h ≠ [] := by
  intro hn
  unfold wordy at hw
  rw [hn] at hw
  revert hw; decide

theorem endCandidate_placed {e : GroupEnv} {s : Ms} {part c : Mt} (hw : Held s.input s.live) (h : endCandidate e s part = some c) :
    Placed s.input c := by
  unfold endCandidate at h
  dsimp only at h
  split at h
  · rename_i m hm
    cases h
    have h1 := firstTrue_pos hm
    have h2 := (List.mem_filter.1 (Guessit.firstTrue_mem hm)).1
    exact ⟨h1, (hw.1 _ (List.mem_filter.1 h2).1).1, hw.2 _ (List.mem_filter.1 h2).1⟩
  · obtain ⟨a, ha, rfl⟩ := Option.map_eq_some_iff.1 h
    have hp := List.find?_some ha
    rw [Bool.and_eq_true, Bool.and_eq_true] at hp
    exact .new (hole_placed hw.1 (List.mem_reverse.1 (List.mem_of_find?_eq_some ha)) (wordy_slice hp.1.2))

theorem detectEnd_placed {e : GroupEnv} {s : Ms} {part c : Mt} (hw : Held s.input s.live) (h : detectEnd e s part = some c) : Placed s.input c := by
  unfold detectEnd at h
  split at h
  · rename_i c' hc
    split at h
    · cases h; exact endCandidate_placed hw hc
    · cases h
  · cases h

theorem detectStart_placed {s : Ms} {part c : Mt} (hw : Held s.input s.live) (h : detectStart s part = some c) : Placed s.input c := by
  unfold detectStart at h
  split at h
  · rename_i a ha
    have hp := List.find?_some ha
    rw [Bool.and_eq_true] at hp
    split at h
    · cases h
      exact .new (hole_placed hw.1 (List.mem_of_find?_eq_some ha) (wordy_slice hp.2))
    · cases h
  · cases h

theorem dashPart_placed {e : GroupEnv} {s : Ms} {part : Mt} {r : List Mt × List Mt} (hw : Held s.input s.live) (h : dashPart e s part = some r)
    {m : Mt} (hm : m ∈ r.2) : Placed s.input m := by
  have hr := unlessEmpty_some h
  subst hr
  have hg : ∀ c, Placed s.input c → m ∈ groupFor e s c → Placed s.input m := by
    intro c hc hmc
    rw [groupFor_mem hmc]
    exact .new ⟨hc.1, hc.2.1⟩
  cases hd : detectEnd e s part with
  | some c => rw [hd] at hm; exact hg c (detectEnd_placed hw hd) hm
  | none =>
    rw [hd] at hm
    cases hs : detectStart s part with
    | some c => rw [hs] at hm; exact hg c (detectStart_placed hw hs) hm
    | none => rw [hs] at hm; exact absurd hm (List.not_mem_nil)

theorem place_dash {e : GroupEnv} {s : Ms} (hw : Held s.input s.live) : Held s.input (dashRun e s).live := by
  unfold dashRun
  split
  · exact hw
  · split
    · exact hw
    · rename_i gone new hf
      obtain ⟨part, _, hp⟩ := List.exists_of_findSome?_eq_some hf
      refine held_of hw fun m hm => ?_
      rcases mem_appendAll hm with hm | hm
      · exact Or.inl ⟨m, removeAll_subset hm, SameAt.refl m⟩
      · exact Or.inr (dashPart_placed hw hp hm)

/-- A text of at most two characters that are separators has no word. -/
theorem wordChars_seps {t : Str} (h : ∀ c ∈ t, c ∈ seps) : wordChars t = [] := by
  unfold wordChars
  rw [List.filter_eq_nil_iff]
  intro c hc
  simp [isSep, h c hc]

theorem clean_wordless {e : GroupEnv} {t : Str} (h : ∀ c ∈ t, c ∈ seps) : cleanup (cleanGroup e t) = [] := by
  rw [cleanup_nil]
  intro c hc
  by_contra hcon
  have hs := (C86_nothing_invented e t).subset (a := c) (by
    simp only [wordChars, List.mem_filter]
    exact ⟨hc, by simpa [isSep] using hcon⟩)
  rw [wordChars_seps h] at hs
  exact absurd hs (List.not_mem_nil)

theorem mem_slice {input : Str} {a b : Nat} {c : Char} (h : c ∈ sliceOf input (a, b)) : ∃ i, a ≤ i ∧ i < b ∧ input[i]? = some c := by
  unfold sliceOf at h
  obtain ⟨i, hi, rfl⟩ := List.mem_iff_getElem.1 h
  rw [List.length_drop, List.length_take] at hi
  refine ⟨a + i, by omega, by omega, ?_⟩
  rw [List.getElem_drop, List.getElem_take, List.getElem?_eq_getElem]

theorem sceneMatch_placed {e : GroupEnv} {s : Ms} {h : Nat × Nat} (hm : WellFormed s.input s.markers) (hg : PlainGroups s) (he : EndsInSeps s)
    (hh : h.1 < h.2 ∧ h.2 ≤ s.input.length) (hc : cleanup (cleanGroup e (sliceOf s.input h)) ≠ []) : Placed s.input (sceneMatch e s h) := by
  unfold sceneMatch
  dsimp only
  split
  · rename_i g hgo
    have hin : InGroups s g := by
      have h1 := Guessit.firstTrue_mem hgo
      unfold atMatch at h1
      have h1 := (List.mem_filter.1 h1)
      simp only [decide_eq_true_eq] at h1
      refine ⟨?_, h1.2⟩
      exact (mem_atSpan.1 h1.1).1
    split
    · rename_i hv
      obtain ⟨h1, h2, h3, _⟩ := hg g hin
      have hv' : cleanGroup e (sliceOf s.input (g.start, g.stop)) = cleanGroup e (sliceOf s.input h) := by
        simpa [Mt.value, Mt.raw, Mt.rawA, Mt.rawB, h1, h2, h3, sliceOf] using hv
      have hwf := hm g hin.1
      refine .new ⟨?_, by show g.stop - 1 ≤ _; omega⟩
      show g.start + 1 < g.stop - 1
      by_contra hcon
      refine hc ?_
      rw [← hv']
      refine clean_wordless fun c hc => ?_
      obtain ⟨i, i1, i2, i3⟩ := mem_slice hc
      exact he g hin i (by omega) c i3
    · exact .new hh
  · exact .new hh

theorem sceneFound_placed {e : GroupEnv} {s : Ms} {part m : Mt} (hw : Held s.input s.live) (hm : WellFormed s.input s.markers) (hg : PlainGroups s)
    (he : EndsInSeps s) (h : sceneFound e s part = some m) : Placed s.input m := by
  unfold sceneFound at h
  split at h
  · split at h
    · cases h
    · rename_i a ha
      split at h
      · cases h
      · split at h
        · cases h
          unfold sceneHole at ha
          have hp := List.find?_some ha
          have hc : cleanup (cleanGroup e (sliceOf s.input a)) ≠ [] := by
            intro hn
            rw [hn] at hp
            revert hp; decide
          refine sceneMatch_placed hm hg he (hole_placed hw.1 (List.mem_reverse.1 (List.mem_of_find?_eq_some ha)) ?_) hc
          intro hn
          rw [hn] at hc
          exact hc (cleanup_nil.2 cleanGroup_nil)
        · cases h
  · cases h

theorem sceneFold_placed {e : GroupEnv} {s : Ms} (hm : WellFormed s.input s.markers) (hg : PlainGroups s) (he : EndsInSeps s) :
    ∀ {parts : List Mt} {acc : Ms × List Mt}, (acc.1.input = s.input ∧ acc.1.markers = s.markers ∧ Held s.input acc.1.live) →
    (∀ m ∈ acc.2, Placed s.input m) →
    Held s.input (parts.foldl (sceneStep e) acc).1.live ∧ ∀ m ∈ (parts.foldl (sceneStep e) acc).2, Placed s.input m := by
  intro parts
  induction parts with
  | nil => intro acc h1 h2; exact ⟨h1.2.2, h2⟩
  | cons part parts ih =>
    intro acc h1 h2
    rw [List.foldl_cons]
    unfold sceneStep
    split
    · exact ih h1 h2
    · rename_i m hf
      refine ih ⟨h1.1, h1.2.1, held_sub h1.2.2 fun x hx => removeAll_subset hx⟩ fun x hx => ?_
      rcases List.mem_append.1 hx with hx | hx
      · exact h2 x hx
      · rw [List.mem_singleton] at hx
        subst hx
        have hin : ∀ g, InGroups acc.1 g ↔ InGroups s g := by
          intro g
          unfold InGroups
          rw [h1.2.1]
        have := sceneFound_placed (e := e) (s := acc.1) (by rw [h1.1]; exact h1.2.2) (by rw [h1.1, h1.2.1]; exact hm)
          (fun g hgi => hg g ((hin g).1 hgi)) (fun g hgi => by rw [h1.1]; exact he g ((hin g).1 hgi)) hf
        rwa [h1.1] at this

theorem place_scene {e : GroupEnv} {s : Ms} (hw : Held s.input s.live) (hm : WellFormed s.input s.markers) (hg : PlainGroups s)
    (he : EndsInSeps s) : Held s.input (sceneRun e s).live := by
  have := sceneFold_placed (e := e) hm hg he (parts := markerSorted s.input s.live (named s.markers c!"path") (markerPredicate s.input)) (acc := (s, []))
    ⟨rfl, rfl, hw⟩ (fun m hm => absurd hm (List.not_mem_nil))
  refine held_of this.1 fun m hm => ?_
  rcases mem_appendAll hm with hm | hm
  · exact Or.inl ⟨m, hm, SameAt.refl m⟩
  · exact Or.inr (this.2 m hm)

theorem place_anime {e : GroupEnv} {s : Ms} (hw : Held s.input s.live) (hm : WellFormed s.input s.markers) (hg : PlainGroups s) :
    Held s.input (animeRun e s).live := by
  unfold animeRun
  split
  · exact hw
  · refine held_of hw fun m hmm => ?_
    rcases mem_appendAll hmm with hmm | hmm
    · exact Or.inl ⟨m, removeAll_subset hmm, SameAt.refl m⟩
    · obtain ⟨x, hx, rfl⟩ := List.mem_map.1 hmm
      obtain ⟨part, _, hx⟩ := List.mem_filterMap.1 hx
      have hx' := mem_rangeOf.1 (Guessit.firstTrue_mem hx)
      have h1 := hm x hx'.1
      refine Or.inr ⟨h1.1, h1.2, ?_⟩
      have hn := hx'.2.2.2.2
      unfold emptyGroup at hn
      rw [Bool.and_eq_true, Bool.and_eq_true, decide_eq_true_eq] at hn
      have hp := (hg x ⟨hx'.1, hn.1.1⟩).2.2.1
      show (x.rawB - 1) ≤ _
      unfold Mt.rawB
      rw [hp]
      show x.stop - 1 ≤ _
      omega

/-! ### Bonus and film titles -/

theorem place_firstHole {s s' : Ms} {name : Str} {ignore : Mt → Bool} {sp : Str} {a b : Nat} (hw : Held s.input s.live)
    (h : appendFirstHole s name (holeSpans s.input s.live ignore sp a b) = .ok s') : Held s.input s'.live := by
  rcases appendFirstHole_adds h with rfl | ⟨x, hx, hlt, rfl⟩
  · exact hw
  · refine held_of hw fun m hm => ?_
    rcases mem_appendAll hm with hm | hm
    · exact Or.inl ⟨m, hm, SameAt.refl m⟩
    · rw [List.mem_singleton] at hm
      subst hm
      have := (holes_le hx).1
      rw [maxEnd_of hw.1] at this
      exact Or.inr (.new ⟨hlt, this⟩)

theorem place_bonus {s s' : Ms} (hw : Held s.input s.live) (h : bonusTitle s = .ok s') : Held s.input s'.live := by
  unfold bonusTitle at h
  split at h
  · cases h
  · cases h; exact hw
  · exact place_firstHole hw h

theorem place_film {s s' : Ms} (hw : Held s.input s.live) (h : filmTitle s = .ok s') : Held s.input s'.live := by
  unfold filmTitle at h
  split at h
  · cases h
  · cases h; exact hw
  · exact place_firstHole hw h

end Guessit
