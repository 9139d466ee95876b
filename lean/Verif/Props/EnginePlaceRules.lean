import Verif.Props.EnginePlace

/-! # Where each rule leaves the matches -/

namespace Guessit
open Spec

theorem sameAt_val (m : Mt) (v : Option MVal) : SameAt m { m with val := v } := ⟨rfl, rfl, rfl, rfl, id, id, Nat.le_refl _⟩

theorem held_one {input : Str} {l : List Mt} (hl : Held input l) {x m : Mt} (hx : x ∈ l) (h : SameAt x m) :
    m.stop ≤ input.length ∧ (m.start < m.stop ∨ RangeSeparator m) :=
  (held_of (l' := [m]) hl (fun y hy => by rw [List.mem_singleton] at hy; subst hy; exact Or.inl ⟨x, hx, h⟩)).1 m (List.mem_singleton.2 rfl)

theorem place_see {rs : List Str} {s s' : Ms} (hw : Held s.input s.live) (h : seePatternRange rs s = some s') : Held s.input s'.live := by
  refine held_of hw fun m hm => Or.inl ?_
  rcases (seePatternRange_adds h).2.2 m hm with h | ⟨m', hm', _, v, rfl⟩
  · exact ⟨m, h, SameAt.refl m⟩
  · exact ⟨m', hm', sameAt_val m' v⟩

theorem place_range {rs : List Str} {prop : Str} {canStart : Mt → Bool} {s s' : Ms} (hw : Held s.input s.live)
    (hp : prop = c!"episode" ∨ prop = c!"season") (h : separatorRange rs prop canStart s = some s') : Held s.input s'.live := by
  refine ⟨fun m hm => ?_, fun m hm => ?_⟩ <;> rcases separatorRange_adds h m hm with h1 | ⟨m', hm', _, v, rfl⟩ | ⟨hn, ht, hpr, hi, hraw, n, hnl, hnn, hle⟩
  · exact hw.1 m h1
  · exact held_one hw hm' (sameAt_val m' v)
  · have hpl : Placed s.input n := by
      rcases hp with rfl | rfl
      · exact placed_named hw hnl hnn rfl rfl
      · exact placed_named hw hnl hnn rfl rfl
    refine ⟨by have := hpl.1; have := hpl.2.1; omega, Or.inr ⟨hpr, ?_, by rw [ht]; simp, hi⟩⟩
    rw [hn]
    rcases hp with rfl | rfl
    · exact Or.inl rfl
    · exact Or.inr rfl
  · exact hw.2 m h1
  · exact hw.2 m' hm'
  · have h1 := (hw.1 n hnl).1
    have h2 : n.start ≤ n.stop := by
      rcases hp with rfl | rfl
      · exact Nat.le_of_lt (hw.1.named hnl (by rw [hnn]; decide) (by rw [hnn]; decide))
      · exact Nat.le_of_lt (hw.1.named hnl (by rw [hnn]; decide) (by rw [hnn]; decide))
    unfold Mt.rawB
    rw [hraw]
    show m.stop ≤ _
    omega

theorem place_weak {kin : Kin} {type : Option Str} {s : Ms} (hw : Held s.input s.live) : Held s.input (weakConflicts kin type s).live := by
  refine held_of hw fun m hm => Or.inl ?_
  rcases weakConflicts_adds hm with h | ⟨m', hm', t, hwk, rfl⟩
  · exact ⟨m, h, SameAt.refl m⟩
  · exact ⟨m', hm', rfl, rfl, rfl, rfl, hwk, id, Nat.le_refl _⟩

theorem place_removeWeak {lower : Str → Str} {toInt : MVal → Option Int} {words : List Str} {s : Ms} (hw : Held s.input s.live) :
    Held s.input (removeWeak lower toInt words s).live := by
  refine held_of hw fun m hm => ?_
  rcases removeWeak_adds hm with h | ⟨w, hwl, hwk, p, hp, hle, n, rfl⟩
  · exact Or.inl ⟨m, h, SameAt.refl m⟩
  · right
    have h1 : w.start < w.stop := by
      rcases (hw.1 w hwl).2 with h | h
      · exact h
      · exact absurd hwk h.2.2.1
    have h2 := (hw.1 w hwl).1
    exact ⟨by show p.start < w.stop; omega, h2, hw.2 w hwl⟩

theorem place_rename {s : Ms} {name from' : Str} {ms : List Mt} (hw : Held s.input s.live) (hms : ∀ m ∈ ms, m ∈ s.live ∧ m.name = some from')
    (hf : from' ≠ c!"episodeSeparator" ∧ from' ≠ c!"seasonSeparator" := by decide) : Held s.input (renameAll s.input name s.live ms) := by
  refine held_of hw fun m hm => ?_
  rcases renameAll_mem hm with h | ⟨x, hx, rfl⟩
  · exact Or.inl ⟨m, h, SameAt.refl m⟩
  · exact Or.inr (placed_named hw (hms x hx).1 (hms x hx).2 rfl rfl hf)

theorem place_count {s : Ms} (hw : Held s.input s.live) : Held s.input (countValidator s).live := by
  refine held_of hw fun m hm => ?_
  unfold countValidator at hm
  dsimp only at hm
  rcases renameAll_mem hm with hm | ⟨x, hx, rfl⟩
  · rcases renameAll_mem hm with hm | ⟨x, hx, rfl⟩
    · exact Or.inl ⟨m, removeAll_subset hm, SameAt.refl _⟩
    · have hx' := mem_named.1 (List.mem_filter.1 hx).1
      exact Or.inr (placed_named hw hx'.1 hx'.2 rfl rfl)
  · have hx' := mem_named.1 (List.mem_filter.1 hx).1
    exact Or.inr (placed_named hw hx'.1 hx'.2 rfl rfl)

/-- What is renamed an absolute episode is an episode, or belongs to a weak episode. -/
theorem renameAbsolute_from {kin : Kin} {s s' : Ms} (h : renameAbsolute kin s = some s') :
    ∀ m ∈ s'.live, m ∈ s.live ∨ ∃ m' ∈ s.live, (m'.name = some c!"episode" ∨ m'.iname = some c!"weak_episode") ∧
      m = { m' with name := some c!"absolute_episode" } := by
  have ep : ∀ i m, m ∈ episodesOf kin s i → m ∈ s.live ∧ m.name = some c!"episode" := fun i m hm => mem_named.1 (List.mem_filter.1 hm).1
  unfold renameAbsolute at h
  split at h
  · split at h
    · cases h; exact fun m hm => Or.inl hm
    · dsimp only at h
      split at h
      · cases h; exact fun m hm => Or.inl hm
      · split at h
        · split at h
          · cases h
            intro m hm
            rcases renameAll_mem hm with hm | ⟨x, hx, rfl⟩
            · exact Or.inl hm
            · exact Or.inr ⟨x, (ep _ _ hx).1, Or.inl (ep _ _ hx).2, rfl⟩
          · split at h
            · cases h
              intro m hm
              rcases renameAll_mem hm with hm | ⟨x, hx, rfl⟩
              · exact Or.inl hm
              · exact Or.inr ⟨x, (ep _ _ hx).1, Or.inl (ep _ _ hx).2, rfl⟩
            · cases h; exact fun m hm => Or.inl hm
        · cases h
  · cases h
    intro m hm
    rcases renameAll_mem (removeAll_subset hm) with hm | ⟨x, hx, rfl⟩
    · exact Or.inl hm
    · obtain ⟨part, _, hx⟩ := List.mem_flatMap.1 hx
      split at hx
      · exact absurd hx (List.not_mem_nil)
      · have hi : x.iname = some c!"weak_episode" := by
          unfold absoluteCandidates at hx
          split at hx
          · exact absurd hx (List.not_mem_nil)
          · simpa using (List.mem_filter.1 hx).2
        exact Or.inr ⟨x, absoluteCandidates_mem hx, Or.inr hi, rfl⟩

theorem place_absolute {kin : Kin} {s s' : Ms} (hw : Held s.input s.live) (h : renameAbsolute kin s = some s') : Held s.input s'.live := by
  refine held_of hw fun m hm => ?_
  rcases renameAbsolute_from h m hm with h | ⟨m', hm', hn, rfl⟩
  · exact Or.inl ⟨m, h, SameAt.refl m⟩
  · right
    rcases (hw.1 m' hm').2 with h1 | ⟨_, h2, _, h3⟩
    · exact ⟨h1, (hw.1 m' hm').1, hw.2 m' hm'⟩
    · exfalso
      rcases hn with hn | hn
      · rcases h2 with h2 | h2 <;> (rw [hn] at h2; revert h2; decide)
      · rw [h3] at hn
        rcases h2 with h2 | h2 <;> (rw [hn] at h2; revert h2; decide)

theorem place_disc {kin : Kin} {lower : Str → Str} {off : Bool} {s : Ms} (hw : Held s.input s.live)
    (hc : ∀ m c, m ∈ s.live → m.name = some c!"episodeMarker" → c ∈ kin.children (kin.initiator m) → Placed s.input c) :
    Held s.input (renameDisc kin lower off s).live := by
  unfold renameDisc
  dsimp only
  split
  · exact held_sub hw fun m hm => removeAll_subset hm
  · refine held_of hw fun m hm => ?_
    rcases renameAll_mem hm with hm | ⟨x, hx, rfl⟩
    · rcases renameAll_mem hm with hm | ⟨x, hx, rfl⟩
      · exact Or.inl ⟨m, hm, SameAt.refl _⟩
      · obtain ⟨k, hk, hx⟩ := List.mem_flatMap.1 hx
        have hx' := mem_named.1 (mem_sortValues.1 hx)
        have hk' := mem_named.1 (List.mem_filter.1 hk).1
        exact Or.inr (hc k x hk'.1 hk'.2 hx'.1)
    · have hx' := mem_named.1 (List.mem_filter.1 hx).1
      exact Or.inr (placed_named hw hx'.1 hx'.2 rfl rfl)

/-! ### Sources, sizes, bit rates -/

theorem ultraStep_same {s : Ms} {part m : Mt} {st : List Mt × List Mt} (h1 : ∀ x ∈ st.1, ∃ y ∈ s.live, SameAt y x)
    (h2 : ∀ x ∈ st.2, ∃ y ∈ s.live, SameAt y x) (hm : ∃ y ∈ s.live, SameAt y m) :
    (∀ x ∈ (ultraStep s part st m).1, ∃ y ∈ s.live, SameAt y x) ∧ ∀ x ∈ (ultraStep s part st m).2, ∃ y ∈ s.live, SameAt y x := by
  have happ : ∀ x ∈ st.2 ++ [m], ∃ y ∈ s.live, SameAt y x := by
    intro x hx
    rcases List.mem_append.1 hx with hx | hx
    · exact h2 x hx
    · rw [List.mem_singleton] at hx; subst hx; exact hm
  unfold ultraStep
  split
  · exact ⟨h1, h2⟩
  · exact ⟨h1, happ⟩
  · refine ⟨?_, happ⟩
    intro x hx
    obtain ⟨z, hz, rfl⟩ := List.mem_map.1 hx
    obtain ⟨y, hy, hk⟩ := h1 z hz
    refine ⟨y, hy, ?_⟩
    split
    · exact hk.trans ⟨rfl, rfl, rfl, rfl, id, fun _ => rfl, Nat.le_refl _⟩
    · exact hk

theorem ultraFold_same {s : Ms} {part : Mt} : ∀ {ms : List Mt} {st : List Mt × List Mt}, (∀ x ∈ st.1, ∃ y ∈ s.live, SameAt y x) →
    (∀ x ∈ st.2, ∃ y ∈ s.live, SameAt y x) → (∀ m ∈ ms, ∃ y ∈ s.live, SameAt y m) →
    (∀ x ∈ (ms.foldl (ultraStep s part) st).1, ∃ y ∈ s.live, SameAt y x) ∧
      ∀ x ∈ (ms.foldl (ultraStep s part) st).2, ∃ y ∈ s.live, SameAt y x := by
  intro ms
  induction ms with
  | nil => intro st h1 h2 _; exact ⟨h1, h2⟩
  | cons m ms ih =>
    intro st h1 h2 hm
    have := ultraStep_same (part := part) h1 h2 (hm m (by simp))
    exact ih this.1 this.2 fun x hx => hm x (by simp [hx])

theorem ultraParts_same {s : Ms} : ∀ {parts : List Mt} {st : List Mt × List Mt}, (∀ x ∈ st.1, ∃ y ∈ s.live, SameAt y x) →
    (∀ x ∈ st.2, ∃ y ∈ s.live, SameAt y x) →
    (∀ x ∈ (parts.foldl (ultraPart s) st).1, ∃ y ∈ s.live, SameAt y x) ∧ ∀ x ∈ (parts.foldl (ultraPart s) st).2, ∃ y ∈ s.live, SameAt y x := by
  intro parts
  induction parts with
  | nil => intro st h1 h2; exact ⟨h1, h2⟩
  | cons part parts ih =>
    intro st h1 h2
    have : (∀ x ∈ (ultraPart s st part).1, ∃ y ∈ s.live, SameAt y x) ∧ ∀ x ∈ (ultraPart s st part).2, ∃ y ∈ s.live, SameAt y x :=
      ultraFold_same h1 h2 fun m hm => h1 m (mem_rangeOf.1 hm).1
    exact ih this.1 this.2

theorem place_ultra {s : Ms} (hw : Held s.input s.live) : Held s.input (ultraHdBluray s).live := by
  have := ultraParts_same (s := s) (parts := pathParts s) (st := (s.live, [])) (fun x hx => ⟨x, hx, SameAt.refl x⟩)
    (fun x hx => absurd hx (List.not_mem_nil))
  refine held_of hw fun m hm => Or.inl ?_
  rcases mem_appendAll hm with hm | hm
  · exact this.1 m (removeAll_subset hm)
  · obtain ⟨x, hx, rfl⟩ := List.mem_map.1 hm
    obtain ⟨y, hy, hk⟩ := this.2 x hx
    exact ⟨y, hy, hk.trans ⟨rfl, rfl, rfl, rfl, id, id, Nat.le_refl _⟩⟩

theorem place_size {e : SizeEnv} {kin : Kin} {a b : Bool} {s s' : Ms} (hw : Held s.input s.live)
    (hc : ∀ m c, m ∈ s.live → m.name = some c!"screen_size" → c ∈ kin.children m → Placed s.input c)
    (h : postProcessSize e kin a b s = some s') : Held s.input s'.live := by
  refine held_of hw fun m hm => ?_
  rcases (postProcessSize_adds h).2.2 m hm with ⟨m', hm', v, rfl⟩ | ⟨z, hz, hzn, ⟨_, c, hcz, _, rfl⟩ | ⟨_, v, rfl⟩⟩
  · exact Or.inl ⟨m', hm', sameAt_val m' v⟩
  · exact Or.inr (hc z c hz hzn hcz)
  · exact Or.inr (placed_named hw hz hzn rfl rfl)

theorem place_bitRate {slow : MVal → Bool} {a b : Bool} {s : Ms} (hw : Held s.input s.live) : Held s.input (bitRateType slow a b s).live := by
  unfold bitRateType
  dsimp only
  split
  · exact held_sub hw fun m hm => removeAll_subset hm
  · split
    · exact held_sub hw fun m hm => removeAll_subset hm
    · exact place_rename (from' := c!"audio_bit_rate") hw fun m hm => mem_named.1 (List.mem_filter.1 hm).1

end Guessit
