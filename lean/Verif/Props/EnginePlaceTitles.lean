import Verif.Props.EnginePlaceRules
import Verif.Props.Title

/-! # Where titles, subtitles and release groups are -/

namespace Guessit
open Spec

/-! ### Titles -/

theorem firstTitled_all {r : TitleRule} {type : Option Str} {s : Ms} {Q : Mt → Prop}
    (hp : ∀ extra part x, checkPart r type s extra part = .ok (some x) → ∀ t ∈ x.1, Q t) : ∀ {l : List Mt} {x : List Mt × List Mt} {rest : List Mt},
    firstTitled r type s l = .ok (some (x, rest)) → ∀ t ∈ x.1, Q t := by
  intro l
  induction l with
  | nil => intro x rest h; cases h
  | cons part l ih =>
    intro x rest h
    rw [firstTitled] at h
    split at h
    · cases h
    · rename_i y hy; cases h; exact hp _ _ _ hy
    · exact ih h

theorem yearTitles_all {r : TitleRule} {type : Option Str} {s : Ms} {Q : Mt → Prop}
    (hp : ∀ extra part x, checkPart r type s extra part = .ok (some x) → ∀ t ∈ x.1, Q t) : ∀ {l : List Mt} {y : List Mt × List Mt},
    yearTitles r type s l = .ok y → ∀ t ∈ y.1, Q t := by
  intro l
  induction l with
  | nil => intro y h t ht; cases h; exact absurd ht (List.not_mem_nil)
  | cons part l ih =>
    intro y h t ht
    rw [yearTitles] at h
    split at h
    · cases h
    · rename_i x hx
      split at h
      · cases h
      · rename_i acc hacc
        split at h
        · cases h
          rcases List.mem_append.1 ht with ht | ht
          · exact hp _ _ _ hx t ht
          · exact ih hacc t ht
        · cases h; exact ih hacc t ht

/-- What holds of the titles found in every part, and of those renamed, holds of all the titles of the rule. -/
theorem titleWhen_all {kin : Kin} {r : TitleRule} {type : Option Str} {s : Ms} {add rm : List Mt} {Q : Mt → Prop}
    (hp : ∀ extra part x, checkPart r type s extra part = .ok (some x) → ∀ t ∈ x.1, Q t) (hren : ∀ t, Q t → Q (asEpisodeTitle t))
    (h : titleWhen kin r type s = .ok (add, rm)) : ∀ t ∈ add, Q t := by
  unfold titleWhen at h
  split at h
  · cases h; intro t ht; exact absurd ht (List.not_mem_nil)
  · split at h
    · cases h
    · rename_i serie hserie
      have key : ∀ st : List Mt × List Mt, (∀ t ∈ st.1, Q t) →
          (match firstTitled r type s (titleParts r s) with
            | .error e => .error e
            | .ok none => .ok st
            | .ok (some ((ts, rm), rest)) => match yearTitles r type s (rest.filter (hasYear s)) with
              | .error e => .error e
              | .ok y => .ok (st.1 ++ renameUnless s.input serie ts ++ y.1, st.2 ++ rm ++ y.2)) = (.ok (add, rm) : Except PyErr _) →
          ∀ t ∈ add, Q t := by
        intro st hst h
        split at h
        · cases h
        · cases h; exact hst
        · rename_i ts rm' rest hft
          split at h
          · cases h
          · rename_i y hy
            simp only [Except.ok.injEq, Prod.mk.injEq] at h
            intro t ht
            rw [← h.1] at ht
            rcases List.mem_append.1 ht with ht | ht
            · rcases List.mem_append.1 ht with ht | ht
              · exact hst t ht
              · obtain ⟨t0, ht0, rfl | rfl⟩ := renameUnless_mem ht
                · exact firstTitled_all hp hft t ht0
                · exact hren t0 (firstTitled_all hp hft t0 ht0)
            · exact yearTitles_all hp hy t ht
      cases serie with
      | none => exact key ([], []) (fun t ht => absurd ht (List.not_mem_nil)) h
      | some x =>
        obtain ⟨x, rm'⟩ := x
        refine key ([x], rm') (fun t ht => ?_) h
        rw [List.mem_singleton] at ht
        subst ht
        unfold serieTitle at hserie
        split at hserie
        · cases hserie
        · split at hserie
          · split at hserie
            · cases hserie
            · rename_i hx
              cases hserie
              exact hp _ _ _ hx t (by simp)
            · cases hserie
          · cases hserie

theorem piece_placed {r : TitleRule} {s : Ms} (hw : Held s.input s.live) (hm : WellFormed s.input s.markers) {extra : Mt → Bool} {part : Mt}
    {h : Nat × Nat} (hh : h ∈ pieces r s extra part) : h.1 < h.2 ∧ h.2 ≤ s.input.length := by
  have hc : ∀ c ∈ cropGroups s, c.1 ≤ c.2 := by
    intro c hc
    obtain ⟨g, hg, rfl⟩ := cropGroups_mem hc
    exact Nat.le_of_lt (hm g hg.1).1
  unfold pieces holesProcess at hh
  obtain ⟨q, hq, hh⟩ := List.mem_flatMap.1 hh
  unfold titleHoles at hq
  obtain ⟨hq, _⟩ := List.mem_filter.1 hq
  obtain ⟨k1, k2, k3, k4, _⟩ := run_mem hq
  rw [maxEnd_of hw.1] at k3
  obtain ⟨c1, c2, c3⟩ := crop_pos hc k2 hh
  exact ⟨c1, by omega⟩

theorem place_title {kin : Kin} {e : TitleEnv} (he : e.lower [] = []) {r : TitleRule} (hr : r.fmt = e.fmt) {type : Option Str} {s s' : Ms}
    (hw : Held s.input s.live) (hm : WellFormed s.input s.markers) (h : titleRun kin r type s = .ok s') : Held s.input s'.live := by
  obtain ⟨add, rm, hwhen, rfl⟩ := titleRun_ok h
  have hall : ∀ t ∈ add, Placed s.input t := by
    refine titleWhen_all (Q := Placed s.input) ?_ (fun t ht => ht) hwhen
    intro extra part x hx t ht
    obtain ⟨ts, rm'⟩ := x
    obtain ⟨pre, p, post, hp, hch, _⟩ := checkPart_some hx
    obtain ⟨_, _, hlt, _, rfl, _⟩ := checkHole_some hch
    have hpl := piece_placed hw hm (hp ▸ by simp : p ∈ pieces r s extra part)
    have hsh := shrunk (r := r) (s := s) (part := part) (h := p) (by rw [maxEnd_of hw.1]; exact hpl.2)
    have hle := hsh.right
    cases ha : r.altName with
    | none =>
      unfold titlesOf at ht
      rw [ha] at ht
      simp only [List.mem_singleton] at ht
      subst ht
      exact .new ⟨hlt, by show (shrinkHole r s part p).hole.2 ≤ _; omega⟩
    | some alt =>
      obtain ⟨⟨n, _, hn⟩, h1, h2, h3, _⟩ := titles_mem he hr ha ht
      exact .new ⟨h2, by omega⟩ (by rw [hn]; rfl)
  refine held_of hw fun m hm => ?_
  rcases mem_appendAll (removeAll_subset hm) with hm | hm
  · exact Or.inl ⟨m, hm, SameAt.refl m⟩
  · exact Or.inr (hall m hm)

theorem place_titleToEpisodeTitle {s : Ms} (hw : Held s.input s.live) : Held s.input (titleToEpisodeTitle s).live := by
  refine held_of hw fun m hm => ?_
  rcases renameEach_mem hm with h | ⟨x, hx, rfl⟩
  · exact Or.inl ⟨m, h, SameAt.refl m⟩
  · have : x ∈ named s.live c!"title" := by
      unfold titlesAfterEpisode at hx
      split at hx
      · exact absurd hx (List.not_mem_nil)
      · exact (List.mem_filter.1 hx).1
    have hx' := mem_named.1 this
    exact Or.inr (placed_named hw hx'.1 hx'.2 rfl rfl)

theorem place_alternative {kin : Kin} {s : Ms} (hw : Held s.input s.live) : Held s.input (alternativeTitleReplace kin s).live := by
  unfold alternativeTitleReplace
  split
  · exact hw
  · rename_i alt ha
    refine held_of hw fun m hm => ?_
    rcases List.mem_append.1 hm with hm | hm
    · exact Or.inl ⟨m, mem_removeMatch hm, SameAt.refl m⟩
    · rw [List.mem_singleton] at hm
      subst hm
      have := alternativeToReplace_mem ha
      exact Or.inr (placed_named hw this.1 this.2 rfl rfl)

theorem filepart_placed {upper : Str → Bool} {s : Ms} {part : Mt} {h : Nat × Nat} (hw : Held s.input s.live)
    (hh : filepartHole upper s part = some h) : h.1 < h.2 ∧ h.2 ≤ s.input.length := by
  unfold filepartHole at hh
  refine hole_placed hw.1 (List.mem_of_find?_eq_some hh) ?_
  intro hn
  have := List.find?_some hh
  rw [hn] at this
  revert this; decide

theorem place_filepart3 {upper : Str → Bool} {s : Ms} (hw : Held s.input s.live) : Held s.input (filepart3 upper s).live := by
  unfold filepart3
  split
  · exact hw
  · split
    · split
      · split
        · rename_i h hh
          refine held_of hw fun m hm => ?_
          rcases appendNamed_mem hm with h | ⟨x, hx, rfl⟩
          · exact Or.inl ⟨m, h, SameAt.refl m⟩
          · rw [List.mem_singleton] at hx
            subst hx
            exact Or.inr (.new (filepart_placed hw hh))
        · exact hw
      · exact hw
    · exact hw

theorem place_filepart2 {upper : Str → Bool} {s : Ms} (hw : Held s.input s.live) : Held s.input (filepart2 upper s).live := by
  unfold filepart2
  split
  · exact hw
  · split
    · split
      · split
        · rename_i h hh
          refine held_of hw fun m hm => ?_
          rcases appendNamed_mem hm with h | ⟨x, hx, rfl⟩
          · exact Or.inl ⟨m, h, SameAt.refl m⟩
          · rw [List.mem_singleton] at hx
            subst hx
            exact Or.inr (.new (filepart_placed hw hh))
        · exact hw
      · exact hw
    · exact hw

theorem tagAll_same {input tag : Str} {l ms : List Mt} (ht : tag ≠ c!"weak-episode") {m : Mt} (hm : m ∈ tagAll input tag l ms) :
    ∃ x ∈ l, SameAt x m := by
  obtain ⟨x, hx, rfl⟩ := List.mem_map.1 hm
  refine ⟨x, hx, ?_⟩
  split
  · refine ⟨rfl, rfl, rfl, rfl, fun hw => ?_, id, Nat.le_refl _⟩
    have hw' : c!"weak-episode" ∈ x.tags ++ [tag] := hw
    rw [List.mem_append] at hw'
    rcases hw' with hw' | hw'
    · exact hw'
    · exact absurd (List.mem_singleton.1 hw').symm ht
  · exact SameAt.refl x

theorem place_preferYear {s : Ms} (hw : Held s.input s.live) : Held s.input (preferTitleWithYear s).live := by
  refine held_of hw fun m hm => Or.inl ?_
  obtain ⟨x, hx, hk⟩ := tagAll_same (by decide) hm
  exact ⟨x, removeAll_subset hx, hk⟩

/-! ### Subtitles -/

theorem place_subtitled {s s' : Ms} (hw : Held s.input s.live) (h : ∀ m ∈ s'.live, Subtitled s m) : Held s.input s'.live := by
  refine held_of hw fun m hm => ?_
  rcases h m hm with h | ⟨x, hx, hn, rfl⟩
  · exact Or.inl ⟨m, h, SameAt.refl m⟩
  · exact Or.inr (placed_named hw hx hn rfl rfl)

theorem place_extension {s : Ms} (hw : Held s.input s.live) : Held s.input (subtitleExtension s).live := by
  unfold subtitleExtension
  split
  · exact hw
  · split
    · exact hw
    · rename_i lang hlang
      have hl := mem_previous.1 (Guessit.firstTrue_mem hlang)
      refine held_of hw fun m hm => ?_
      rcases renameAll_mem hm with hm | ⟨x, hx, rfl⟩
      · obtain ⟨y, hy, rfl⟩ := List.mem_map.1 (removeAll_subset hm)
        refine Or.inl ⟨y, hy, ?_⟩
        unfold hideWeak
        split
        · exact ⟨rfl, rfl, rfl, rfl, id, fun _ => rfl, Nat.le_refl _⟩
        · exact SameAt.refl y
      · rw [List.mem_singleton] at hx
        subst hx
        exact Or.inr (placed_named (n := c!"language") hw hl.1.1 (by simpa using hl.2) rfl rfl)

end Guessit
