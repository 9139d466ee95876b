import Verif.Props.EnginePlaceGroups
import Verif.Props.EngineSeason
import Verif.Props.EnlargeEarly

/-! # Where the last rules put their matches -/

namespace Guessit
open Spec

/-! ### The count of propers -/

theorem putRaw_mem {k : Str} {m : Mt} : ∀ {raws : List (Str × Mt)} {x : Str × Mt}, x ∈ putRaw raws k m → x ∈ raws ∨ x.2 = m := by
  intro raws
  induction raws with
  | nil => intro x hx; rw [putRaw, List.mem_singleton] at hx; subst hx; exact Or.inr rfl
  | cons r raws ih =>
    intro x hx
    obtain ⟨k', m'⟩ := r
    rw [putRaw] at hx
    split at hx
    · rcases List.mem_cons.1 hx with rfl | hx
      · exact Or.inr rfl
      · exact Or.inl (by simp [hx])
    · rcases List.mem_cons.1 hx with rfl | hx
      · exact Or.inl (by simp)
      · rcases ih hx with h | h
        · exact Or.inl (by simp [h])
        · exact Or.inr h

theorem putRaw_ne {k : Str} {m : Mt} (raws : List (Str × Mt)) : putRaw raws k m ≠ [] := by
  cases raws with
  | nil => simp [putRaw]
  | cons r raws => obtain ⟨k', m'⟩ := r; rw [putRaw]; split <;> simp

theorem rawsOf_mem {f : Mt → Str} : ∀ {ms : List Mt} {raws : List (Str × Mt)} {x : Str × Mt},
    x ∈ ms.foldl (fun r m => putRaw r (f m) m) raws → x ∈ raws ∨ x.2 ∈ ms := by
  intro ms
  induction ms with
  | nil => intro raws x hx; exact Or.inl hx
  | cons m ms ih =>
    intro raws x hx
    rcases ih hx with h | h
    · rcases putRaw_mem h with h | h
      · exact Or.inl h
      · exact Or.inr (by simp [h])
    · exact Or.inr (by simp [h])

theorem rawsOf_ne {f : Mt → Str} : ∀ {ms : List Mt} {raws : List (Str × Mt)}, raws ≠ [] → ms.foldl (fun r m => putRaw r (f m) m) raws ≠ [] := by
  intro ms
  induction ms with
  | nil => intro raws h; exact h
  | cons m ms ih => intro raws h; exact ih (putRaw_ne raws)

theorem properSpan {n : Nat} : ∀ {ms : List Mt} {a b : Nat}, a < b → b ≤ n → (∀ m ∈ ms, m.start < m.stop ∧ m.stop ≤ n) →
    ∃ x y, ms.foldl properStart (some a) = some x ∧ ms.foldl properStop (some b) = some y ∧ x < y ∧ y ≤ n := by
  intro ms
  induction ms with
  | nil => intro a b h1 h2 _; exact ⟨a, b, rfl, rfl, h1, h2⟩
  | cons m ms ih =>
    intro a b h1 h2 hm
    have hm1 := hm m (by simp)
    rw [List.foldl_cons, List.foldl_cons]
    have e1 : ∃ a', properStart (some a) m = some a' ∧ (a' = a ∨ a' = m.start) := by
      cases a with
      | zero => exact ⟨m.start, rfl, Or.inr rfl⟩
      | succ a =>
        simp only [properStart]
        split
        · exact ⟨m.start, rfl, Or.inr rfl⟩
        · exact ⟨_, rfl, Or.inl rfl⟩
    have e2 : ∃ b', properStop (some b) m = some b' ∧ b ≤ b' ∧ m.stop ≤ b' ∧ b' ≤ n := by
      cases b with
      | zero => omega
      | succ b =>
        simp only [properStop]
        split
        · exact ⟨m.stop, rfl, by omega, by omega, by omega⟩
        · exact ⟨_, rfl, by omega, by omega, by omega⟩
    obtain ⟨a', ha, ha'⟩ := e1
    obtain ⟨b', hb, hb1, hb2, hb3⟩ := e2
    rw [ha, hb]
    exact ih (by omega) hb3 fun m hm' => hm m (by simp [hm'])

theorem place_proper {u : Uni} {count : Mt → Option Int} {s : Ms} (hw : Held s.input s.live) : Held s.input (properCount u count s).live := by
  unfold properCount
  dsimp only
  split
  · exact hw
  · rename_i hne
    refine held_of hw fun m hm => ?_
    rcases mem_appendAll hm with hm | hm
    · exact Or.inl ⟨m, hm, SameAt.refl m⟩
    · rw [List.mem_singleton] at hm
      right
      generalize hp : ((named s.live c!"other").filter fun m => m.value s.input = .str c!"Proper") = propers at hm hne
      have hpl : ∀ x ∈ propers, x.start < x.stop ∧ x.stop ≤ s.input.length := by
        intro x hx
        rw [← hp] at hx
        have := mem_named.1 (List.mem_filter.1 hx).1
        have hpx : Placed s.input x := placed_named hw this.1 this.2 rfl rfl
        exact ⟨hpx.1, hpx.2.1⟩
      obtain ⟨p, ps, rfl⟩ : ∃ p ps, propers = p :: ps := by
        cases propers with
        | nil => simp at hne
        | cons p ps => exact ⟨p, ps, rfl⟩
      generalize hr : (List.foldl (fun r m => putRaw r (rawCleanup u.lower (m.raw s.input)) m) [] (p :: ps)) = raws at hm
      have hrm : ∀ x ∈ raws, x.2 ∈ p :: ps := by
        intro x hx
        rw [← hr] at hx
        rcases rawsOf_mem (f := fun m => rawCleanup u.lower (m.raw s.input)) hx with h | h
        · exact absurd h (List.not_mem_nil)
        · exact h
      have hrn : raws ≠ [] := by
        rw [← hr, List.foldl_cons]
        exact rawsOf_ne (f := fun m => rawCleanup u.lower (m.raw s.input)) (putRaw_ne [])
      obtain ⟨r, rs, rfl⟩ := List.exists_cons_of_ne_nil hrn
      have h1 := hpl _ (hrm r (by simp))
      obtain ⟨x, y, hx, hy, hxy, hyn⟩ := properSpan (n := s.input.length) (ms := rs.map Prod.snd) h1.1 h1.2 (by
        intro m hm'
        obtain ⟨z, hz, rfl⟩ := List.mem_map.1 hm'
        exact hpl _ (hrm z (by simp [hz])))
      subst hm
      refine .new ?_
      show (List.foldl properStart none ((r :: rs).map Prod.snd)).getD 0 < (List.foldl properStop none ((r :: rs).map Prod.snd)).getD 0 ∧
        (List.foldl properStop none ((r :: rs).map Prod.snd)).getD 0 ≤ s.input.length
      rw [List.map_cons, List.foldl_cons, List.foldl_cons]
      show (List.foldl properStart (some r.2.start) (rs.map Prod.snd)).getD 0 < (List.foldl properStop (some r.2.stop) (rs.map Prod.snd)).getD 0 ∧
        (List.foldl properStop (some r.2.stop) (rs.map Prod.snd)).getD 0 ≤ s.input.length
      rw [hx, hy]
      exact ⟨hxy, hyn⟩

/-! ### Echoes, years and seasons -/

theorem place_echo {u : Uni} {t : CaseTables} (hl : ∀ s, u.lower s = [] ↔ s = []) {s s' : Ms} (hw : Held s.input s.live)
    (hm : WellFormed s.input s.markers) (h : equivalentHoles u t s = .ok s') : Held s.input s'.live := by
  obtain ⟨live1, added, rfl, hf, ha⟩ := C36_holes u t hl s s' h
  refine held_of hw fun m hmm => ?_
  rcases List.mem_append.1 hmm with hmm | hmm
  · obtain ⟨m', hm', hr⟩ := forall2_mem hf hmm
    refine Or.inl ⟨m', hm', ?_⟩
    rcases hr with rfl | ⟨v, w, hv, rfl, hw, _⟩
    · exact SameAt.refl _
    · exact sameAt_val _ _
  · obtain ⟨_, hr, _, ⟨part, hp, _, _, h2, h3⟩, _⟩ := ha m hmm
    have := (hm part hp).2
    exact Or.inr (.new ⟨h2, by omega⟩ hr.2)

theorem place_yearSeason {s : Ms} (hw : Held s.input s.live) : Held s.input (yearSeason s).live := by
  unfold yearSeason
  split
  · refine held_of hw fun m hm => ?_
    rcases mem_appendAll hm with hm | hm
    · exact Or.inl ⟨m, hm, SameAt.refl m⟩
    · obtain ⟨x, hx, rfl⟩ := List.mem_map.1 hm
      have hx' := mem_named.1 hx
      exact Or.inr (placed_named hw hx'.1 hx'.2 rfl rfl)
  · exact hw

theorem place_seasonYear {s s' : Ms} (hw : Held s.input s.live) (h : seasonYear s = .ok s') : Held s.input s'.live := by
  unfold seasonYear at h
  split at h
  · split at h
    · cases h
    · rename_i ys hys
      cases h
      refine held_of hw fun m hm => ?_
      rcases mem_appendAll hm with hm | hm
      · exact Or.inl ⟨m, hm, SameAt.refl m⟩
      · obtain ⟨x, hx, rfl, _⟩ := seasonYears_mem hys m hm
        have hx' := mem_named.1 hx
        exact Or.inr (placed_named hw hx'.1 hx'.2 rfl rfl)
  · cases h; exact hw

/-! ### Stripping -/

theorem stripStart_same {input : Str} {m m' : Mt} (h : stripStartOnce input m = .ok m') : SameAt m m' := by
  unfold stripStartOnce at h
  dsimp only at h
  split at h
  · cases h
  · split at h
    · cases h; exact ⟨rfl, rfl, rfl, rfl, id, id, Nat.le_refl _⟩
    · cases h; exact SameAt.refl _

theorem stripEnd_same {input : Str} {m m' : Mt} (h : stripEndOnce input m = .ok m') : SameAt m m' := by
  unfold stripEndOnce at h
  dsimp only at h
  split at h
  · cases h
  · split at h
    · cases h; exact ⟨rfl, rfl, rfl, rfl, id, id, Nat.sub_le _ _⟩
    · cases h; exact SameAt.refl _

theorem stripMatch_same {input : Str} {m m' : Mt} (h : stripMatch input m = .ok m') : SameAt m m' := by
  unfold stripMatch at h
  split at h
  · cases h
  · rename_i a ha
    split at h
    · cases h
    · rename_i b hb
      split at h
      · cases h
      · rename_i c hc
        exact (((stripStart_same ha).trans (stripStart_same hb)).trans (stripEnd_same hc)).trans (stripEnd_same h)

theorem place_strip {s s' : Ms} (hw : Held s.input s.live) (h : stripSeparators s = .ok s') : Held s.input s'.live := by
  unfold stripSeparators at h
  split at h
  · cases h
  · rename_i l hl
    cases h
    refine held_of hw fun m hm => Or.inl ?_
    obtain ⟨x, hx, h2⟩ := stripAll_mem hl m hm
    exact ⟨x, hx, stripMatch_same h2⟩

theorem place_movie {s : Ms} (hw : Held s.input s.live) : Held s.input (renameEpisodeTitleWhenMovie s).live := by
  unfold renameEpisodeTitleWhenMovie
  split
  · refine held_of hw fun m hm => ?_
    rcases renameEach_mem hm with h | ⟨x, hx, rfl⟩
    · exact Or.inl ⟨m, h, SameAt.refl m⟩
    · have hx' := mem_named.1 hx
      exact Or.inr (placed_named hw hx'.1 hx'.2 rfl rfl)
  · exact hw

/-! ### The groups -/

theorem place_enlarge {s : Ms} (hb : Early s) (hw : WellFormed s.input s.live) : WellFormed s.input (enlargeGroupMatches s).live ∧
    ∀ m ∈ (enlargeGroupMatches s).live, m.rawB ≤ s.input.length := by
  refine ⟨fun m hm => ?_, fun m hm => ?_⟩ <;> obtain ⟨_, _, x, hx, h⟩ := early_enlarge hb m hm
  · obtain ⟨h1, h2⟩ := hw x hx
    have h3 := h.start
    rcases h.stop with h4 | h4 <;> exact ⟨by omega, by omega⟩
  · rw [h.right]
    unfold Mt.rawB
    rw [(hb.raw x hx).2]
    exact (hw x hx).2

theorem Early.sub {s : Ms} (hb : Early s) {l : List Mt} (h : l.Sublist s.live) : Early { s with live := l } where
  ids := hb.ids.sublist (h.map _)
  raw m hm := hb.raw m (h.subset hm)
  groups := hb.groups
  starts := hb.starts
  stops := hb.stops

end Guessit
