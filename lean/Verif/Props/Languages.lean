import Verif.Props.Removers

/-! # C70, C71, C72: languages, screen sizes, titles -/

namespace Guessit
open Spec

/-! ### C70 -/

/-- `m` is a language or a subtitle language. -/
def Spec.IsLanguage (m : Mt) : Prop := NamedIn m [c!"language", c!"subtitle_language"]

theorem mem_languages {s : Ms} (h : Sound s) {x : Mt} :
    x ∈ rangeOf s.input s.live 0 s.input.length (fun m => m.isOneOf [c!"language", c!"subtitle_language"]) ↔
      x ∈ s.live ∧ IsLanguage x := by
  rw [mem_range h.pos, isOneOf_iff]
  constructor
  · rintro ⟨h1, _, _, h4⟩; exact ⟨h1, h4⟩
  · rintro ⟨h1, h4⟩
    have := h.wf x h1
    exact ⟨h1, by omega, by omega, h4⟩

/-- C70 (`RemoveInvalidLanguages`): a language spelled as a common word is dropped, unless it stands in a bracketed group
made of languages only. -/
theorem C70_common {s : Ms} (h : Sound s) (lower : Str → Str) (common : List Str) :
    Drops s (removeInvalidLanguages lower common s) fun x => IsLanguage x ∧ lower (x.raw s.input) ∈ common ∧
      ¬ ∃ g, EndMark s.markers c!"group" x g ∧ (∀ m ∈ s.live, Overlaps g m → IsLanguage m) ∧ NoText s.input s.live g.start g.stop := by
  have key : ∀ x : Mt, (match firstTrue (atMatch s.input s.markers x fun g => decide (g.name = some c!"group")) with
      | some g => (rangeOf s.input s.live g.start g.stop fun x => !x.isOneOf [c!"language", c!"subtitle_language"]).isEmpty &&
          !hasText s.input s.live g.start g.stop
      | none => false) = true ↔
      ∃ g, EndMark s.markers c!"group" x g ∧ (∀ m ∈ s.live, Overlaps g m → IsLanguage m) ∧ NoText s.input s.live g.start g.stop := by
    intro x
    cases hg : firstTrue (atMatch s.input s.markers x fun g => decide (g.name = some c!"group")) with
    | none =>
      simp only [Bool.false_eq_true, false_iff]
      rintro ⟨g, hg', _⟩
      rw [← atMatch_first (input := s.input), hg] at hg'
      cases hg'
    | some g =>
      dsimp only
      rw [Bool.and_eq_true, Bool.not_eq_true', hasText_iff, range_empty h.pos]
      have e : (¬ ∃ m ∈ s.live, m.start < g.stop ∧ g.start < m.stop ∧ (!m.isOneOf [c!"language", c!"subtitle_language"]) = true) ↔
          ∀ m ∈ s.live, Overlaps g m → IsLanguage m := by
        constructor
        · intro hh m hm ho
          by_contra hc
          exact hh ⟨m, hm, ho.1, ho.2, by rw [Bool.not_eq_true', ← Bool.not_eq_true, isOneOf_iff]; exact hc⟩
        · rintro hh ⟨m, hm, h1, h2, h3⟩
          rw [Bool.not_eq_true', ← Bool.not_eq_true, isOneOf_iff] at h3
          exact h3 (hh m hm ⟨h1, h2⟩)
      rw [e]
      constructor
      · intro h1; exact ⟨g, atMatch_first.1 hg, h1⟩
      · rintro ⟨g', hg', h1⟩
        rw [← atMatch_first (input := s.input), hg] at hg'
        cases hg'
        exact h1
  refine drops_mem h ?_ fun x hx => ?_
  · intro m hm
    exact ((mem_languages h).1 (List.mem_filter.1 hm).1).1
  · rw [List.mem_filter, mem_languages h, Bool.and_eq_true, Bool.not_eq_true', ← Bool.not_eq_true, List.contains_iff_mem]
    refine Iff.trans (and_congr Iff.rfl (and_congr Iff.rfl (not_congr (key x)))) ?_
    constructor
    · rintro ⟨⟨_, h2⟩, h3⟩; exact ⟨h2, h3⟩
    · rintro ⟨h2, h3⟩; exact ⟨⟨hx, h2⟩, h3⟩

/-- C70 (`RemoveUndeterminedLanguages`): an undetermined language is dropped iff the match just before it, or the match just
after it, is a language. -/
theorem C70_undetermined {s : Ms} (h : Sound s) (und : MVal) :
    Drops s (removeUndetermined und s) fun x => IsLanguage x ∧ x.value s.input = und ∧
      ((∃ p, FirstOf s.live (ClosestBefore s.live x) p ∧ p.name = some c!"language") ∨
        ∃ n, FirstOf s.live (ClosestAfter s.live x) n ∧ n.name = some c!"language") := by
  have hprev : ∀ x p : Mt, firstTrue (previous s.live x fun _ => true) = some p ↔ FirstOf s.live (ClosestBefore s.live x) p := by
    intro x p
    rw [firstTrue_eq (fun m hm => h.pos m (by rw [mem_previous] at hm; exact hm.1.1)), previous, previousFrom_eq, List.filter_filter,
      head_filter_iff]
    refine firstOf_congr (fun y hy => ?_) p
    unfold ClosestBefore
    simp only [Bool.true_and, Bool.and_eq_true, decide_eq_true_eq]
    exact ⟨fun hh => ⟨hy, hh⟩, fun hh => hh.2⟩
  have hnext : ∀ x n : Mt, firstTrue (nextOf s.input s.live x fun _ => true) = some n ↔ FirstOf s.live (ClosestAfter s.live x) n := by
    intro x n
    rw [firstTrue_eq (fun m hm => by
      rw [nextOf, nextFrom_eq] at hm
      exact h.pos m (by simp at hm; exact hm.1)), nextOf, nextFrom_eq, List.filter_filter, head_filter_iff]
    refine firstOf_congr (fun y hy => ?_) n
    unfold ClosestAfter
    simp only [Bool.true_and, Bool.and_eq_true, decide_eq_true_eq]
    have := (maxEnd_ge s.input s.live).2 y hy
    have := h.pos y hy
    constructor
    · rintro ⟨⟨h2, _⟩, h3⟩
      exact ⟨hy, by omega, fun z hz hh => h3 z hz (by omega)⟩
    · rintro ⟨h1, h2, h3⟩
      exact ⟨⟨by omega, by omega⟩, fun z hz hh => h3 z hz (by omega)⟩
  have any_iff : ∀ (o : Option Mt) (q : Mt → Bool), o.any q = true ↔ ∃ p, o = some p ∧ q p = true := by
    intro o q; cases o <;> simp
  refine drops_mem h ?_ fun x hx => ?_
  · intro m hm
    exact ((mem_languages h).1 (List.mem_filter.1 hm).1).1
  · rw [List.mem_filter, mem_languages h, Bool.and_eq_true, Bool.or_eq_true, any_iff, any_iff]
    simp only [hprev, hnext, decide_eq_true_eq]
    constructor
    · rintro ⟨⟨_, h2⟩, h3⟩; exact ⟨h2, h3⟩
    · rintro ⟨h2, h3⟩; exact ⟨⟨hx, h2⟩, h3⟩

/-! ### C71 -/

namespace Spec

/-- `z` is the first screen size of the path part. -/
def SizeOf (s : Ms) (part z : Mt) : Prop := IsPart s part ∧ Lead s.live (fun m => Overlaps part m ∧ m.name = some c!"screen_size") z

/-- `x` is a season or an episode that overlaps `z`. -/
def Contends (z x : Mt) : Prop := NamedIn x [c!"season", c!"episode"] ∧ x ≠ z ∧ Overlaps z x

/-- The first video profile of the rest of the part, or a date, a source, an other or a streaming service, is next to the
screen size, with no text between them. -/
def SizeAttached (s : Ms) (part z : Mt) : Prop :=
  (∃ v, Lead s.live (fun m => m.start < part.stop ∧ z.stop < m.stop ∧ m.name = some c!"video_profile") v ∧
    NoText s.input s.live z.stop v.start) ∨
  ∃ p, ClosestBefore s.live z p ∧ NamedIn p [c!"date", c!"source", c!"other", c!"streaming_service"] ∧
    NoText s.input s.live p.stop z.start

end Spec

/-- C71 (`ResolveScreenSizeConflicts`): when seasons or episodes overlap the first screen size of a path part, either they are
dropped, if the size is attached to another property, or the screen size is. -/
theorem C71_conflict {s : Ms} (h : Sound s) : Drops s (resolveScreenSize s) fun x =>
    ∃ part z, SizeOf s part z ∧ ((SizeAttached s part z ∧ Contends z x) ∨
      (¬ SizeAttached s part z ∧ x = z ∧ ∃ y ∈ s.live, Contends z y)) := by
  have hfirst : ∀ part z : Mt, firstIn s part.start part.stop (fun m => decide (m.name = some c!"screen_size")) = some z ↔
      Lead s.live (fun m => Overlaps part m ∧ m.name = some c!"screen_size") z := by
    intro part z
    rw [firstIn_iff h]
    refine lead_congr fun x _ => ?_
    rw [decide_eq_true_eq]
    unfold Overlaps
    tauto
  have hprof : ∀ part z : Mt, profileLinked s part z = true ↔
      ∃ v, Lead s.live (fun m => m.start < part.stop ∧ z.stop < m.stop ∧ m.name = some c!"video_profile") v ∧
        NoText s.input s.live z.stop v.start := by
    intro part z
    have e : ∀ v, firstIn s z.stop part.stop (fun m => decide (m.name = some c!"video_profile")) = some v ↔
        Lead s.live (fun m => m.start < part.stop ∧ z.stop < m.stop ∧ m.name = some c!"video_profile") v := by
      intro v
      rw [firstIn_iff h]
      refine lead_congr fun x _ => ?_
      rw [decide_eq_true_eq]
    unfold profileLinked
    cases hv : firstIn s z.stop part.stop (fun m => decide (m.name = some c!"video_profile")) with
    | none =>
      simp only [Bool.false_eq_true, false_iff]
      rintro ⟨v, h1, _⟩
      rw [← e, hv] at h1; cases h1
    | some v =>
      dsimp only
      rw [Bool.not_eq_true', hasText_iff]
      constructor
      · intro h1; exact ⟨v, (e v).1 hv, h1⟩
      · rintro ⟨v', h1, h2⟩
        rw [← e, hv] at h1; cases h1; exact h2
  have hlink : ∀ z : Mt, linkedBefore s z (fun m => m.isOneOf sizeNeighbors) = true ↔
      ∃ p, ClosestBefore s.live z p ∧ NamedIn p [c!"date", c!"source", c!"other", c!"streaming_service"] ∧
        NoText s.input s.live p.stop z.start := by
    intro z
    rw [linkedBefore_iff h]
    simp only [isOneOf_iff]
    rfl
  have hmem : ∀ part z x : Mt, z ∈ s.live → (x ∈ sizeConflicts s part z ↔ x ∈ s.live ∧
      ((SizeAttached s part z ∧ Contends z x) ∨ (¬ SizeAttached s part z ∧ x = z ∧ ∃ y ∈ s.live, Contends z y))) := by
    intro part z x hz
    unfold sizeConflicts
    dsimp only
    generalize hc : ((conflicting s.input s.live z).filter fun m => m.isOneOf [c!"season", c!"episode"]) = conflicts
    have hcm : ∀ y, y ∈ conflicts ↔ y ∈ s.live ∧ Contends z y := by
      intro y
      rw [← hc, List.mem_filter, mem_conflicting h hz, isOneOf_iff]
      unfold Contends
      tauto
    have hatt : SizeAttached s part z ↔
        (profileLinked s part z = true ∨ linkedBefore s z (fun m => m.isOneOf sizeNeighbors) = true) := by
      rw [hprof, hlink]; rfl
    by_cases he : conflicts.isEmpty = true
    · rw [if_pos he]
      rw [List.isEmpty_iff] at he
      have hno : ∀ y ∈ s.live, ¬ Contends z y := fun y hy hcy => by
        have := (hcm y).2 ⟨hy, hcy⟩
        rw [he] at this; simp at this
      simp only [List.not_mem_nil, false_iff]
      rintro ⟨h1, ⟨_, h2⟩ | ⟨_, _, y, h2, h3⟩⟩
      · exact hno x h1 h2
      · exact hno y h2 h3
    · rw [if_neg he]
      have hsome : ∃ y ∈ s.live, Contends z y := by
        by_contra hn
        apply he
        rw [List.isEmpty_iff, List.eq_nil_iff_forall_not_mem]
        intro y hy
        exact hn ⟨y, (hcm y).1 hy⟩
      by_cases h1 : profileLinked s part z = true
      · have ha : SizeAttached s part z := hatt.2 (Or.inl h1)
        rw [if_pos h1]
        have : (x ∈ if linkedBefore s z (fun m => m.isOneOf sizeNeighbors) = true then conflicts ++ conflicts else conflicts) ↔ x ∈ conflicts := by
          split <;> simp
        rw [this, hcm]
        simp [ha]
      · rw [if_neg h1]
        by_cases h2 : linkedBefore s z (fun m => m.isOneOf sizeNeighbors) = true
        · have ha : SizeAttached s part z := hatt.2 (Or.inr h2)
          rw [if_pos h2, hcm]
          simp [ha]
        · have ha : ¬ SizeAttached s part z := fun hh => (hatt.1 hh).elim h1 h2
          rw [if_neg h2, List.mem_singleton]
          simp only [ha, false_and, not_false_iff, true_and, false_or]
          constructor
          · rintro rfl; exact ⟨hz, rfl, hsome⟩
          · rintro ⟨_, h3, _⟩; exact h3
  have hall : ∀ x, (x ∈ (pathParts s).flatMap fun part =>
      match firstIn s part.start part.stop fun m => decide (m.name = some c!"screen_size") with
      | none => []
      | some z => sizeConflicts s part z) ↔ x ∈ s.live ∧
      ∃ part z, SizeOf s part z ∧ ((SizeAttached s part z ∧ Contends z x) ∨
        (¬ SizeAttached s part z ∧ x = z ∧ ∃ y ∈ s.live, Contends z y)) := by
    intro x
    rw [List.mem_flatMap]
    constructor
    · rintro ⟨part, hp, hm⟩
      cases hf : firstIn s part.start part.stop (fun m => decide (m.name = some c!"screen_size")) with
      | none => rw [hf] at hm; simp at hm
      | some z =>
        rw [hf] at hm
        have hz := (hfirst part z).1 hf
        obtain ⟨h1, h2⟩ := (hmem part z x (lead_mem hz).1).1 hm
        exact ⟨h1, part, z, ⟨mem_parts.1 hp, hz⟩, h2⟩
    · rintro ⟨h1, part, z, ⟨hp, hz⟩, h2⟩
      refine ⟨part, mem_parts.2 hp, ?_⟩
      rw [(hfirst part z).2 hz]
      exact (hmem part z x (lead_mem hz).1).2 ⟨h1, h2⟩
  exact drops_mem h (fun m hm => ((hall m).1 hm).1) fun x hx => (hall x).trans (and_iff_right hx)

/-! ### C72 -/

namespace Spec

/-- The path part at an end of the title has `y` for first year. -/
def TitleYear (s : Ms) (t y : Mt) : Prop := ∃ part, EndMark s.markers c!"path" t part ∧
  Lead s.live (fun m => Overlaps part m ∧ m.name = some c!"year") y

/-- An end of the year stands in a bracketed group. -/
def Grouped (s : Ms) (y : Mt) : Prop := ∃ g ∈ s.markers, g.name = some c!"group" ∧ AtEnds y g

/-- The titles preferred: those whose part has a bracketed year; if there are none, those whose part has a year. -/
def Preferred (s : Ms) (t : Mt) : Prop := t ∈ s.live ∧ t.name = some c!"title" ∧ ∃ y, TitleYear s t y ∧
  (Grouped s y ∨ ¬ ∃ t' ∈ s.live, t'.name = some c!"title" ∧ ∃ y', TitleYear s t' y' ∧ Grouped s y')

end Spec

open Classical in
/-- C72 (`PreferTitleWithYear`): when some titles are preferred, the titles of another value are dropped and the preferred
titles are marked; when none is, nothing changes. -/
theorem C72_prefer {s : Ms} (h : Sound s) : ∃ l, Drops s { s with live := l } (fun x => x.name = some c!"title" ∧
      (∃ t, Preferred s t) ∧ ∀ t, Preferred s t → t.value s.input ≠ x.value s.input) ∧
    preferTitleWithYear s = ⟨s.input, l.map (fun m =>
      if (Preferred s m) then { m with tags := m.tags ++ [c!"equivalent-ignore"] } else m), s.markers⟩ := by
  have hyear : ∀ t y : Mt, yearOfTitle s t = some y ↔ TitleYear s t y := by
    intro t y
    unfold yearOfTitle TitleYear
    cases hp : firstTrue (atMatch s.input s.markers t fun m => decide (m.name = some c!"path")) with
    | none =>
      simp only [reduceCtorEq, false_iff]
      rintro ⟨part, h1, _⟩
      rw [← atMatch_first (input := s.input), hp] at h1
      cases h1
    | some part =>
      dsimp only
      rw [yearOf_iff h]
      constructor
      · intro h1; exact ⟨part, atMatch_first.1 hp, h1⟩
      · rintro ⟨part', h1, h2⟩
        rw [← atMatch_first (input := s.input), hp] at h1
        cases h1
        exact h2
  have hgr : ∀ y : Mt, (!(atMatch s.input s.markers y fun m => decide (m.name = some c!"group")).isEmpty) = true ↔ Grouped s y := by
    intro y
    rw [Bool.not_eq_true', ← Bool.not_eq_true, atMatch_empty, not_not]
    rfl
  have any_iff : ∀ (o : Option Mt) (q : Mt → Bool), o.any q = true ↔ ∃ p, o = some p ∧ q p = true := by
    intro o q; cases o <;> simp
  have h1 : ∀ t, t ∈ (preferredTitles s).1 ↔ t ∈ s.live ∧ t.name = some c!"title" ∧ ∃ y, TitleYear s t y ∧ Grouped s y := by
    intro t
    unfold preferredTitles
    dsimp only
    rw [List.mem_filter, mem_named, any_iff]
    simp only [hyear, hgr, and_assoc]
  have h2 : ∀ t, t ∈ (preferredTitles s).2 ↔ t ∈ s.live ∧ t.name = some c!"title" ∧ ∃ y, TitleYear s t y ∧ ¬ Grouped s y := by
    intro t
    unfold preferredTitles
    dsimp only
    rw [List.mem_filter, mem_named, any_iff]
    simp only [hyear, and_assoc]
    refine and_congr Iff.rfl (and_congr Iff.rfl ?_)
    refine exists_congr fun y => and_congr Iff.rfl ?_
    rw [← hgr y, Bool.not_eq_true]
    simp
  have hemp : (preferredTitles s).1.isEmpty = true ↔
      ¬ ∃ t' ∈ s.live, t'.name = some c!"title" ∧ ∃ y', TitleYear s t' y' ∧ Grouped s y' := by
    rw [List.isEmpty_iff, List.eq_nil_iff_forall_not_mem]
    constructor
    · rintro hh ⟨t, k⟩; exact hh t ((h1 t).2 k)
    · intro hh t ht; exact hh ⟨t, (h1 t).1 ht⟩
  unfold preferTitleWithYear
  dsimp only
  generalize ht : (if (preferredTitles s).1.isEmpty = true then (preferredTitles s).2 else (preferredTitles s).1) = tag
  have htag : ∀ t, t ∈ tag ↔ Preferred s t := by
    intro t
    rw [← ht]
    unfold Preferred
    by_cases he : (preferredTitles s).1.isEmpty = true
    · rw [if_pos he, h2]
      have := hemp.1 he
      refine and_congr_right fun k1 => and_congr_right fun k2 => exists_congr fun y => and_congr_right fun k3 => ?_
      constructor
      · intro _; exact Or.inr this
      · intro _ k5; exact this ⟨t, k1, k2, y, k3, k5⟩
    · rw [if_neg he, h1]
      have := fun hh => he (hemp.2 hh)
      refine and_congr_right fun k1 => and_congr_right fun k2 => exists_congr fun y => and_congr_right fun k3 => ?_
      exact ⟨Or.inl, fun k => k.elim id fun k => absurd k this⟩
  have hname : ∀ t, Preferred s t → t.name = some c!"title" := fun t k => k.2.1
  have hlive : ∀ t, Preferred s t → t ∈ s.live := fun t k => k.1
  refine ⟨removeAll s.input s.live ((named s.live c!"title").filter fun t =>
    !((if tag.isEmpty = true then named s.live c!"title" else tag).map (Mt.value s.input)).contains (t.value s.input)), ?_, ?_⟩
  · refine drops_named h _ _ fun x hx => ?_
    refine and_congr_right fun hn => ?_
    rw [Bool.not_eq_true', ← Bool.not_eq_true, List.contains_iff_mem, List.mem_map]
    by_cases he : tag.isEmpty = true
    · rw [if_pos he]
      rw [List.isEmpty_iff, List.eq_nil_iff_forall_not_mem] at he
      constructor
      · intro hh; exact absurd ⟨x, mem_named.2 ⟨hx, hn⟩, rfl⟩ hh
      · rintro ⟨⟨t, k⟩, _⟩; exact absurd ((htag t).2 k) (he t)
    · rw [if_neg he]
      have hs : ∃ t, Preferred s t := by
        by_contra hc
        apply he
        rw [List.isEmpty_iff, List.eq_nil_iff_forall_not_mem]
        intro t k
        exact hc ⟨t, (htag t).1 k⟩
      constructor
      · intro hh; exact ⟨hs, fun t k hv => hh ⟨t, (htag t).2 k, hv⟩⟩
      · rintro ⟨_, hh⟩ ⟨t, k, hv⟩; exact hh t ((htag t).1 k) hv
  · have e : ∀ l : List Mt, (∀ m ∈ l, m ∈ s.live) → tagAll s.input c!"equivalent-ignore" l tag =
        l.map fun m => if Preferred s m then { m with tags := m.tags ++ [c!"equivalent-ignore"] } else m := by
      intro l hl
      unfold tagAll
      refine List.map_congr_left fun m hm => ?_
      by_cases hp : Preferred s m
      · rw [if_pos hp, if_pos (List.any_eq_true.2 ⟨m, (htag m).2 hp, decide_eq_true rfl⟩)]
      · rw [if_neg hp, if_neg]
        intro hc
        obtain ⟨y, k1, k2⟩ := List.any_eq_true.1 hc
        have hk : m.key s.input = y.key s.input := of_decide_eq_true k2
        have k1 := (htag y).1 k1
        have := key_inj h (hl m hm) (hlive y k1) hk.symm
        exact hp (this ▸ k1)
    rw [e _ fun m hm => (removeAll_sublist _ _ _).subset hm]


/-! ### examples -/

def languageState : Ms where
  input := c!"the it movie [it.en] und fr 1080 S10"
  live := [wordMt 1 4 6 [] c!"language", wordMt 2 14 16 [] c!"language", wordMt 3 17 19 [] c!"subtitle_language",
    { wordMt 4 21 24 [] c!"language" with val := some (.obj 0) }, wordMt 5 25 27 [] c!"language"]
  markers := [wordMt 9 13 20 [] c!"group", wordMt 10 0 34 [] c!"path"]

example : Sound languageState ∧ (removeInvalidLanguages id [c!"it", c!"fr"] languageState).live.map Mt.id = [2, 3, 4] ∧
    (removeUndetermined (.obj 0) languageState).live.map Mt.id = [1, 2, 3, 5] ∧
    (removeUndetermined (.obj 0) { languageState with live := languageState.live.take 4 }).live.map Mt.id = [1, 2, 3, 4] :=
  ⟨sound_of (by decide) (by decide), by decide +kernel, by decide +kernel, by decide +kernel⟩

def sizeState : Ms where
  input := c!"foo 720x08 bar"
  live := [wordMt 1 4 10 [] c!"screen_size", wordMt 2 4 7 [] c!"season", wordMt 3 8 10 [] c!"episode"]
  markers := [wordMt 9 0 14 [] c!"path"]

example : Sound sizeState ∧ (resolveScreenSize sizeState).live.map Mt.id = [2, 3] ∧
    (resolveScreenSize { sizeState with live := wordMt 4 0 3 [] c!"source" :: sizeState.live }).live.map Mt.id = [4, 1] ∧
    (resolveScreenSize { sizeState with live := wordMt 4 11 14 [] c!"video_profile" :: sizeState.live }).live.map Mt.id = [4, 1] :=
  ⟨sound_of (by decide) (by decide), by decide +kernel, by decide +kernel, by decide +kernel⟩

def titledState : Ms where
  input := c!"foo 1999/bar (2000)/baz 2001/bar"
  live := [wordMt 1 0 3 [] c!"title", wordMt 2 4 8 [] c!"year", wordMt 3 9 12 [] c!"title", wordMt 4 14 18 [] c!"year",
    wordMt 5 20 23 [] c!"title", wordMt 6 24 28 [] c!"year", wordMt 7 29 32 [] c!"title"]
  markers := [wordMt 11 0 8 [] c!"path", wordMt 12 9 19 [] c!"path", wordMt 13 20 28 [] c!"path", wordMt 14 29 32 [] c!"path",
    wordMt 15 13 19 [] c!"group"]

example : Sound titledState ∧ (preferTitleWithYear titledState).live.map (fun m => (m.id, m.tags.length)) =
      [(2, 0), (3, 1), (4, 0), (6, 0), (7, 0)] ∧
    (preferTitleWithYear { titledState with markers := titledState.markers.take 4 }).live.map (fun m => (m.id, m.tags.length)) =
      [(1, 1), (2, 0), (3, 1), (4, 0), (5, 1), (6, 0), (7, 0)] :=
  ⟨sound_of (by decide) (by decide), by decide +kernel, by decide +kernel⟩

end Guessit
