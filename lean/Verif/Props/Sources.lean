import Verif.Proofs.Removers

/-! # C67: sources, streaming services and websites -/

namespace Guessit
open Spec

namespace Spec

/-- `x` is `m` or one of its children. -/
def InFamily (kin : Kin) (input : Str) (m x : Mt) : Prop := ∃ y, (y = m ∨ y ∈ kin.children m) ∧ y.key input = x.key input

/-- The source is glued to something that does not announce or follow a source.  What comes before must be a prefix that
starts at least three characters before the source. -/
def SourceGlued (s : Ms) (m : Mt) : Prop :=
  (¬ SepBefore s.input m ∧ ¬ ∃ p ∈ s.live, c!"source-prefix" ∈ p.tags ∧ p.start + 2 < m.start ∧ m.start ≤ p.stop) ∨
  (¬ SepAfter s.input m ∧ ¬ ∃ n ∈ s.live, c!"source-suffix" ∈ n.tags ∧ n.start ≤ m.stop ∧ m.stop < n.stop)

end Spec

theorem mem_family {kin : Kin} {m y : Mt} : y ∈ family kin m ↔ y = m ∨ y ∈ kin.children m := by
  unfold family
  rw [List.mem_append, List.mem_singleton, or_comm]

/-- C67 (`ValidateSourcePrefixSuffix`): the pattern that found a source is dropped with all it found iff it is glued. -/
theorem C67_source {s : Ms} (h : Sound s) (kin : Kin) : Drops s (validateSourceAffixes kin s) fun x =>
    ∃ m ∈ s.live, m.name = some c!"source" ∧ (∃ part, IsPart s part ∧ Overlaps part m) ∧ SourceGlued s (kin.initiator m) ∧
      InFamily kin s.input (kin.initiator m) x := by
  have key : ∀ m : Mt, ((!sepsBefore s.input m && (rangeOf s.input s.live (m.start - 1) (m.start - 2) fun x => x.tagged c!"source-prefix").isEmpty) ||
        (!sepsAfter s.input m && (rangeOf s.input s.live m.stop (m.stop + 1) fun x => x.tagged c!"source-suffix").isEmpty)) = true ↔
      SourceGlued s m := by
    intro m
    unfold SourceGlued
    simp only [Bool.or_eq_true, Bool.and_eq_true, Bool.not_eq_true', ← Bool.not_eq_true, sepsBefore_iff, sepsAfter_iff,
      range_empty h.pos, tagged_iff]
    refine or_congr (and_congr Iff.rfl (not_congr ?_)) (and_congr Iff.rfl (not_congr ?_))
    · constructor
      · rintro ⟨p, h1, h2, h3, h4⟩; exact ⟨p, h1, h4, by omega, by omega⟩
      · rintro ⟨p, h1, h4, h2, h3⟩; exact ⟨p, h1, by omega, by omega, h4⟩
    · constructor
      · rintro ⟨p, h1, h2, h3, h4⟩; exact ⟨p, h1, h4, by omega, by omega⟩
      · rintro ⟨p, h1, h4, h2, h3⟩; exact ⟨p, h1, by omega, by omega, h4⟩
  refine drops_keys' h fun x hx => ?_
  simp only [List.mem_flatMap, mem_named, mem_range h.pos, decide_eq_true_eq]
  constructor
  · rintro ⟨y, ⟨part, ⟨h1, h2⟩, m, ⟨h3, h4, h5, h6⟩, hy⟩, hk⟩
    split at hy
    · rename_i hg
      exact ⟨m, h3, h6, ⟨part, ⟨h1, h2⟩, h4, h5⟩, (key _).1 hg, y, mem_family.1 hy, hk⟩
    · simp at hy
  · rintro ⟨m, h3, h6, ⟨part, ⟨h1, h2⟩, h4, h5⟩, hg, y, hy, hk⟩
    exact ⟨y, ⟨part, ⟨h1, h2⟩, m, ⟨h3, h4, h5, h6⟩, by rw [if_pos ((key _).2 hg)]; exact mem_family.2 hy⟩, hk⟩

/-- C67 (`ValidateWeakSource`): a weak source is dropped, with its children, iff text precedes it in its path part and
another source comes later in that part. -/
theorem C67_weak_source {s : Ms} (h : Sound s) (kin : Kin) : Drops s (validateWeakSource kin s) fun x =>
    ∃ m ∈ s.live, m.name = some c!"source" ∧ c!"weak.source" ∈ m.tags ∧
      (∃ part, IsPart s part ∧ Overlaps part m ∧ ¬ NoText s.input s.live part.start m.start ∧
        ∃ n ∈ s.live, n.name = some c!"source" ∧ n.start < part.stop ∧ m.stop < n.stop) ∧
      InFamily kin s.input m x := by
  refine drops_keys' h fun x hx => ?_
  have key : ∀ part m : Mt, (m.tagged c!"weak.source" &&
        !(rangeOf s.input s.live m.stop part.stop fun x => decide (x.name = some c!"source")).isEmpty &&
        hasText s.input s.live part.start m.start) = true ↔
      (c!"weak.source" ∈ m.tags ∧ ∃ n ∈ s.live, n.start < part.stop ∧ m.stop < n.stop ∧ n.name = some c!"source") ∧
        ¬ NoText s.input s.live part.start m.start := by
    intro part m
    simp only [Bool.and_eq_true, Bool.not_eq_true', ← Bool.not_eq_true, tagged_iff, range_empty h.pos, not_not, hasText_iff',
      decide_eq_true_eq]
  simp only [List.mem_flatMap, mem_named, mem_range h.pos, decide_eq_true_eq]
  constructor
  · rintro ⟨y, ⟨part, ⟨h1, h2⟩, m, ⟨h3, h4, h5, h6⟩, hy⟩, hk⟩
    split at hy
    · rename_i hg
      obtain ⟨⟨g1, n, g2, g3, g4, g5⟩, g6⟩ := (key _ _).1 hg
      exact ⟨m, h3, h6, g1, ⟨part, ⟨h1, h2⟩, ⟨h4, h5⟩, g6, n, g2, g5, g3, g4⟩, y, mem_family.1 hy, hk⟩
    · simp at hy
  · rintro ⟨m, h3, h6, g1, ⟨part, ⟨h1, h2⟩, ⟨h4, h5⟩, g6, n, g2, g5, g3, g4⟩, y, hy, hk⟩
    exact ⟨y, ⟨part, ⟨h1, h2⟩, m, ⟨h3, h4, h5, h6⟩, by
      rw [if_pos ((key _ _).2 ⟨⟨g1, n, g2, g3, g4, g5⟩, g6⟩)]; exact mem_family.2 hy⟩, hk⟩

/-- A streaming service is confirmed: by another match of its own pattern, by the match that follows or by the one that
precedes. -/
def Spec.Confirmed (kin : Kin) (s : Ms) (m : Mt) : Prop :=
  (∃ c ∈ kin.children (kin.initiator m), c.name = some c!"other") ∨
  (SepBefore s.input m ∧ ∃ n, ClosestAfter s.live m n ∧ c!"streaming_service.suffix" ∈ n.tags ∧ NoText s.input s.live m.stop n.start) ∨
  (SepAfter s.input m ∧ ∃ p, ClosestBefore s.live m p ∧ c!"streaming_service.prefix" ∈ p.tags ∧ NoText s.input s.live p.stop m.start)

/-- C67 (`ValidateStreamingService`): an unconfirmed streaming service is dropped, and a confirmed "Comedy Central" drops
the "Criterion" editions; nothing else is. -/
theorem C67_service {s : Ms} (h : Sound s) (kin : Kin) : Drops s (validateStreamingService kin s) fun x =>
    (x.name = some c!"streaming_service" ∧ ¬ Confirmed kin s x) ∨
    (x.name = some c!"edition" ∧ x.value s.input = .str c!"Criterion" ∧
      ∃ m ∈ s.live, m.name = some c!"streaming_service" ∧ m.value s.input = .str c!"Comedy Central" ∧ Confirmed kin s m) := by
  have hC : ∀ m : Mt, serviceConfirmed kin s m = true ↔ Confirmed kin s m := by
    intro m
    unfold serviceConfirmed Confirmed
    rw [Bool.or_eq_true, Bool.or_eq_true, Bool.and_eq_true, Bool.and_eq_true, linkedAfter_iff h, linkedBefore_iff h, sepsBefore_iff,
      sepsAfter_iff, or_assoc, and_comm, and_comm (b := SepAfter s.input m)]
    simp only [tagged_iff]
    refine or_congr ?_ Iff.rfl
    rw [Bool.not_eq_true', ← Bool.not_eq_true, List.isEmpty_iff, List.eq_nil_iff_forall_not_mem]
    simp only [mem_named, not_forall, not_not, exists_prop]
  unfold validateStreamingService
  refine drops_mem h ?_ fun x hx => ?_
  · intro y hy
    obtain ⟨m, hm, hy⟩ := List.mem_flatMap.1 hy
    split at hy
    · rw [List.mem_singleton] at hy; rw [hy]; exact (mem_named.1 hm).1
    · split at hy
      · exact (mem_named.1 (List.mem_filter.1 hy).1).1
      · simp at hy
  · rw [List.mem_flatMap]
    constructor
    · rintro ⟨m, hm, hy⟩
      obtain ⟨h1, h2⟩ := mem_named.1 hm
      split at hy
      · rename_i hc
        rw [List.mem_singleton] at hy; subst hy
        exact Or.inl ⟨h2, fun hh => by rw [(hC x).2 hh] at hc; cases hc⟩
      · rename_i hc
        split at hy
        · rename_i hv
          rw [List.mem_filter, mem_named, decide_eq_true_eq] at hy
          exact Or.inr ⟨hy.1.2, hy.2, m, h1, h2, hv, (hC m).1 (by simpa using hc)⟩
        · simp at hy
    · rintro (⟨h1, h2⟩ | ⟨h1, h2, m, h3, h4, h5, h6⟩)
      · refine ⟨x, mem_named.2 ⟨hx, h1⟩, ?_⟩
        rw [if_pos (by simpa using fun hh => h2 ((hC x).1 hh))]; simp
      · refine ⟨m, mem_named.2 ⟨h3, h4⟩, ?_⟩
        rw [if_neg (by simp [(hC m).2 h6]), if_pos h5, List.mem_filter, mem_named, decide_eq_true_eq]
        exact ⟨⟨hx, h1⟩, h2⟩

/-- `m`, found as an `other` next to a streaming service, hangs: it is glued after, and does not lead straight to a streaming
service it announces, or glued before only, and does not follow straight a streaming service it completes. -/
def Spec.Hanging (s : Ms) (m : Mt) : Prop :=
  (¬ SepAfter s.input m ∧ ¬ (c!"streaming_service.prefix" ∈ m.tags ∧
    ∃ n, ClosestAfter s.live m n ∧ n.name = some c!"streaming_service" ∧ NoText s.input s.live m.stop n.start)) ∨
  (SepAfter s.input m ∧ ¬ SepBefore s.input m ∧ ¬ (c!"streaming_service.suffix" ∈ m.tags ∧
    ∃ p, ClosestBefore s.live m p ∧ p.name = some c!"streaming_service" ∧ NoText s.input s.live p.stop m.start))

/-- C67 (`ValidateStreamingServiceNeighbor`): the pattern of an affix of a streaming service is dropped with all it found
iff it hangs. -/
theorem C67_service_neighbor {s : Ms} (h : Sound s) (kin : Kin) : Drops s (validateServiceNeighbor kin s) fun x =>
    ∃ m ∈ s.live, m.name = some c!"other" ∧ m.iname ≠ some c!"source" ∧
      (c!"streaming_service.prefix" ∈ m.tags ∨ c!"streaming_service.suffix" ∈ m.tags) ∧ Hanging s (kin.initiator m) ∧
      InFamily kin s.input (kin.initiator m) x := by
  refine drops_keys' h fun x hx => ?_
  simp only [List.mem_flatMap, List.mem_filter, mem_named, Bool.and_eq_true, Bool.or_eq_true, decide_eq_true_eq, tagged_iff]
  have hA : ∀ m, (m.tagged c!"streaming_service.prefix" && linkedAfter s m fun x => decide (x.name = some c!"streaming_service")) = true ↔
      c!"streaming_service.prefix" ∈ m.tags ∧
        ∃ n, ClosestAfter s.live m n ∧ n.name = some c!"streaming_service" ∧ NoText s.input s.live m.stop n.start := by
    intro m; rw [Bool.and_eq_true, linkedAfter_iff h, tagged_iff]; simp only [decide_eq_true_eq]
  have hB : ∀ m, (m.tagged c!"streaming_service.suffix" && linkedBefore s m fun x => decide (x.name = some c!"streaming_service")) = true ↔
      c!"streaming_service.suffix" ∈ m.tags ∧
        ∃ n, ClosestBefore s.live m n ∧ n.name = some c!"streaming_service" ∧ NoText s.input s.live n.stop m.start := by
    intro m; rw [Bool.and_eq_true, linkedBefore_iff h, tagged_iff]; simp only [decide_eq_true_eq]
  have key : ∀ m y, y ∈ hangingFamily kin s m ↔ Hanging s m ∧ (y = m ∨ y ∈ kin.children m) := by
    intro m y
    unfold Hanging hangingFamily
    dsimp only
    rw [← hA, ← hB, ← sepsAfter_iff, ← sepsBefore_iff, ← mem_family]
    cases sepsAfter s.input m <;> cases sepsBefore s.input m <;>
      cases (m.tagged c!"streaming_service.prefix" && linkedAfter s m fun x => decide (x.name = some c!"streaming_service")) <;>
      cases (m.tagged c!"streaming_service.suffix" && linkedBefore s m fun x => decide (x.name = some c!"streaming_service")) <;> simp
  constructor
  · rintro ⟨y, ⟨m, ⟨⟨h1, h2⟩, h3, h4⟩, hy⟩, hk⟩
    obtain ⟨h5, h6⟩ := (key _ _).1 hy
    exact ⟨m, h1, h2, h3, h4, h5, y, h6, hk⟩
  · rintro ⟨m, h1, h2, h3, h4, h5, y, h6, hk⟩
    exact ⟨y, ⟨m, ⟨⟨h1, h2⟩, h3, h4⟩, (key _ _).2 ⟨h5, h6⟩⟩, hk⟩

/-- C67 (`ValidateWebsitePrefix`): a website prefix stays iff a website is the next match, with no text between. -/
theorem C67_website_prefix {s : Ms} (h : Sound s) : Drops s (validateWebsitePrefix s) fun x =>
    c!"website.prefix" ∈ x.tags ∧
      ¬ ∃ w, ClosestAfter s.live x w ∧ w.name = some c!"website" ∧ NoText s.input s.live x.stop w.start := by
  unfold validateWebsitePrefix
  rw [List.filter_filter]
  refine drops_filter h _ fun x hx => ?_
  have hF := firstNext (input := s.input) (T := fun k => NoText s.input s.live x.stop k) (x := x)
    (q := fun x => decide (x.name = some c!"website")) h.pos
  simp only [decide_eq_true_eq] at hF
  rw [Bool.and_eq_true, and_comm, tagged_iff, ← hF]
  refine and_congr Iff.rfl ?_
  cases firstTrue (nextOf s.input s.live x fun x => decide (x.name = some c!"website")) with
  | none => simp
  | some w => simp [← hasText_iff]

/-- C67 (`PreferTitleOverWebsite`): a website is dropped iff it does not begin as websites do, is followed by a season, an
episode or a year, or by a match with such a child, and is not in brackets. -/
theorem C67_website {s : Ms} (h : Sound s) (kin : Kin) (lower : Str → Str) (safe : List Str) : Drops s (preferTitleOverWebsite kin lower safe s) fun x =>
    x.name = some c!"website" ∧ (¬ ∃ v p rest, x.value s.input = .str v ∧ p ∈ safe ∧ lower v = p ++ rest) ∧
      (∃ n, ClosestAfter s.live x n ∧ GoesBy kin n [c!"season", c!"episode", c!"year"]) ∧
      ¬ ∃ g ∈ s.markers, g.name = some c!"group" ∧ AtEnds x g := by
  refine drops_named h _ _ fun x hx => ?_
  have hF := firstNext (input := s.input) (T := fun _ => True) (x := x)
    (q := fun x => x.goesBy kin [c!"season", c!"episode", c!"year"]) h.pos
  simp only [goesBy_iff, and_true] at hF
  rw [Bool.and_eq_true, Bool.and_eq_true, atMatch_none, ← hF, and_assoc]
  refine and_congr Iff.rfl (and_congr ?_ (and_congr ?_ Iff.rfl))
  · rw [Bool.not_eq_true', ← Bool.not_eq_true]
    refine not_congr ?_
    cases hv : x.value s.input with
    | str v =>
      simp only [List.any_eq_true, MVal.str.injEq]
      constructor
      · rintro ⟨p, hp, hpre⟩
        obtain ⟨rest, hr⟩ := List.isPrefixOf_iff_prefix.1 hpre
        exact ⟨v, p, rest, rfl, hp, hr.symm⟩
      · rintro ⟨v', p, rest, rfl, hp, hr⟩
        exact ⟨p, hp, List.isPrefixOf_iff_prefix.2 ⟨rest, hr.symm⟩⟩
    | int n => simp
    | obj n => simp
  · exact Option.isSome_iff_exists

/-! ### examples -/

/-- Matches without relatives. -/
def alone : Kin := ⟨fun m => m, fun _ => [], fun m => m.id, fun _ => []⟩

def sourceState : Ms where
  input := c!"foo WEB bar ScrDVD HBO xDVD"
  live := [wordMt 1 4 7 [c!"weak.source"] c!"source", wordMt 2 12 15 [c!"source-prefix"], wordMt 3 15 18 [] c!"source",
    wordMt 4 19 22 [] c!"streaming_service", wordMt 5 24 27 [c!"streaming_service.suffix"] c!"source"]
  markers := [wordMt 9 0 27 [] c!"path"]

example : Sound sourceState ∧ (validateSourceAffixes alone sourceState).live.map Mt.id = [1, 2, 3, 4] ∧
    (validateWeakSource alone sourceState).live.map Mt.id = [2, 3, 4, 5] ∧
    (validateStreamingService alone sourceState).live.map Mt.id = [1, 2, 3, 5] ∧
    (validateStreamingService alone { sourceState with input := c!"foo WEB bar ScrDVD HBO .DVD" }).live.map Mt.id = [1, 2, 3, 4, 5] :=
  ⟨sound_of (by decide) (by decide), by decide +kernel, by decide +kernel, by decide +kernel, by decide +kernel⟩

def websiteState : Ms where
  input := c!"from www.site.org 2010 The.Blue.com S01 [foo.tv] 2011xHD"
  live := [wordMt 1 0 4 [c!"website.prefix"], wordMt 2 5 17 [] c!"website", wordMt 3 18 22 [] c!"year",
    wordMt 4 23 35 [] c!"website", wordMt 5 36 39 [] c!"season", wordMt 6 41 47 [] c!"website", wordMt 7 49 53 [] c!"year",
    wordMt 8 54 56 [c!"streaming_service.suffix"]]
  markers := [wordMt 9 40 48 [] c!"group"]

example : Sound websiteState ∧ (validateWebsitePrefix websiteState).live.map Mt.id = [1, 2, 3, 4, 5, 6, 7, 8] ∧
    (preferTitleOverWebsite alone id [c!"www."] websiteState).live.map Mt.id = [1, 2, 3, 5, 6, 7, 8] ∧
    (validateServiceNeighbor alone websiteState).live.map Mt.id = [1, 2, 3, 4, 5, 6, 7] ∧
    (validateWebsitePrefix { websiteState with input := c!"frombwww.site.org 2010 The.Blue.com S01 [foo.tv] 2011xHD" }).live.map Mt.id =
      [2, 3, 4, 5, 6, 7, 8] :=
  ⟨sound_of (by decide) (by decide), by decide +kernel, by decide +kernel, by decide +kernel, by decide +kernel⟩

/-- C67: a source is dropped although a source prefix stands right before it, when that prefix has two characters. -/
theorem C67_counterexample_short_prefix : ∃ (s : Ms) (p m : Mt), Sound s ∧ p ∈ s.live ∧ m ∈ s.live ∧
    c!"source-prefix" ∈ p.tags ∧ p.stop = m.start ∧ m.name = some c!"source" ∧ SepAfter s.input m ∧
      m ∉ (validateSourceAffixes alone s).live := by
  refine ⟨⟨c!"foo CCWEB", [wordMt 1 4 6 [c!"source-prefix"] c!"streaming_service", wordMt 2 6 9 [] c!"source"],
    [wordMt 9 0 9 [] c!"path"]⟩, wordMt 1 4 6 [c!"source-prefix"] c!"streaming_service", wordMt 2 6 9 [] c!"source",
    sound_of (by decide) (by decide), by simp, by simp, by decide, rfl, rfl, Or.inl (by decide), ?_⟩
  intro hm
  have := List.mem_map_of_mem (f := Mt.id) hm
  revert this
  decide

end Guessit
