import Verif.Proofs.Validators

/-! # C63–C68: the rules that drop matches -/

namespace Guessit
open Spec

theorem tagged_iff {m : Mt} {t : Str} : m.tagged t = true ↔ t ∈ m.tags := by simp [Mt.tagged]

theorem isOneOf_iff {m : Mt} {names : List Str} : m.isOneOf names = true ↔ NamedIn m names := by
  unfold Mt.isOneOf NamedIn
  cases m.name with
  | none => simp
  | some n => simp

theorem goesBy_iff {kin : Kin} {m : Mt} {names : List Str} : m.goesBy kin names = true ↔ GoesBy kin m names := by
  unfold Mt.goesBy GoesBy
  cases h : kin.children m with
  | nil => simp [isOneOf_iff]
  | cons c cs => simp only [List.any_eq_true, isOneOf_iff, reduceCtorEq, false_and, false_or]

theorem Spec.Sound.pos {s : Ms} (h : Sound s) : ∀ m ∈ s.live, m.start < m.stop := fun m hm => (h.wf m hm).1

/-! ### C63 -/

/-- Bracketed groups are not empty. -/
def Spec.GroupsNonEmpty (s : Ms) : Prop := ∀ g ∈ s.markers, g.name = some c!"group" → g.start < g.stop

theorem onlySeps_mono {input : Str} {a a' b b' : Nat} (h : OnlySeps input a b) (ha : a ≤ a') (hb : b' ≤ b) : OnlySeps input a' b' :=
  fun i c h1 h2 h3 => h i c (by omega) (by omega) h3

theorem touchesBefore_iff {s : Ms} (h : Sound s) (hg : GroupsNonEmpty s) {x : Mt} : touchesBefore s x = true ↔ HasBefore s x := by
  have hP := fun T => firstPrev (T := T) (x := x) (q := fun _ => true) h.pos
  have hG := fun T => firstPrev' (T := T) (x := x) (l := s.markers) (q := fun x => decide (x.name = some c!"group"))
    fun m hm hq => hg m hm (by simpa using hq)
  simp only [decide_eq_true_eq, true_and] at hP hG
  unfold touchesBefore neighborBefore HasBefore
  have key : (∃ p, (ClosestBefore s.live x p ∨ ClosestBefore s.markers x p ∧ p.name = some c!"group") ∧ OnlySeps s.input p.stop x.start) ↔
      (∃ p, firstTrue (previous s.live x fun _ => true) = some p ∧ OnlySeps s.input p.stop x.start) ∨
      ∃ p, firstTrue (previous s.markers x fun x => decide (x.name = some c!"group")) = some p ∧ OnlySeps s.input p.stop x.start := by
    rw [hP (fun k => OnlySeps s.input k x.start), hG (fun k => OnlySeps s.input k x.start)]
    constructor
    · rintro ⟨p, h1 | h1, h2⟩
      · exact Or.inl ⟨p, h1, h2⟩
      · exact Or.inr ⟨p, h1.1, h1.2, h2⟩
    · rintro (⟨p, h1, h2⟩ | ⟨p, h1, h2, h3⟩)
      · exact ⟨p, Or.inl h1, h2⟩
      · exact ⟨p, Or.inr ⟨h1, h2⟩, h3⟩
  rw [key]
  dsimp only
  generalize firstTrue (previous s.live x fun _ => true) = P
  generalize firstTrue (previous s.markers x fun x => decide (x.name = some c!"group")) = G
  cases G with
  | none => cases P <;> simp [blank_iff]
  | some g =>
    cases P with
    | none => simp [blank_iff]
    | some p =>
      simp only [Option.some.injEq, exists_eq_left']
      split
      · rename_i n hn
        split at hn
        · cases hn
          rw [blank_iff]
          constructor
          · exact Or.inr
          · rintro (hh | hh)
            · exact onlySeps_mono hh (by omega) (Nat.le_refl _)
            · exact hh
        · cases hn
          rw [blank_iff]
          constructor
          · exact Or.inl
          · rintro (hh | hh)
            · exact hh
            · exact onlySeps_mono hh (by omega) (Nat.le_refl _)
      · rename_i hn
        split at hn <;> cases hn

theorem touchesAfter_iff {s : Ms} (h : Sound s) (hg : GroupsNonEmpty s) {x : Mt} : touchesAfter s x = true ↔ HasAfter s x := by
  have hP := fun T => firstNext (input := s.input) (T := T) (x := x) (q := fun _ => true) h.pos
  have hG := fun T => firstNext' (input := s.input) (T := T) (x := x) (l := s.markers) (q := fun x => decide (x.name = some c!"group"))
    fun m hm hq => hg m hm (by simpa using hq)
  simp only [decide_eq_true_eq, true_and] at hP hG
  unfold touchesAfter neighborAfter HasAfter
  have key : (∃ p, (ClosestAfter s.live x p ∨ ClosestAfter s.markers x p ∧ p.name = some c!"group") ∧ OnlySeps s.input x.stop p.start) ↔
      (∃ p, firstTrue (nextOf s.input s.live x fun _ => true) = some p ∧ OnlySeps s.input x.stop p.start) ∨
      ∃ p, firstTrue (nextOf s.input s.markers x fun x => decide (x.name = some c!"group")) = some p ∧ OnlySeps s.input x.stop p.start := by
    rw [hP (fun k => OnlySeps s.input x.stop k), hG (fun k => OnlySeps s.input x.stop k)]
    constructor
    · rintro ⟨p, h1 | h1, h2⟩
      · exact Or.inl ⟨p, h1, h2⟩
      · exact Or.inr ⟨p, h1.1, h1.2, h2⟩
    · rintro (⟨p, h1, h2⟩ | ⟨p, h1, h2, h3⟩)
      · exact ⟨p, Or.inl h1, h2⟩
      · exact ⟨p, Or.inr ⟨h1, h2⟩, h3⟩
  rw [key]
  dsimp only
  generalize firstTrue (nextOf s.input s.live x fun _ => true) = P
  generalize firstTrue (nextOf s.input s.markers x fun x => decide (x.name = some c!"group")) = G
  cases G with
  | none => cases P <;> simp [blank_iff]
  | some g =>
    cases P with
    | none => simp [blank_iff]
    | some p =>
      simp only [Option.some.injEq, exists_eq_left']
      split
      · rename_i n hn
        split at hn
        · cases hn
          rw [blank_iff]
          constructor
          · exact Or.inr
          · rintro (hh | hh)
            · exact onlySeps_mono hh (Nat.le_refl _) (by omega)
            · exact hh
        · cases hn
          rw [blank_iff]
          constructor
          · exact Or.inl
          · rintro (hh | hh)
            · exact hh
            · exact onlySeps_mono hh (Nat.le_refl _) (by omega)
      · rename_i hn
        split at hn <;> cases hn

/-- What stands before a match, and after it, depends on its span only. -/
theorem hasBefore_span {s : Ms} {x y : Mt} (h : x.start = y.start) : HasBefore s x ↔ HasBefore s y := by
  unfold HasBefore ClosestBefore; rw [h]

theorem hasAfter_span {s : Ms} {x y : Mt} (h : x.start = y.start) (h' : x.stop = y.stop) : HasAfter s x ↔ HasAfter s y := by
  unfold HasAfter ClosestAfter; rw [h, h']

theorem untilOk_mem {ok : Mt → Bool} (hok : ∀ x y : Mt, x.start = y.start → x.stop = y.stop → ok x = ok y) :
    ∀ {l : List Mt}, l.Pairwise (fun a b => Mt.lt b a = false) → ∀ x,
      x ∈ untilOk ok l ↔ x ∈ l ∧ ∀ y ∈ l, NotAfter y x → ok y = false := by
  intro l
  induction l with
  | nil => intro _ x; simp [untilOk]
  | cons a l ih =>
    intro hs x
    rw [List.pairwise_cons] at hs
    unfold untilOk
    have ha : ∀ z ∈ a :: l, NotAfter a z := by
      intro z hz
      rw [List.mem_cons] at hz
      rcases hz with hz | hz
      · subst hz; exact Or.inr ⟨rfl, Nat.le_refl _⟩
      · have := hs.1 z hz
        simp only [Mt.lt, Bool.or_eq_false_iff, Bool.and_eq_false_iff, decide_eq_false_iff_not] at this
        unfold NotAfter; omega
    by_cases h : ok a = true
    · rw [if_pos h]
      constructor
      · intro hx; simp at hx
      · rintro ⟨hx, hy⟩
        have := hy a (by simp) (ha x hx)
        rw [h] at this; cases this
    · rw [if_neg h]
      have h' : ok a = false := by simpa using h
      rw [List.mem_cons, ih hs.2 x, List.mem_cons]
      constructor
      · rintro (rfl | ⟨h1, h2⟩)
        · refine ⟨Or.inl rfl, ?_⟩
          intro y hy hyx
          have h3 := ha y hy
          rw [hok y x (by unfold NotAfter at *; omega) (by unfold NotAfter at *; omega)]
          exact h'
        · refine ⟨Or.inr h1, ?_⟩
          intro y hy hyx
          rw [List.mem_cons] at hy
          rcases hy with hy | hy
          · rw [hy]; exact h'
          · exact h2 y hy hyx
      · rintro ⟨h1, h2⟩
        rcases h1 with h1 | h1
        · exact Or.inl h1
        · exact Or.inr ⟨h1, fun y hy hyx => h2 y (by simp [hy]) hyx⟩

theorem mem_rangeAll {s : Ms} (h : Sound s) {q : Mt → Bool} {m : Mt} : m ∈ rangeAll s q ↔ m ∈ s.live ∧ q m = true := by
  unfold rangeAll
  rw [mem_range h.pos]
  constructor
  · rintro ⟨h1, _, _, h2⟩; exact ⟨h1, h2⟩
  · rintro ⟨h1, h2⟩
    have := h.pos m h1
    have := (maxEnd_ge s.input s.live).2 m h1
    exact ⟨h1, by omega, by omega, h2⟩

theorem drops_untilOk {s : Ms} (h : Sound s) {ok : Mt → Bool} (hok : ∀ x y : Mt, x.start = y.start → x.stop = y.stop → ok x = ok y)
    (tag : Str) : Drops s (dropping s (untilOk ok (rangeAll s fun m => m.tagged tag))) fun x =>
      tag ∈ x.tags ∧ ∀ y ∈ s.live, tag ∈ y.tags → NotAfter y x → ok y = false := by
  have hs : (rangeAll s fun m => m.tagged tag).Pairwise (fun a b => Mt.lt b a = false) :=
    (sortBy_sorted Mt.lt_strictWeak s.live).sublist (List.filter_sublist)
  have hm := untilOk_mem hok hs
  refine drops_mem h (fun m hx => ((mem_rangeAll h).1 ((hm m).1 hx).1).1) fun x hx => ?_
  rw [hm x, mem_rangeAll h, tagged_iff]
  constructor
  · rintro ⟨⟨_, h2⟩, h3⟩
    exact ⟨h2, fun y hy ht hn => h3 y ((mem_rangeAll h).2 ⟨hy, tagged_iff.2 ht⟩) hn⟩
  · rintro ⟨h2, h3⟩
    refine ⟨⟨hx, h2⟩, fun y hy hn => ?_⟩
    have := (mem_rangeAll h).1 hy
    exact h3 y this.1 (tagged_iff.1 this.2) hn

/-- C63 (`ValidateHasNeighbor`): exactly these words are dropped: those that need a neighbour, have none, and come before
every such word that has one. -/
theorem C63_has_neighbor {s : Ms} (h : Sound s) (hg : GroupsNonEmpty s) : Drops s (hasNeighbor s) fun x =>
    c!"has-neighbor" ∈ x.tags ∧
      ∀ y ∈ s.live, c!"has-neighbor" ∈ y.tags → NotAfter y x → ¬ HasBefore s y ∧ ¬ HasAfter s y := by
  have hb : ∀ m, (touchesBefore s m || touchesAfter s m) = false ↔ ¬ HasBefore s m ∧ ¬ HasAfter s m := by
    intro m
    rw [Bool.or_eq_false_iff, ← touchesBefore_iff h hg, ← touchesAfter_iff h hg]
    simp
  have := drops_untilOk h (ok := fun m => touchesBefore s m || touchesAfter s m) (by
    intro x y h1 h2
    rw [Bool.eq_iff_iff, Bool.or_eq_true, Bool.or_eq_true, touchesBefore_iff h hg, touchesBefore_iff h hg, touchesAfter_iff h hg,
      touchesAfter_iff h hg, hasBefore_span h1, hasAfter_span h1 h2]) c!"has-neighbor"
  simp only [hb] at this
  exact this

/-- C63 (`ValidateHasNeighborBefore`): what counts is what comes after the word. -/
theorem C63_has_neighbor_before {s : Ms} (h : Sound s) (hg : GroupsNonEmpty s) : Drops s (hasNeighborBefore s) fun x =>
    c!"has-neighbor-before" ∈ x.tags ∧ ∀ y ∈ s.live, c!"has-neighbor-before" ∈ y.tags → NotAfter y x → ¬ HasAfter s y := by
  have hb : ∀ m, touchesAfter s m = false ↔ ¬ HasAfter s m := by
    intro m; rw [← touchesAfter_iff h hg]; simp
  have := drops_untilOk h (ok := touchesAfter s) (by
    intro x y h1 h2
    rw [Bool.eq_iff_iff, touchesAfter_iff h hg, touchesAfter_iff h hg, hasAfter_span h1 h2]) c!"has-neighbor-before"
  simp only [hb] at this
  exact this

/-- C63 (`ValidateHasNeighborAfter`): what counts is what comes before the word. -/
theorem C63_has_neighbor_after {s : Ms} (h : Sound s) (hg : GroupsNonEmpty s) : Drops s (hasNeighborAfter s) fun x =>
    c!"has-neighbor-after" ∈ x.tags ∧ ∀ y ∈ s.live, c!"has-neighbor-after" ∈ y.tags → NotAfter y x → ¬ HasBefore s y := by
  have hb : ∀ m, touchesBefore s m = false ↔ ¬ HasBefore s m := by
    intro m; rw [← touchesBefore_iff h hg]; simp
  have := drops_untilOk h (ok := touchesBefore s) (by
    intro x y h1 h2
    rw [Bool.eq_iff_iff, touchesBefore_iff h hg, touchesBefore_iff h hg, hasBefore_span h1]) c!"has-neighbor-after"
  simp only [hb] at this
  exact this

/-! A state in which a "has-neighbor" word is alone: `foo FR bar XX 2010`, with FR alone and XX next to 2010. -/

def wordMt (id a b : Nat) (tags : List Str) (name : Str := c!"other") : Mt := { id, start := a, stop := b, name := some name, tags }

def aloneState : Ms where
  input := c!"foo HQ bar HR 2010"
  live := [wordMt 1 4 6 [c!"has-neighbor"], wordMt 2 11 13 [c!"has-neighbor"], wordMt 3 14 18 [] c!"year"]
  markers := []

def aloneAfter : Ms where
  input := c!"2010 HQ foo HR bar"
  live := [wordMt 3 0 4 [] c!"year", wordMt 1 5 7 [c!"has-neighbor"], wordMt 2 12 14 [c!"has-neighbor"]]
  markers := []

theorem sound_of {s : Ms} (h1 : ∀ m ∈ s.live, m.start < m.stop ∧ m.stop ≤ s.input.length)
    (h2 : (s.live.map fun m => (m.start, m.stop)).Nodup) : Sound s where
  wf := h1
  distinct := by
    have : (s.live.map (Mt.key s.input)).map (fun k => (k.start, k.stop)) = s.live.map fun m => (m.start, m.stop) := by
      rw [List.map_map]; rfl
    rw [← this] at h2
    exact List.Nodup.of_map _ h2

example : Sound aloneState ∧ GroupsNonEmpty aloneState ∧ (hasNeighbor aloneState).live.map Mt.id = [2, 3] :=
  ⟨sound_of (by decide) (by decide), fun _ hg => (List.not_mem_nil hg).elim, by decide⟩

/-- C63: a word that needs a neighbour and has none is kept when such a word before it has one: the loop stops there. -/
theorem C63_counterexample_isolated : ∃ (s : Ms) (x : Mt), Sound s ∧ GroupsNonEmpty s ∧ x ∈ (hasNeighbor s).live ∧
    c!"has-neighbor" ∈ x.tags ∧ ¬ HasBefore s x ∧ ¬ HasAfter s x := by
  have h1 : Sound aloneAfter := sound_of (by decide) (by decide)
  have h2 : GroupsNonEmpty aloneAfter := by intro g hg; cases hg
  refine ⟨aloneAfter, wordMt 2 12 14 [c!"has-neighbor"], h1, h2, ?_, by decide, ?_, ?_⟩
  · show _ ∈ [_, _, _]
    exact List.mem_cons_of_mem _ (List.mem_cons_of_mem _ List.mem_cons_self)
  · rw [← touchesBefore_iff h1 h2]; decide
  · rw [← touchesAfter_iff h1 h2]; decide

/-! ### C64: the rules of other.py -/

/-- C64 (`ValidateScreenerRule`): a "screener" stays iff a source comes just before it, up to separators. -/
theorem C64_screener {s : Ms} (h : Sound s) : Drops s (validateScreener s) fun x =>
    x.name = some c!"other" ∧ c!"other.validate.screener" ∈ x.tags ∧
      ¬ ∃ p, ClosestBefore s.live x p ∧ p.iname = some c!"source" ∧ OnlySeps s.input p.stop x.start := by
  refine drops_named h _ _ fun x hx => ?_
  have hP := firstPrev (T := fun k => OnlySeps s.input k x.start) (x := x) (q := fun y => decide (y.iname = some c!"source")) h.pos
  simp only [decide_eq_true_eq] at hP
  rw [Bool.and_eq_true, tagged_iff, ← hP]
  refine and_congr Iff.rfl (and_congr Iff.rfl ?_)
  cases hF : firstTrue (previous s.live x fun y => decide (y.iname = some c!"source")) with
  | none => simp
  | some p => simp [← blank_iff]

/-- C64 (`ValidateMuxRule`): a "mux" stays iff a source comes before it, whatever the text between them. -/
theorem C64_mux {s : Ms} (h : Sound s) : Drops s (validateMux s) fun x =>
    x.name = some c!"other" ∧ c!"other.validate.mux" ∈ x.tags ∧
      ¬ ∃ p, ClosestBefore s.live x p ∧ p.iname = some c!"source" := by
  refine drops_named h _ _ fun x hx => ?_
  rw [Bool.and_eq_true, tagged_iff, firstPrev_none h.pos]
  simp only [decide_eq_true_eq]

/-- C64 (`ValidateHardcodedSubs`): hardcoded subtitles stay iff a subtitle language comes just before or just after, with
no unmatched text between. -/
theorem C64_hardcoded {s : Ms} (h : Sound s) : Drops s (validateHardcodedSubs s) fun x =>
    x.name = some c!"other" ∧ x.value s.input = .str c!"Hardcoded Subtitles" ∧
      (¬ ∃ n, ClosestAfter s.live x n ∧ n.name = some c!"subtitle_language" ∧ NoText s.input s.live x.stop n.start) ∧
      ¬ ∃ p, ClosestBefore s.live x p ∧ p.name = some c!"subtitle_language" ∧ NoText s.input s.live p.stop x.start := by
  refine drops_named h _ _ fun x hx => ?_
  have hP := firstPrev (T := fun k => NoText s.input s.live k x.start) (x := x)
    (q := fun y => decide (y.name = some c!"subtitle_language")) h.pos
  have hN := firstNext (input := s.input) (T := fun k => NoText s.input s.live x.stop k) (x := x)
    (q := fun y => decide (y.name = some c!"subtitle_language")) h.pos
  simp only [decide_eq_true_eq] at hP hN
  rw [Bool.and_eq_true, Bool.and_eq_true, ← hP, ← hN, and_assoc, decide_eq_true_eq]
  refine and_congr Iff.rfl (and_congr Iff.rfl (and_congr ?_ ?_))
  · cases hF : firstTrue (nextOf s.input s.live x fun y => decide (y.name = some c!"subtitle_language")) with
    | none => simp
    | some p => simp [← hasText_iff]
  · cases hF : firstTrue (previous s.live x fun y => decide (y.name = some c!"subtitle_language")) with
    | none => simp
    | some p => simp [← hasText_iff]

/-- C64 (`ValidateAtEnd`): a word for the end of a path part stays iff, in every path part it meets, nothing follows it but
separators, other such words and the container. -/
theorem C64_at_end {s : Ms} (h : Sound s) : Drops s (validateAtEnd s) fun x =>
    x.name = some c!"other" ∧ c!"at-end" ∈ x.tags ∧ ∃ part ∈ s.markers, part.name = some c!"path" ∧ Overlaps part x ∧
      (¬ NoText s.input s.live x.stop part.stop ∨
        ∃ m ∈ s.live, m.start < part.stop ∧ x.stop < m.stop ∧ ¬ NamedIn m [c!"other", c!"container"]) := by
  have key : ∀ part x, (hasText s.input s.live x part || !(rangeOf s.input s.live x part fun m => !m.isOneOf [c!"other", c!"container"]).isEmpty)
      = true ↔ (¬ NoText s.input s.live x part ∨
        ∃ m ∈ s.live, m.start < part ∧ x < m.stop ∧ ¬ NamedIn m [c!"other", c!"container"]) := by
    intro part x
    rw [Bool.or_eq_true, hasText_iff']
    refine or_congr Iff.rfl ?_
    rw [Bool.not_eq_true', ← Bool.not_eq_true, range_empty h.pos, not_not]
    simp only [Bool.not_eq_true', ← isOneOf_iff, Bool.not_eq_true]
  refine drops_mem h ?_ fun x hx => ?_
  · intro m hm
    obtain ⟨part, _, hm⟩ := List.mem_flatMap.1 hm
    exact ((mem_range h.pos).1 (List.mem_filter.1 hm).1).1
  · rw [List.mem_flatMap]
    simp only [List.mem_filter, mem_range h.pos, mem_named, Bool.and_eq_true, decide_eq_true_eq, tagged_iff, key]
    constructor
    · rintro ⟨part, ⟨h1, h2⟩, ⟨_, h3, h4, h5, h6⟩, h7⟩
      exact ⟨h5, h6, part, h1, h2, ⟨h3, h4⟩, h7⟩
    · rintro ⟨h5, h6, part, h1, h2, ⟨h3, h4⟩, h7⟩
      exact ⟨part, ⟨h1, h2⟩, ⟨hx, h3, h4, h5, h6⟩, h7⟩

/-- C64 (`ValidateReal`): "real" is dropped iff it is the first match of a path part. -/
theorem C64_real {s : Ms} (h : Sound s) : Drops s (validateReal s) fun x =>
    x.name = some c!"other" ∧ c!"real" ∈ x.tags ∧ ∃ part ∈ s.markers, part.name = some c!"path" ∧ Overlaps part x ∧
      ¬ ∃ m ∈ s.live, m.start < x.start ∧ part.start < m.stop := by
  refine drops_mem h ?_ fun x hx => ?_
  · intro m hm
    obtain ⟨part, _, hm⟩ := List.mem_flatMap.1 hm
    exact ((mem_range h.pos).1 (List.mem_filter.1 hm).1).1
  · rw [List.mem_flatMap]
    simp only [List.mem_filter, mem_range h.pos, mem_named, Bool.and_eq_true, decide_eq_true_eq, tagged_iff, range_empty h.pos, and_true]
    constructor
    · rintro ⟨part, ⟨h1, h2⟩, ⟨_, h3, h4, h5, h6⟩, h7⟩
      exact ⟨h5, h6, part, h1, h2, ⟨h3, h4⟩, h7⟩
    · rintro ⟨h5, h6, part, h1, h2, ⟨h3, h4⟩, h7⟩
      exact ⟨part, ⟨h1, h2⟩, ⟨hx, h3, h4, h5, h6⟩, h7⟩

def otherState : Ms where
  input := c!"DVD.SCR foo MUX HC French REAL LD x Proper"
  live := [wordMt 1 0 3 [] c!"source", wordMt 2 4 7 [c!"other.validate.screener"], wordMt 3 12 15 [c!"other.validate.mux"],
    { wordMt 4 16 18 [] with val := some (.str c!"Hardcoded Subtitles") }, wordMt 5 19 25 [] c!"subtitle_language",
    wordMt 6 26 30 [c!"real"], wordMt 7 31 33 [c!"at-end"], wordMt 8 36 42 [c!"at-end"]]
  markers := [wordMt 9 0 42 [] c!"path"]

example : Sound otherState ∧ (validateScreener otherState).live.map Mt.id = [1, 2, 3, 4, 5, 6, 7, 8] ∧
    (validateMux otherState).live.map Mt.id = [1, 2, 4, 5, 6, 7, 8] ∧
    (validateHardcodedSubs otherState).live.map Mt.id = [1, 2, 3, 4, 5, 6, 7, 8] ∧
    (validateAtEnd otherState).live.map Mt.id = [1, 2, 3, 4, 5, 6, 8] ∧
    (validateReal otherState).live.map Mt.id = [1, 2, 3, 4, 5, 6, 7, 8] :=
  ⟨sound_of (by decide) (by decide), by decide, by decide, by decide +kernel, by decide +kernel, by decide⟩

def otherState' : Ms where
  input := c!"REAL foo SCR HC bar French"
  live := [wordMt 1 0 4 [c!"real"], wordMt 2 9 12 [c!"other.validate.screener"],
    { wordMt 4 13 15 [] with val := some (.str c!"Hardcoded Subtitles") }, wordMt 5 20 26 [] c!"subtitle_language"]
  markers := [wordMt 9 0 26 [] c!"path"]

example : Sound otherState' ∧ (validateScreener otherState').live.map Mt.id = [1, 4, 5] ∧
    (validateHardcodedSubs otherState').live.map Mt.id = [1, 2, 5] ∧ (validateReal otherState').live.map Mt.id = [2, 4, 5] :=
  ⟨sound_of (by decide) (by decide), by decide, by decide +kernel, by decide⟩

/-! ### C65: video codec and profile -/

theorem at_empty {l : List Mt} {i : Nat} {q : Mt → Bool} :
    ((atIndex l i).filter q).isEmpty = true ↔ ¬ ∃ p ∈ l, (p.start ≤ i ∧ i < p.stop) ∧ q p = true := by
  rw [List.isEmpty_iff, List.eq_nil_iff_forall_not_mem]
  simp only [atIndex, List.mem_filter, Bool.and_eq_true, decide_eq_true_eq, not_exists]
  constructor
  · intro h m ⟨h1, h2, h3⟩; exact h m ⟨⟨h1, h2⟩, h3⟩
  · intro h m ⟨⟨h1, h2⟩, h3⟩; exact h m ⟨h1, h2, h3⟩

/-- C65 (`ValidateVideoCodec`): a codec is dropped iff it is glued to a character before it that belongs to no match
announcing a codec, or glued to a character after it while no codec suffix covers the character *after that one*. -/
theorem C65_video_codec {s : Ms} (h : Sound s) : Drops s (validateVideoCodec s) fun x =>
    x.name = some c!"video_codec" ∧
      ((¬ SepBefore s.input x ∧ ¬ ∃ p ∈ s.live, (p.start ≤ x.start - 1 ∧ x.start - 1 < p.stop) ∧ c!"video-codec-prefix" ∈ p.tags) ∨
       (¬ SepAfter s.input x ∧ ¬ ∃ n ∈ s.live, (n.start ≤ x.stop + 1 ∧ x.stop + 1 < n.stop) ∧ c!"video-codec-suffix" ∈ n.tags)) := by
  refine drops_named h _ _ fun x hx => ?_
  refine and_congr Iff.rfl ?_
  simp only [Bool.or_eq_true, Bool.and_eq_true, Bool.not_eq_true', ← Bool.not_eq_true, sepsBefore_iff, sepsAfter_iff, at_empty, tagged_iff]

/-- Matches added unless an equal one is there. -/
theorem foldl_distinct (input : Str) : ∀ (ms acc : List Mt),
    (∀ z, z ∈ ms.foldl (fun acc m => if acc.any (Mt.eqv input m) then acc else acc ++ [m]) acc → z ∈ acc ∨ z ∈ ms) ∧
    (∀ z, z ∈ acc → z ∈ ms.foldl (fun acc m => if acc.any (Mt.eqv input m) then acc else acc ++ [m]) acc) ∧
    (∀ z, z ∈ ms → ∃ y ∈ ms.foldl (fun acc m => if acc.any (Mt.eqv input m) then acc else acc ++ [m]) acc,
      y.key input = z.key input) := by
  intro ms
  induction ms with
  | nil => intro acc; simp
  | cons m ms ih =>
    intro acc
    rw [List.foldl_cons]
    by_cases hm : acc.any (Mt.eqv input m) = true
    · rw [if_pos hm]
      obtain ⟨i1, i2, i3⟩ := ih acc
      refine ⟨fun z hz => (i1 z hz).imp id (List.mem_cons_of_mem _), i2, ?_⟩
      intro z hz
      rw [List.mem_cons] at hz
      rcases hz with hz | hz
      · obtain ⟨y, hy, he⟩ := List.any_eq_true.1 hm
        exact ⟨y, i2 y hy, by rw [hz]; exact (eqv_iff.1 he).symm⟩
      · exact i3 z hz
    · rw [if_neg hm]
      obtain ⟨i1, i2, i3⟩ := ih (acc ++ [m])
      refine ⟨?_, fun z hz => i2 z (by simp [hz]), ?_⟩
      · intro z hz
        rcases i1 z hz with hz | hz
        · rw [List.mem_append, List.mem_singleton] at hz
          rcases hz with hz | hz
          · exact Or.inl hz
          · exact Or.inr (by simp [hz])
        · exact Or.inr (by simp [hz])
      · intro z hz
        rw [List.mem_cons] at hz
        rcases hz with hz | hz
        · exact ⟨m, i2 m (by simp), by rw [hz]⟩
        · exact i3 z hz

theorem mem_atSpan {input : Str} {l : List Mt} {a b : Nat} {x : Mt} :
    (x ∈ atSpan input l a b → x ∈ l ∧ ((x.start ≤ a ∧ a < x.stop) ∨ (0 < b ∧ x.start ≤ b - 1 ∧ b - 1 < x.stop))) ∧
    (x ∈ l → ((x.start ≤ a ∧ a < x.stop) ∨ (0 < b ∧ x.start ≤ b - 1 ∧ b - 1 < x.stop)) →
      ∃ y ∈ atSpan input l a b, y.key input = x.key input) := by
  unfold atSpan
  dsimp only
  obtain ⟨g1, g2, g3⟩ := foldl_distinct input (if b = 0 then [] else atIndex l (b - 1)) (atIndex l a)
  constructor
  · intro hx
    rcases g1 x hx with hx | hx
    · simp only [atIndex, List.mem_filter, Bool.and_eq_true, decide_eq_true_eq] at hx
      exact ⟨hx.1, Or.inl hx.2⟩
    · split at hx
      · simp at hx
      · simp only [atIndex, List.mem_filter, Bool.and_eq_true, decide_eq_true_eq] at hx
        exact ⟨hx.1, Or.inr ⟨by omega, hx.2⟩⟩
  · intro hx hc
    rcases hc with hc | hc
    · exact ⟨x, g2 x (by simp [atIndex, hx, hc]), rfl⟩
    · refine g3 x ?_
      rw [if_neg (by omega)]
      simp [atIndex, hx, hc]

theorem atSpan_none {s : Ms} (h : Sound s) {x : Mt} {q : Mt → Bool} :
    (firstTrue ((atSpan s.input s.live x.start x.stop).filter q)).isNone = true ↔ ¬ ∃ p ∈ s.live, AtEnds x p ∧ q p = true := by
  have hs : ∀ p, p ∈ atSpan s.input s.live x.start x.stop ↔ p ∈ s.live ∧ AtEnds x p := by
    intro p
    constructor
    · exact mem_atSpan.1
    · rintro ⟨h1, h2⟩
      obtain ⟨y, hy, hk⟩ := mem_atSpan.2 h1 h2
      rwa [key_inj h h1 (mem_atSpan.1 hy).1 hk] at hy
  rw [Option.isNone_iff_eq_none, firstTrue_none]
  · simp only [List.mem_filter, hs, not_exists]
    constructor
    · intro h m ⟨h1, h2, h3⟩; exact h m ⟨⟨h1, h2⟩, h3⟩
    · intro h m ⟨⟨h1, h2⟩, h3⟩; exact h m ⟨h1, h2, h3⟩
  · intro m hm
    exact h.pos m ((hs m).1 (List.mem_filter.1 hm).1).1

/-- C65 (`VideoProfileRule`): a profile stays iff a codec shares its first or last character, or is the nearest match before
or after. -/
theorem C65_video_profile {s : Ms} (h : Sound s) : Drops s (videoProfile s) fun x =>
    x.name = some c!"video_profile" ∧ c!"video_profile.rule" ∈ x.tags ∧
      ¬ ∃ p ∈ s.live, p.name = some c!"video_codec" ∧ (AtEnds x p ∨ ClosestBefore s.live x p ∨ ClosestAfter s.live x p) := by
  refine drops_named h _ _ fun x hx => ?_
  rw [Bool.and_eq_true, Bool.and_eq_true, Bool.and_eq_true, tagged_iff, atSpan_none h, prev_empty, next_empty h.pos]
  simp only [decide_eq_true_eq]
  refine and_congr Iff.rfl ?_
  rw [and_assoc, and_assoc]
  refine and_congr Iff.rfl ?_
  constructor
  · rintro ⟨h1, h2, h3⟩ ⟨p, hp, hn, hc | hc | hc⟩
    · exact h1 ⟨p, hp, hc, hn⟩
    · exact h2 ⟨p, hc, hn⟩
    · exact h3 ⟨p, hc, hn⟩
  · intro hh
    refine ⟨?_, ?_, ?_⟩
    · rintro ⟨p, hp, hc, hn⟩; exact hh ⟨p, hp, hn, Or.inl hc⟩
    · rintro ⟨p, hc, hn⟩; exact hh ⟨p, hc.1, hn, Or.inr (Or.inl hc)⟩
    · rintro ⟨p, hc, hn⟩; exact hh ⟨p, hc.1, hn, Or.inr (Or.inr hc)⟩

def codecState : Ms where
  input := c!"MuxXviD foo x264 High divxQhp H264p"
  live := [wordMt 1 0 3 [c!"video-codec-prefix"], wordMt 2 3 7 [] c!"video_codec", wordMt 3 12 16 [] c!"video_codec",
    wordMt 4 17 21 [c!"video_profile.rule"] c!"video_profile", wordMt 5 22 26 [] c!"video_codec",
    wordMt 6 27 29 [c!"video-codec-suffix"], wordMt 7 30 34 [] c!"video_codec", wordMt 8 34 35 [c!"video-codec-suffix"]]
  markers := []

example : Sound codecState ∧ (validateVideoCodec codecState).live.map Mt.id = [1, 2, 3, 4, 5, 6, 8] ∧
    (videoProfile codecState).live.map Mt.id = [1, 2, 3, 4, 5, 6, 7, 8] ∧
    (videoProfile { codecState with live := codecState.live.filter fun m => m.id = 4 || m.id = 1 }).live.map Mt.id = [1] :=
  ⟨sound_of (by decide) (by decide), by decide, by decide, by decide⟩

/-- C65: the test is off by one.  A codec glued to a letter is kept when the suffix comes one character later, and a codec
followed at once by a suffix of one character is dropped. -/
theorem C65_counterexample_offset : ∃ (s : Ms) (x y n : Mt), Sound s ∧ x ∈ s.live ∧ y ∈ s.live ∧ n ∈ s.live ∧
    (x.name = some c!"video_codec" ∧ ¬ SepAfter s.input x ∧ (∀ m ∈ s.live, ¬ (m.start ≤ x.stop ∧ x.stop < m.stop)) ∧
      x ∈ (validateVideoCodec s).live) ∧
    (y.name = some c!"video_codec" ∧ SepBefore s.input y ∧ n.start = y.stop ∧ c!"video-codec-suffix" ∈ n.tags ∧
      y ∉ (validateVideoCodec s).live) := by
  have h1 : Sound codecState := sound_of (by decide) (by decide)
  refine ⟨codecState, wordMt 5 22 26 [] c!"video_codec", wordMt 7 30 34 [] c!"video_codec", wordMt 8 34 35 [c!"video-codec-suffix"], h1,
    ?_, ?_, ?_, ⟨rfl, ?_, by decide, ?_⟩, rfl, ?_, rfl, by decide, ?_⟩
  · simp [codecState]
  · simp [codecState]
  · simp [codecState]
  · rw [← sepsAfter_iff]; decide
  · show _ ∈ [_, _, _, _, _, _, _]
    simp
  · rw [← sepsBefore_iff]; decide
  · intro hm
    have := List.mem_map_of_mem (f := Mt.id) hm
    revert this
    decide

/-! ### C66: audio -/

/-- C66 (`AudioValidatorRule`): an audio property stays iff on each side it is free or glued to another audio property. -/
theorem C66_audio {s : Ms} (h : Sound s) : Drops s (audioValidator s) fun x =>
    NamedIn x [c!"audio_codec", c!"audio_profile", c!"audio_channels"] ∧
    ¬ ((SepBefore s.input x ∨ ∃ p ∈ s.live, NamedIn p [c!"audio_codec", c!"audio_profile", c!"audio_channels"] ∧
          p.start < x.start ∧ x.start ≤ p.stop) ∧
       (SepAfter s.input x ∨ ∃ n ∈ s.live, NamedIn n [c!"audio_codec", c!"audio_profile", c!"audio_channels"] ∧
          n.start ≤ x.stop ∧ x.stop < n.stop)) := by
  refine drops_mem h (fun m hm => ((mem_rangeAll h).1 (List.mem_filter.1 hm).1).1) fun x hx => ?_
  rw [List.mem_filter, mem_rangeAll h, isOneOf_iff, and_assoc]
  simp only [hx, true_and]
  refine and_congr Iff.rfl ?_
  simp only [Bool.or_eq_true, Bool.and_eq_true, Bool.not_eq_true', ← Bool.not_eq_true, sepsBefore_iff, sepsAfter_iff, range_empty h.pos,
    isOneOf_iff]
  have e1 : SepBefore s.input x ∨ ((∃ p ∈ s.live, p.start < x.start ∧ x.start - 1 < p.stop ∧ NamedIn p audioProperties) ↔
      ∃ p ∈ s.live, NamedIn p [c!"audio_codec", c!"audio_profile", c!"audio_channels"] ∧ p.start < x.start ∧ x.start ≤ p.stop) := by
    by_cases h0 : x.start = 0
    · exact Or.inl (Or.inl h0)
    · right
      constructor
      · rintro ⟨p, h1, h2, h3, h4⟩; exact ⟨p, h1, h4, h2, by omega⟩
      · rintro ⟨p, h1, h4, h2, h3⟩; exact ⟨p, h1, h2, by omega, h4⟩
  have e2 : (∃ p ∈ s.live, p.start < x.stop + 1 ∧ x.stop < p.stop ∧ NamedIn p audioProperties) ↔
      ∃ p ∈ s.live, NamedIn p [c!"audio_codec", c!"audio_profile", c!"audio_channels"] ∧ p.start ≤ x.stop ∧ x.stop < p.stop := by
    constructor
    · rintro ⟨p, h1, h2, h3, h4⟩; exact ⟨p, h1, h4, by omega, h3⟩
    · rintro ⟨p, h1, h4, h2, h3⟩; exact ⟨p, h1, by omega, h3, h4⟩
  rw [e2]
  rcases e1 with e1 | e1
  · simp only [e1, not_true, false_and, true_or, true_and, false_or, not_or]
  · rw [e1, not_and_or, not_or, not_or]

/-- C66 (`AudioChannelsValidatorRule`): weak audio channels stay iff an audio codec covers or ends at the character before. -/
theorem C66_channels {s : Ms} (h : Sound s) : Drops s (audioChannelsValidator s) fun x =>
    c!"weak-audio_channels" ∈ x.tags ∧ ¬ ∃ p ∈ s.live, p.name = some c!"audio_codec" ∧ p.start < x.start ∧ x.start ≤ p.stop := by
  unfold audioChannelsValidator
  rw [List.filter_filter]
  refine drops_filter h _ fun x hx => ?_
  simp only [Bool.and_eq_true, range_empty h.pos, tagged_iff, decide_eq_true_eq]
  rw [and_comm]
  refine and_congr Iff.rfl (not_congr ?_)
  constructor
  · rintro ⟨p, h1, h2, h3, h4⟩; exact ⟨p, h1, h4, h2, by omega⟩
  · rintro ⟨p, h1, h4, h2, h3⟩; exact ⟨p, h1, h2, by omega, h4⟩

/-- C66 (`HqConflictRule`): an `other` is dropped iff "High Quality" as an audio profile has the same span. -/
theorem C66_hq {s : Ms} (h : Sound s) : Drops s (hqConflict s) fun x =>
    x.name = some c!"other" ∧ ∃ a ∈ s.live, a.name = some c!"audio_profile" ∧ a.value s.input = .str c!"High Quality" ∧
      a.start = x.start ∧ a.stop = x.stop := by
  refine drops_named h _ _ fun x hx => ?_
  refine and_congr Iff.rfl ?_
  simp only [List.any_eq_true, List.mem_filter, mem_named, Bool.and_eq_true, decide_eq_true_eq]
  constructor
  · rintro ⟨a, ⟨⟨h1, h2⟩, h3⟩, h4, h5⟩; exact ⟨a, h1, h2, h3, h4, h5⟩
  · rintro ⟨a, h1, h2, h3, h4, h5⟩; exact ⟨a, ⟨⟨h1, h2⟩, h3⟩, h4, h5⟩

theorem foldl_nodup (input : Str) : ∀ (ms acc : List Mt), (acc.map (Mt.key input)).Nodup →
    ((ms.foldl (fun acc m => if acc.any (Mt.eqv input m) then acc else acc ++ [m]) acc).map (Mt.key input)).Nodup := by
  intro ms
  induction ms with
  | nil => intro acc h; exact h
  | cons m ms ih =>
    intro acc h
    rw [List.foldl_cons]
    by_cases hm : acc.any (Mt.eqv input m) = true
    · rw [if_pos hm]; exact ih acc h
    · rw [if_neg hm]
      apply ih
      rw [List.map_append, List.nodup_append]
      refine ⟨h, by simp, ?_⟩
      intro a ha b hb hab
      simp only [List.map_cons, List.map_nil, List.mem_singleton] at hb
      obtain ⟨z, hz, rfl⟩ := List.mem_map.1 ha
      exact hm (List.any_eq_true.2 ⟨z, hz, eqv_iff.2 (by rw [hab, hb])⟩)

theorem mem_conflicting {s : Ms} (h : Sound s) {x m : Mt} (hm : m ∈ s.live) :
    x ∈ conflicting s.input s.live m ↔ x ∈ s.live ∧ x ≠ m ∧ Overlaps m x := by
  unfold conflicting
  dsimp only
  generalize hf : ((List.range (m.stop - m.start)).flatMap fun k => atIndex s.live (m.start + k)) = found
  have hfound : ∀ z, z ∈ found ↔ z ∈ s.live ∧ Overlaps m z := by
    intro z
    rw [← hf, List.mem_flatMap]
    simp only [List.mem_range, atIndex, List.mem_filter, Bool.and_eq_true, decide_eq_true_eq]
    constructor
    · rintro ⟨k, hk, h1, h2, h3⟩
      exact ⟨h1, by unfold Overlaps; omega⟩
    · rintro ⟨h1, h2⟩
      unfold Overlaps at h2
      have := h.pos z h1
      have := h.pos m hm
      refine ⟨max m.start z.start - m.start, by omega, h1, by omega, by omega⟩
  obtain ⟨g1, _, g3⟩ := foldl_distinct s.input found []
  have gn := foldl_nodup s.input found [] (by simp)
  generalize found.foldl (fun acc m => if acc.any (Mt.eqv s.input m) then acc else acc ++ [m]) [] = r at g1 g3 gn
  have hr : ∀ z, z ∈ r ↔ z ∈ s.live ∧ Overlaps m z := by
    intro z
    rw [← hfound]
    constructor
    · intro hz
      rcases g1 z hz with h1 | h1
      · simp at h1
      · exact h1
    · intro hz
      obtain ⟨y, hy, hk⟩ := g3 z hz
      have hy' : y ∈ found := by
        rcases g1 y hy with h1 | h1
        · simp at h1
        · exact h1
      rwa [key_inj h ((hfound z).1 hz).1 ((hfound y).1 hy').1 hk] at hy
  have := mem_removeAll_nodup (ms := [m]) gn (x := x)
  change x ∈ removeMatch s.input r m ↔ _ at this
  rw [this, hr]
  simp only [List.mem_singleton, forall_eq]
  constructor
  · rintro ⟨⟨h1, h2⟩, h3⟩
    exact ⟨h1, fun hc => h3 (by rw [hc]), h2⟩
  · rintro ⟨h1, h2, h3⟩
    exact ⟨⟨h1, h3⟩, fun hc => h2 (key_inj h hm h1 hc.symm)⟩

/-- The profile is next to the audio codec it needs. -/
def Spec.NextToCodec (s : Ms) (codec : Str) (x : Mt) : Prop :=
  ∃ p ∈ s.live, p.name = some c!"audio_codec" ∧ p.value s.input = .str codec ∧
    (AtEnds x p ∨ ClosestBefore s.live x p ∨ ClosestAfter s.live x p)

/-- `x` is a profile of `codec`. -/
def Spec.ProfileOf (codec : Str) (x : Mt) : Prop :=
  x.name = some c!"audio_profile" ∧ c!"audio_profile.rule" ∈ x.tags ∧ codec ∈ x.tags

/-- C66 (`AudioProfileRule`): a profile not next to its codec is dropped; for a profile next to its codec, everything else
that overlaps it is dropped. -/
theorem C66_profile {s : Ms} (h : Sound s) (codec : Str) : Drops s (audioProfile codec s) fun x =>
    (ProfileOf codec x ∧ ¬ NextToCodec s codec x) ∨
    ∃ m ∈ s.live, ProfileOf codec m ∧ NextToCodec s codec m ∧ x ≠ m ∧ Overlaps m x := by
  unfold audioProfile
  dsimp only
  have hP : ∀ m, m ∈ ((named s.live c!"audio_profile").filter fun m => m.tagged c!"audio_profile.rule" && m.tagged codec) ↔
      m ∈ s.live ∧ ProfileOf codec m := by
    intro m
    simp only [List.mem_filter, mem_named, Bool.and_eq_true, tagged_iff, ProfileOf, and_assoc]
  generalize hq : (fun x : Mt => decide (x.name = some c!"audio_codec") && decide (x.value s.input = .str codec)) = q
  have hC : ∀ m, ((firstTrue ((atSpan s.input s.live m.start m.stop).filter q)).isNone && (previous s.live m q).isEmpty &&
      (nextOf s.input s.live m q).isEmpty) = true ↔ ¬ NextToCodec s codec m := by
    intro m
    rw [Bool.and_eq_true, Bool.and_eq_true, atSpan_none h, prev_empty, next_empty h.pos, ← hq]
    simp only [Bool.and_eq_true, decide_eq_true_eq]
    constructor
    · rintro ⟨⟨h1, h2⟩, h3⟩ ⟨p, hp, hn, hv, hc | hc | hc⟩
      · exact h1 ⟨p, hp, hc, hn, hv⟩
      · exact h2 ⟨p, hc, hn, hv⟩
      · exact h3 ⟨p, hc, hn, hv⟩
    · intro hh
      refine ⟨⟨?_, ?_⟩, ?_⟩
      · rintro ⟨p, hp, hc, hn, hv⟩; exact hh ⟨p, hp, hn, hv, Or.inl hc⟩
      · rintro ⟨p, hc, hn, hv⟩; exact hh ⟨p, hc.1, hn, hv, Or.inr (Or.inl hc)⟩
      · rintro ⟨p, hc, hn, hv⟩; exact hh ⟨p, hc.1, hn, hv, Or.inr (Or.inr hc)⟩
  refine drops_mem h ?_ fun x hx => ?_
  · intro m hm
    obtain ⟨p, hp, hm⟩ := List.mem_flatMap.1 hm
    split at hm
    · rw [List.mem_singleton] at hm; rw [hm]; exact ((hP p).1 hp).1
    · exact ((mem_conflicting h ((hP p).1 hp).1).1 hm).1
  · rw [List.mem_flatMap]
    constructor
    · rintro ⟨m, hm, hxm⟩
      obtain ⟨h1, h2⟩ := (hP m).1 hm
      split at hxm
      · rename_i hc
        rw [List.mem_singleton] at hxm; subst hxm
        exact Or.inl ⟨h2, (hC x).1 hc⟩
      · rename_i hc
        obtain ⟨_, h3, h4⟩ := (mem_conflicting h h1).1 hxm
        exact Or.inr ⟨m, h1, h2, not_not.1 (fun hh => hc ((hC m).2 hh)), h3, h4⟩
    · rintro (⟨h1, h2⟩ | ⟨m, h1, h2, h3, h4, h5⟩)
      · exact ⟨x, (hP x).2 ⟨hx, h1⟩, by rw [if_pos ((hC x).2 h2)]; simp⟩
      · refine ⟨m, (hP m).2 ⟨h1, h2⟩, ?_⟩
        rw [if_neg (fun hh => (hC m).1 hh h3)]
        exact (mem_conflicting h h1).2 ⟨hx, h4, h5⟩

def audioState : Ms where
  input := c!"DTS-HDMA5.1 xAAC HQ LC"
  live := [{ wordMt 1 0 6 [] c!"audio_codec" with val := some (.str c!"DTS-HD") }, 
    wordMt 2 6 8 [c!"audio_profile.rule", c!"DTS-HD"] c!"audio_profile", wordMt 3 8 11 [c!"weak-audio_channels"] c!"audio_channels",
    { wordMt 4 13 16 [] c!"audio_codec" with val := some (.str c!"AAC") },
    { wordMt 5 17 19 [c!"audio_profile.rule", c!"AAC"] c!"audio_profile" with val := some (.str c!"High Quality") },
    wordMt 6 17 19 [], wordMt 7 20 22 [c!"audio_profile.rule", c!"DTS-HD"] c!"audio_profile"]
  markers := []

theorem audioState_sound : Sound audioState := ⟨by unfold WellFormed; decide, by decide⟩

example : (audioValidator audioState).live.map Mt.id = [1, 2, 3, 5, 6, 7] ∧
    (audioChannelsValidator audioState).live.map Mt.id = [1, 2, 4, 5, 6, 7] ∧
    (hqConflict audioState).live.map Mt.id = [1, 2, 3, 4, 5, 7] ∧
    (audioProfile c!"DTS-HD" audioState).live.map Mt.id = [1, 2, 3, 4, 5, 6] ∧
    (audioProfile c!"AAC" audioState).live.map Mt.id = [1, 2, 3, 4, 5, 7] :=
  ⟨by decide, by decide, by decide, by decide, by decide⟩

/-- C66: the codec that justifies a profile is itself dropped when it overlaps the profile. -/
theorem C66_counterexample_own_codec : ∃ (s : Ms) (x p : Mt), Sound s ∧ x ∈ s.live ∧ ProfileOf c!"AAC" x ∧ p ∈ s.live ∧
    p.name = some c!"audio_codec" ∧ p.value s.input = .str c!"AAC" ∧ AtEnds x p ∧
      (audioProfile c!"AAC" s).live.map Mt.id = [x.id] := by
  refine ⟨⟨c!"AAC-HE", [{ wordMt 1 0 6 [] c!"audio_codec" with val := some (.str c!"AAC") },
    wordMt 2 4 6 [c!"audio_profile.rule", c!"AAC"] c!"audio_profile"], []⟩, 
    wordMt 2 4 6 [c!"audio_profile.rule", c!"AAC"] c!"audio_profile", { wordMt 1 0 6 [] c!"audio_codec" with val := some (.str c!"AAC") },
    ⟨by unfold WellFormed; decide, by decide⟩, by simp, ⟨rfl, by decide, by decide⟩, by simp, rfl, by decide, Or.inl ⟨by decide, by decide⟩, by decide⟩

end Guessit
