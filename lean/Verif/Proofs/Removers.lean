import Verif.Model.Removers
import Verif.Props.Validators

namespace Guessit
open Spec

theorem insertBy_stable {α : Type} {lt : α → α → Bool} (h : StrictWeak lt) (p : α → Bool) (hp : ∀ a b, p a = true → p b = true → lt a b = false)
    (x : α) : ∀ {l : List α}, l.Pairwise (fun a b => lt b a = false) →
    (insertBy lt x l).filter p = if p x = true then l.filter p ++ [x] else l.filter p := by
  intro l
  induction l with
  | nil => intro _; simp [insertBy, List.filter_cons]
  | cons y l ih =>
    intro hs
    rw [List.pairwise_cons] at hs
    unfold insertBy
    by_cases hxy : lt x y = true
    · rw [if_pos hxy]
      by_cases hx : p x = true
      · rw [if_pos hx, List.filter_cons_of_pos hx]
        have : (y :: l).filter p = [] := by
          rw [List.filter_eq_nil_iff]
          intro z hz hpz
          have h1 : lt x z = false := hp x z hx hpz
          rw [List.mem_cons] at hz
          rcases hz with rfl | hz
          · rw [h1] at hxy; cases hxy
          · have h2 := hs.1 z hz
            have := h.trans y z x h2 h1
            rw [this] at hxy; cases hxy
        rw [this]; rfl
      · rw [if_neg hx, List.filter_cons_of_neg hx]
    · rw [if_neg hxy, List.filter_cons, ih hs.2, List.filter_cons]
      by_cases hx : p x = true <;> by_cases hy : p y = true <;> simp [hx, hy]

theorem sortBy_stable {α : Type} {lt : α → α → Bool} (h : StrictWeak lt) (p : α → Bool) (hp : ∀ a b, p a = true → p b = true → lt a b = false)
    (l : List α) : (sortBy lt l).filter p = l.filter p := by
  unfold sortBy
  have gen : ∀ acc : List α, acc.Pairwise (fun a b => lt b a = false) →
      (l.foldl (fun acc x => insertBy lt x acc) acc).filter p = acc.filter p ++ l.filter p := by
    induction l with
    | nil => intro acc _; simp
    | cons x l ih =>
      intro acc hacc
      rw [List.foldl_cons, ih _ (insertBy_sorted h x hacc), insertBy_stable h p hp x hacc]
      by_cases hx : p x = true
      · rw [if_pos hx, List.filter_cons_of_pos hx, List.append_assoc]; rfl
      · rw [if_neg hx, List.filter_cons_of_neg hx]
  have := gen [] List.Pairwise.nil
  simpa using this

theorem lead_first {l : List Mt} {q : Mt → Bool} {y : Mt} (h : Lead l (fun m => q m = true) y) :
    (l.filter fun m => q m && (decide (m.start = y.start) && decide (m.stop = y.stop))).head? = some y := by
  rw [head_filter_iff]
  obtain ⟨h1, _, pre, post, h3, h4⟩ := h
  refine ⟨pre, post, h3, by simp [h1], ?_⟩
  intro z hz hc
  simp only [Bool.and_eq_true, decide_eq_true_eq] at hc
  exact h4 z hz hc.1 hc.2

theorem lead_of_head {l : List Mt} {q : Mt → Bool} {y : Mt} (h : ((sortBy Mt.lt l).filter q).head? = some y) :
    Lead l (fun m => q m = true) y := by
  cases hl : (sortBy Mt.lt l).filter q with
  | nil => rw [hl] at h; cases h
  | cons y' t =>
    rw [hl] at h
    have : y' = y := by simpa using h
    subst this
    have hq : q y' = true := by
      have : y' ∈ (sortBy Mt.lt l).filter q := by rw [hl]; simp
      exact (List.mem_filter.1 this).2
    have hs := (sortBy_sorted Mt.lt_strictWeak l).sublist (List.filter_sublist (p := q))
    rw [hl, List.pairwise_cons] at hs
    refine ⟨hq, ?_, ?_⟩
    · intro z hz hqz
      have : z ∈ (sortBy Mt.lt l).filter q := List.mem_filter.2 ⟨mem_sortBy.2 hz, hqz⟩
      rw [hl, List.mem_cons] at this
      rcases this with rfl | this
      · exact Or.inr ⟨rfl, Nat.le_refl _⟩
      · have := hs.1 z this
        simp only [Mt.lt, Bool.or_eq_false_iff, Bool.and_eq_false_iff, decide_eq_false_iff_not] at this
        unfold NotAfter; omega
    · have hst := sortBy_stable Mt.lt_strictWeak
        (fun m => q m && (decide (m.start = y'.start) && decide (m.stop = y'.stop))) (by
          intro a b ha hb
          simp only [Bool.and_eq_true, decide_eq_true_eq] at ha hb
          simp only [Mt.lt, Bool.or_eq_false_iff, Bool.and_eq_false_iff, decide_eq_false_iff_not]
          omega) l
      have h2 : (l.filter fun m => q m && (decide (m.start = y'.start) && decide (m.stop = y'.stop))).head? = some y' := by
        rw [← hst]
        have : (sortBy Mt.lt l).filter (fun m => q m && (decide (m.start = y'.start) && decide (m.stop = y'.stop))) =
            ((sortBy Mt.lt l).filter q).filter fun m => decide (m.start = y'.start) && decide (m.stop = y'.stop) := by
          rw [List.filter_filter]
          congr 1; funext m; rw [Bool.and_comm]
        rw [this, hl, List.filter_cons_of_pos (by simp)]
        rfl
      obtain ⟨pre, post, e1, _, e3⟩ := (head_filter_iff _ _ _).1 h2
      refine ⟨pre, post, e1, ?_⟩
      intro z hz hqz hc
      exact e3 z hz (by simp [hqz, hc])

theorem lead_iff {l : List Mt} {q : Mt → Bool} {y : Mt} :
    ((sortBy Mt.lt l).filter q).head? = some y ↔ Lead l (fun m => q m = true) y := by
  refine ⟨lead_of_head, fun h => ?_⟩
  have hy : y ∈ (sortBy Mt.lt l).filter q := by
    obtain ⟨h1, _, pre, post, h3, _⟩ := h
    exact List.mem_filter.2 ⟨mem_sortBy.2 (by rw [h3]; simp), h1⟩
  cases hl : (sortBy Mt.lt l).filter q with
  | nil => rw [hl] at hy; simp at hy
  | cons w t =>
    have hw := lead_of_head (l := l) (q := q) (y := w) (by rw [hl]; rfl)
    have hw' : w ∈ l := by
      have : w ∈ (sortBy Mt.lt l).filter q := by rw [hl]; simp
      exact mem_sortBy.1 (List.mem_filter.1 this).1
    have h1 := h.2.1 w hw' hw.1
    have h2 := hw.2.1 y (mem_sortBy.1 (List.mem_filter.1 hy).1) h.1
    have hsp : w.start = y.start ∧ w.stop = y.stop := by unfold NotAfter at h1 h2; omega
    have e1 := lead_first h
    have e2 := lead_first hw
    rw [hsp.1, hsp.2, e1] at e2
    rw [List.head?_cons, e2]

theorem lead_mem {l : List Mt} {P : Mt → Prop} {y : Mt} (h : Lead l P y) : y ∈ l ∧ P y := by
  obtain ⟨h1, _, pre, post, h3, _⟩ := h
  exact ⟨by rw [h3]; simp, h1⟩

theorem lead_congr {l : List Mt} {P Q : Mt → Prop} (h : ∀ m ∈ l, P m ↔ Q m) {y : Mt} : Lead l P y ↔ Lead l Q y := by
  have aux : ∀ {P Q : Mt → Prop}, (∀ m ∈ l, P m ↔ Q m) → Lead l P y → Lead l Q y := by
    intro P Q h hy
    obtain ⟨hm, _⟩ := lead_mem hy
    obtain ⟨h1, h2, pre, post, h3, h4⟩ := hy
    exact ⟨(h y hm).1 h1, fun z hz hq => h2 z hz ((h z hz).2 hq), pre, post, h3,
      fun z hz hq => h4 z hz ((h z (by rw [h3]; simp [hz])).2 hq)⟩
  exact ⟨aux h, aux fun m hm => (h m hm).symm⟩

theorem lead_exists {l : List Mt} {P : Mt → Prop} [DecidablePred P] : (∃ y, Lead l P y) ↔ ∃ m ∈ l, P m := by
  constructor
  · rintro ⟨y, hy⟩; exact ⟨y, lead_mem hy⟩
  · rintro ⟨m, hm, hP⟩
    cases hl : (sortBy Mt.lt l).filter fun m => decide (P m) with
    | nil =>
      have : m ∈ (sortBy Mt.lt l).filter fun m => decide (P m) := by simp [hm, hP]
      rw [hl] at this; simp at this
    | cons w t =>
      have := (lead_iff (l := l) (q := fun m => decide (P m)) (y := w)).1 (by rw [hl]; rfl)
      exact ⟨w, (lead_congr (fun m _ => by simp)).1 this⟩

/-- `matches.range(a, b, q, 0)`. -/
theorem firstIn_iff {s : Ms} (h : Sound s) {a b : Nat} {q : Mt → Bool} {y : Mt} :
    firstIn s a b q = some y ↔ Lead s.live (fun m => m.start < b ∧ a < m.stop ∧ q m = true) y := by
  unfold firstIn
  rw [firstTrue_eq (fun m hm => h.pos m (mem_rangeOf.1 hm).1)]
  unfold rangeOf
  rw [lead_iff]
  refine lead_congr fun m hm => ?_
  have := h.pos m hm
  have := (maxEnd_ge s.input s.live).2 m hm
  simp only [Bool.and_eq_true, decide_eq_true_eq, Nat.lt_min]
  constructor
  · rintro ⟨⟨⟨_, h1⟩, h2⟩, h3⟩; exact ⟨h1, h2, h3⟩
  · rintro ⟨h1, h2, h3⟩; exact ⟨⟨⟨by omega, h1⟩, h2⟩, h3⟩

theorem lead_unique {l : List Mt} {P : Mt → Prop} {y z : Mt} (hy : Lead l P y) (hz : Lead l P z) : y = z := by
  classical
  have e1 := (lead_iff (l := l) (q := fun m => decide (P m)) (y := y)).2 ((lead_congr (fun m _ => by simp)).1 hy)
  have e2 := (lead_iff (l := l) (q := fun m => decide (P m)) (y := z)).2 ((lead_congr (fun m _ => by simp)).1 hz)
  rw [e1] at e2
  exact Option.some.inj e2

theorem linkedBefore_iff {s : Ms} (h : Sound s) {m : Mt} {q : Mt → Bool} : linkedBefore s m q = true ↔
    ∃ p, ClosestBefore s.live m p ∧ q p = true ∧ NoText s.input s.live p.stop m.start := by
  rw [← firstPrev (T := fun k => NoText s.input s.live k m.start) h.pos]
  unfold linkedBefore
  cases firstTrue (previous s.live m q) with
  | none => simp
  | some p => simp [← hasText_iff]

theorem linkedAfter_iff {s : Ms} (h : Sound s) {m : Mt} {q : Mt → Bool} : linkedAfter s m q = true ↔
    ∃ p, ClosestAfter s.live m p ∧ q p = true ∧ NoText s.input s.live m.stop p.start := by
  rw [← firstNext (input := s.input) (T := fun k => NoText s.input s.live m.stop k) h.pos]
  unfold linkedAfter
  cases firstTrue (nextOf s.input s.live m q) with
  | none => simp
  | some p => simp [← hasText_iff]

theorem mem_parts {s : Ms} {part : Mt} : part ∈ pathParts s ↔ part ∈ s.markers ∧ part.name = some c!"path" := mem_named

/-- `matches.at_match(m, lambda g: g.name == n)`: something of that name covers an end of `m`. -/
theorem atMatch_mem {input : Str} {l : List Mt} {m : Mt} {n : Str} :
    (∃ g, g ∈ atMatch input l m fun g => decide (g.name = some n)) ↔ ∃ g ∈ l, g.name = some n ∧ AtEnds m g := by
  unfold atMatch
  constructor
  · rintro ⟨g, hg⟩
    rw [List.mem_filter, decide_eq_true_eq] at hg
    obtain ⟨h1, h2⟩ := mem_atSpan.1 hg.1
    exact ⟨g, h1, hg.2, h2⟩
  · rintro ⟨g, h1, h2, h3⟩
    obtain ⟨y, hy, hk⟩ := mem_atSpan.2 h1 h3
    refine ⟨y, List.mem_filter.2 ⟨hy, ?_⟩⟩
    rw [decide_eq_true_eq, ← h2]
    exact congrArg MtKey.name hk

theorem atMatch_empty {input : Str} {l : List Mt} {m : Mt} {n : Str} :
    (atMatch input l m fun g => decide (g.name = some n)).isEmpty = true ↔ ¬ ∃ g ∈ l, g.name = some n ∧ AtEnds m g := by
  rw [← atMatch_mem (input := input), List.isEmpty_iff, List.eq_nil_iff_forall_not_mem, not_exists]

theorem atMatch_none {input : Str} {l : List Mt} {m : Mt} {n : Str} :
    (firstTrue (atMatch input l m fun g => decide (g.name = some n))).isNone = true ↔ ¬ ∃ g ∈ l, g.name = some n ∧ AtEnds m g := by
  rw [← atMatch_empty (input := input), Option.isNone_iff_eq_none, firstTrue_none, List.isEmpty_iff, List.eq_nil_iff_forall_not_mem]
  intro g hg
  have := (mem_atSpan.1 (List.mem_filter.1 hg).1).2
  omega

/-! ### the order of spans -/

theorem pair_cases {α : Type} {l : List α} {x y : α} (hx : x ∈ l) (hy : y ∈ l) (hne : x ≠ y) : [x, y].Sublist l ∨ [y, x].Sublist l := by
  induction l with
  | nil => simp at hx
  | cons a l ih =>
    rw [List.mem_cons] at hx hy
    rcases hx with hx | hx <;> rcases hy with hy | hy
    · exact absurd (hx.trans hy.symm) hne
    · subst hx; exact Or.inl (List.Sublist.cons_cons _ (List.singleton_sublist.2 hy))
    · subst hy; exact Or.inr (List.Sublist.cons_cons _ (List.singleton_sublist.2 hx))
    · rcases ih hx hy with h | h
      · exact Or.inl (h.cons _)
      · exact Or.inr (h.cons _)

theorem pair_mem {α : Type} {l : List α} {x y : α} (h : [x, y].Sublist l) : x ∈ l ∧ y ∈ l :=
  ⟨h.subset (by simp), h.subset (by simp)⟩

theorem pair_asymm {α : Type} {l : List α} (hl : l.Nodup) {x y : α} (h : [x, y].Sublist l) : ¬ [y, x].Sublist l := by
  induction l with
  | nil => intro h'; cases h
  | cons a l ih =>
    rw [List.nodup_cons] at hl
    intro h'
    rw [List.cons_sublist_cons'] at h h'
    rcases h with h | ⟨h1, h2⟩ <;> rcases h' with h' | ⟨h1', h2'⟩
    · exact ih hl.2 h h'
    · subst h1'; exact hl.1 (pair_mem h).2
    · subst h1; exact hl.1 (pair_mem h').2
    · subst h1; exact hl.1 (by have := List.singleton_sublist.1 h2'; exact this)

theorem later_sorted {l : List Mt} (hl : l.Nodup) {x y : Mt} (hx : x ∈ l) (hy : y ∈ l) (hne : x ≠ y) :
    [x, y].Sublist (sortBy Mt.lt l) ↔ Later l x y := by
  have fwd : ∀ {x y : Mt}, [x, y].Sublist (sortBy Mt.lt l) → Later l x y := by
    intro x y h
    have hlt : Mt.lt y x = false := by
      have := List.Pairwise.sublist h (sortBy_sorted Mt.lt_strictWeak l)
      rw [List.pairwise_cons] at this
      exact this.1 y (by simp)
    simp only [Mt.lt, Bool.or_eq_false_iff, Bool.and_eq_false_iff, decide_eq_false_iff_not] at hlt
    unfold Later
    by_cases hs : x.start = y.start ∧ x.stop = y.stop
    · refine Or.inr (Or.inr ⟨hs.1, hs.2, ?_⟩)
      have hst := sortBy_stable Mt.lt_strictWeak (fun m => decide (m.start = y.start) && decide (m.stop = y.stop)) (by
          intro a b ha hb
          simp only [Bool.and_eq_true, decide_eq_true_eq] at ha hb
          simp only [Mt.lt, Bool.or_eq_false_iff, Bool.and_eq_false_iff, decide_eq_false_iff_not]
          omega) l
      have := h.filter (fun m => decide (m.start = y.start) && decide (m.stop = y.stop))
      rw [hst, List.filter_cons_of_pos (by simp [hs]), List.filter_cons_of_pos (by simp)] at this
      exact this.trans List.filter_sublist
    · omega
  refine ⟨fwd, fun h => ?_⟩
  rcases pair_cases (mem_sortBy.2 hx) (mem_sortBy.2 hy) hne with h' | h'
  · exact h'
  · exfalso
    have h2 := fwd h'
    unfold Later at h h2
    rcases h with h | h | ⟨h1, h2', h3⟩
    · omega
    · omega
    · rcases h2 with h4 | h4 | ⟨_, _, h5⟩
      · omega
      · omega
      · exact pair_asymm hl h3 h5

theorem pair_filter {α : Type} {l : List α} {q : α → Bool} {x y : α} :
    [x, y].Sublist (l.filter q) ↔ q x = true ∧ q y = true ∧ [x, y].Sublist l := by
  constructor
  · intro h
    exact ⟨(List.mem_filter.1 (pair_mem h).1).2, (List.mem_filter.1 (pair_mem h).2).2, h.trans List.filter_sublist⟩
  · rintro ⟨h1, h2, h3⟩
    have := h3.filter q
    rwa [List.filter_cons_of_pos h1, List.filter_cons_of_pos h2] at this

theorem sound_nodup {s : Ms} (h : Sound s) : s.live.Nodup := List.Nodup.of_map _ h.distinct


theorem adds_all (input : Str) : ∀ (ms l : List Mt), Adds input l (appendAll input l ms) (· ∈ ms) := by
  intro ms
  induction ms with
  | nil => intro l; exact ⟨⟨[], by simp [appendAll], by simp, by simp⟩, by simp⟩
  | cons m ms ih =>
    intro l
    have e : appendAll input l (m :: ms) = appendAll input (if hasMatch input l m then l else l ++ [m]) ms := rfl
    rw [e]
    by_cases hm : hasMatch input l m = true
    · rw [if_pos hm]
      obtain ⟨⟨extra, h1, h2, h3⟩, h4⟩ := ih l
      refine ⟨⟨extra, h1, fun x hx => ⟨List.mem_cons_of_mem _ (h2 x hx).1, (h2 x hx).2⟩, h3⟩, fun x hx => ?_⟩
      rcases List.mem_cons.1 hx with rfl | hx
      · obtain ⟨y, hy, hk⟩ := (hasMatch_iff).1 hm
        exact ⟨y, by rw [h1]; exact List.mem_append_left _ hy, hk.symm⟩
      · exact h4 x hx
    · rw [if_neg hm]
      obtain ⟨⟨extra, h1, h2, h3⟩, h4⟩ := ih (l ++ [m])
      refine ⟨⟨m :: extra, by rw [h1]; simp, ?_, ?_⟩, fun x hx => ?_⟩
      · intro x hx
        rcases List.mem_cons.1 hx with rfl | hx
        · refine ⟨List.mem_cons_self, fun y hy hk => hm ((hasMatch_iff).2 ⟨y, hy, hk.symm⟩)⟩
        · exact ⟨List.mem_cons_of_mem _ (h2 x hx).1, fun y hy => (h2 x hx).2 y (List.mem_append_left _ hy)⟩
      · rw [List.map_cons, List.nodup_cons]
        refine ⟨?_, h3⟩
        intro hc
        obtain ⟨x, hx, hk⟩ := List.mem_map.1 hc
        exact (h2 x hx).2 m (by simp) hk.symm
      · rcases List.mem_cons.1 hx with rfl | hx
        · exact ⟨x, by rw [h1]; simp, rfl⟩
        · exact h4 x hx

theorem adds_congr {input : Str} {l l' : List Mt} {P Q : Mt → Prop} (h : ∀ x, P x ↔ Q x) (ha : Adds input l l' P) : Adds input l l' Q := by
  obtain ⟨⟨extra, h1, h2, h3⟩, h4⟩ := ha
  exact ⟨⟨extra, h1, fun x hx => ⟨(h x).1 (h2 x hx).1, (h2 x hx).2⟩, h3⟩, fun x hx => h4 x ((h x).2 hx)⟩

theorem drops_congr {s s' : Ms} {P Q : Mt → Prop} (h : ∀ x ∈ s.live, P x ↔ Q x) (hd : Drops s s' P) : Drops s s' Q :=
  ⟨hd.input, hd.markers, hd.order, fun x hx => (hd.bad x hx).trans (not_congr (h x hx))⟩

/-! ### the first match for each value -/

theorem fpv_mem {input : Str} : ∀ {l : List Mt} {seen : List MVal} {x : Mt}, x ∈ firstPerValue input seen l →
    x.value input ∉ seen ∧ FirstOf l (fun y => y.value input = x.value input) x := by
  intro l
  induction l with
  | nil => intro seen x hx; simp [firstPerValue] at hx
  | cons m l ih =>
    intro seen x hx
    unfold firstPerValue at hx
    split at hx
    · rename_i hs
      rw [List.contains_iff_mem] at hs
      obtain ⟨h1, pre, post, h2, h3, h4⟩ := ih hx
      refine ⟨h1, m :: pre, post, by rw [h2]; rfl, h3, ?_⟩
      intro y hy
      rcases List.mem_cons.1 hy with rfl | hy
      · intro hc; exact h1 (hc ▸ hs)
      · exact h4 y hy
    · rename_i hs
      rw [List.contains_iff_mem] at hs
      rcases List.mem_cons.1 hx with rfl | hx
      · exact ⟨hs, [], l, rfl, rfl, by simp⟩
      · obtain ⟨h1, pre, post, h2, h3, h4⟩ := ih hx
        rw [List.mem_cons, not_or] at h1
        refine ⟨h1.2, m :: pre, post, by rw [h2]; rfl, h3, ?_⟩
        intro y hy
        rcases List.mem_cons.1 hy with rfl | hy
        · exact fun hc => h1.1 hc.symm
        · exact h4 y hy

theorem fpv_cover {input : Str} : ∀ {l : List Mt} {seen : List MVal} {y : Mt}, y ∈ l → y.value input ∉ seen →
    ∃ x ∈ firstPerValue input seen l, x.value input = y.value input := by
  intro l
  induction l with
  | nil => intro seen y hy; simp at hy
  | cons m l ih =>
    intro seen y hy hs
    unfold firstPerValue
    split
    · rename_i hc
      rw [List.contains_iff_mem] at hc
      rcases List.mem_cons.1 hy with rfl | hy
      · exact absurd hc hs
      · exact ih hy hs
    · rename_i hc
      by_cases he : y.value input = m.value input
      · exact ⟨m, by simp, he.symm⟩
      · rcases List.mem_cons.1 hy with rfl | hy
        · exact absurd rfl he
        · obtain ⟨x, hx, hv⟩ := ih hy (seen := m.value input :: seen) (by rw [List.mem_cons, not_or]; exact ⟨he, hs⟩)
          exact ⟨x, by simp [hx], hv⟩

theorem fpv_distinct {input : Str} : ∀ {l : List Mt} {seen : List MVal}, ((firstPerValue input seen l).map (Mt.value input)).Nodup := by
  intro l
  induction l with
  | nil => intro seen; simp [firstPerValue]
  | cons m l ih =>
    intro seen
    unfold firstPerValue
    split
    · exact ih
    · rw [List.map_cons, List.nodup_cons]
      refine ⟨?_, ih⟩
      intro hc
      obtain ⟨x, hx, hv⟩ := List.mem_map.1 hc
      exact (fpv_mem hx).1 (by rw [hv]; simp)

theorem firstOf_filter {α : Type} {l : List α} {q : α → Bool} {P : α → Prop} {x : α} :
    FirstOf (l.filter q) P x ↔ FirstOf l (fun y => q y = true ∧ P y) x := by
  classical
  have e1 := head_filter_iff (fun y => decide (P y)) (l.filter q) x
  have e2 := head_filter_iff (fun y => decide (P y) && q y) l x
  rw [List.filter_filter] at e1
  have e3 := e1.symm.trans e2
  refine (firstOf_congr (fun y _ => by simp) x).trans (e3.trans (firstOf_congr (fun y _ => ?_) x))
  simp [and_comm]

end Guessit
