import Verif.Props.Episodes

/-! # C58, C59, C60: counts, order of the numbers of a pattern, and their distance -/

namespace Guessit
open Spec

/-! ### `RenameMatch` on a part of the collection -/

theorem removeAll_cons_ne (input : Str) (x : Mt) : ∀ (ms l : List Mt), (∀ m ∈ ms, m.key input ≠ x.key input) →
    removeAll input (x :: l) ms = x :: removeAll input l ms := by
  intro ms
  induction ms with
  | nil => intro l _; rfl
  | cons m ms ih =>
    intro l h
    have hne : Mt.eqv input m x = false := by
      cases hh : Mt.eqv input m x with
      | false => rfl
      | true => exact absurd (eqv_iff.1 hh) (h m (by simp))
    show removeAll input (removeMatch input (x :: l) m) ms = x :: removeAll input (removeMatch input l m) ms
    rw [show removeMatch input (x :: l) m = x :: removeMatch input l m from by simp [removeMatch, hne]]
    exact ih _ (fun y hy => h y (by simp [hy]))

theorem removeAll_filter (input : Str) (q : Mt → Bool) : ∀ (l : List Mt), (l.map (Mt.key input)).Nodup →
    removeAll input l (l.filter q) = l.filter fun m => !q m := by
  intro l
  induction l with
  | nil => intro _; rfl
  | cons x l ih =>
    intro h
    rw [List.map_cons, List.nodup_cons] at h
    by_cases hx : q x = true
    · rw [List.filter_cons_of_pos hx, List.filter_cons_of_neg (by simp [hx])]
      show removeAll input (removeMatch input (x :: l) x) (l.filter q) = _
      rw [show removeMatch input (x :: l) x = l from by simp [removeMatch, Mt.eqv]]
      exact ih h.2
    · rw [List.filter_cons_of_neg hx, List.filter_cons_of_pos (by simp [hx]), removeAll_cons_ne, ih h.2]
      intro m hm hk
      exact h.1 (List.mem_map.2 ⟨m, (List.mem_filter.1 hm).1, hk⟩)

theorem hasMatch_cons_ne (input : Str) (x m : Mt) (l : List Mt) (h : m.key input ≠ x.key input) :
    hasMatch input (x :: l) m = hasMatch input l m := by
  rw [Bool.eq_iff_iff, hasMatch_iff, hasMatch_iff]
  constructor
  · rintro ⟨y, hy, hk⟩
    rcases List.mem_cons.1 hy with rfl | hy
    · exact absurd hk h
    · exact ⟨y, hy, hk⟩
  · rintro ⟨y, hy, hk⟩; exact ⟨y, by simp [hy], hk⟩

theorem removedBy_cons_ne (input : Str) (x : Mt) : ∀ (ms l : List Mt), (∀ m ∈ ms, m.key input ≠ x.key input) →
    removedBy input (x :: l) ms = removedBy input l ms := by
  intro ms
  induction ms with
  | nil => intro l _; rfl
  | cons m ms ih =>
    intro l h
    have hm := h m (by simp)
    have hne : Mt.eqv input m x = false := by
      cases hh : Mt.eqv input m x with
      | false => rfl
      | true => exact absurd (eqv_iff.1 hh) hm
    simp only [removedBy]
    rw [hasMatch_cons_ne input x m l hm, show removeMatch input (x :: l) m = x :: removeMatch input l m from by simp [removeMatch, hne],
      ih _ (fun y hy => h y (by simp [hy])), ih _ (fun y hy => h y (by simp [hy]))]

theorem removedBy_filter (input : Str) (q : Mt → Bool) : ∀ (l : List Mt), (l.map (Mt.key input)).Nodup →
    removedBy input l (l.filter q) = l.filter q := by
  intro l
  induction l with
  | nil => intro _; rfl
  | cons x l ih =>
    intro h
    rw [List.map_cons, List.nodup_cons] at h
    by_cases hx : q x = true
    · rw [List.filter_cons_of_pos hx]
      simp only [removedBy]
      rw [if_pos (hasMatch_iff.2 ⟨x, by simp, rfl⟩), show removeMatch input (x :: l) x = l from by simp [removeMatch, Mt.eqv], ih h.2]
    · rw [List.filter_cons_of_neg hx, removedBy_cons_ne, ih h.2]
      intro m hm hk
      exact h.1 (List.mem_map.2 ⟨m, (List.mem_filter.1 hm).1, hk⟩)

theorem removeMatch_append (input : Str) (m : Mt) (B : List Mt) (h : ∀ b ∈ B, m.key input ≠ b.key input) : ∀ A,
    removeMatch input (A ++ B) m = removeMatch input A m ++ B := by
  intro A
  induction A with
  | nil =>
    rw [List.nil_append]
    show removeMatch input B m = [] ++ B
    rw [List.nil_append]
    induction B with
    | nil => rfl
    | cons b B ih =>
      have hne : Mt.eqv input m b = false := by
        cases hh : Mt.eqv input m b with
        | false => rfl
        | true => exact absurd (eqv_iff.1 hh) (h b (by simp))
      simp only [removeMatch, hne]
      rw [ih (fun y hy => h y (by simp [hy]))]; rfl
  | cons a A ih =>
    simp only [List.cons_append, removeMatch]
    split
    · rfl
    · rw [ih]; rfl

theorem removeAll_append (input : Str) : ∀ (ms A B : List Mt), (∀ m ∈ ms, ∀ b ∈ B, m.key input ≠ b.key input) →
    removeAll input (A ++ B) ms = removeAll input A ms ++ B := by
  intro ms
  induction ms with
  | nil => intro A B _; rfl
  | cons m ms ih =>
    intro A B h
    show removeAll input (removeMatch input (A ++ B) m) ms = removeAll input (removeMatch input A m) ms ++ B
    rw [removeMatch_append input m B (h m (by simp)), ih _ _ (fun y hy => h y (by simp [hy]))]

theorem removedBy_append (input : Str) : ∀ (ms A B : List Mt), (∀ m ∈ ms, ∀ b ∈ B, m.key input ≠ b.key input) →
    removedBy input (A ++ B) ms = removedBy input A ms := by
  intro ms
  induction ms with
  | nil => intro A B _; rfl
  | cons m ms ih =>
    intro A B h
    have hb := h m (by simp)
    have hh : hasMatch input (A ++ B) m = hasMatch input A m := by
      rw [Bool.eq_iff_iff, hasMatch_iff, hasMatch_iff]
      constructor
      · rintro ⟨y, hy, hk⟩
        rcases List.mem_append.1 hy with hy | hy
        · exact ⟨y, hy, hk⟩
        · exact absurd hk (hb y hy)
      · rintro ⟨y, hy, hk⟩; exact ⟨y, by simp [hy], hk⟩
    simp only [removedBy]
    rw [hh, removeMatch_append input m B hb, ih _ _ (fun y hy => h y (by simp [hy])), ih _ _ (fun y hy => h y (by simp [hy]))]

/-- Renaming matches that are not in the list, to a name none of them has: all are appended. -/
theorem appendNamed_fresh (input : Str) (name : Str) : ∀ (ms l : List Mt), (∀ m ∈ ms, ∀ x ∈ l, m.key input ≠ x.key input) →
    (∀ m ∈ ms, m.name ≠ some name) →
    appendNamed input name l ms = l ++ ms.map fun m => { m with name := some name } := by
  intro ms
  induction ms with
  | nil => intro l _ _; simp [appendNamed]
  | cons m ms ih =>
    intro l h hn
    have hno : hasMatch input l m = false := by
      cases hh : hasMatch input l m with
      | false => rfl
      | true => obtain ⟨x, hx, hk⟩ := hasMatch_iff.1 hh; exact absurd hk (h m (by simp) x hx)
    show appendNamed input name (if hasMatch input l m then l else l ++ [{ m with name := some name }]) ms = _
    rw [hno]
    simp only [Bool.false_eq_true, if_false]
    rw [ih]
    · simp
    · intro y hy x hx
      rcases List.mem_append.1 hx with hx | hx
      · exact h y (by simp [hy]) x hx
      · simp only [List.mem_singleton] at hx
        subst hx
        intro hk
        have := congrArg MtKey.name hk
        simp only [Mt.key] at this
        exact hn y (by simp [hy]) this
    · intro y hy; exact hn y (by simp [hy])

theorem eq_of_nodup_map {α β : Type} {f : α → β} {l : List α} (h : (l.map f).Nodup) {a b : α} (ha : a ∈ l) (hb : b ∈ l)
    (hf : f a = f b) : a = b := by
  induction l with
  | nil => simp at ha
  | cons x l ih =>
    rw [List.map_cons, List.nodup_cons] at h
    rw [List.mem_cons] at ha hb
    rcases ha with ha | ha <;> rcases hb with hb | hb
    · rw [ha, hb]
    · exact absurd (List.mem_map.2 ⟨b, hb, by rw [← hf, ha]⟩) h.1
    · exact absurd (List.mem_map.2 ⟨a, ha, by rw [hf, hb]⟩) h.1
    · exact ih h.2 ha hb

/-- `RenameMatch` on the matches `q` selects: they leave their place and come back at the end under the new name. -/
theorem renameAll_filter (input : Str) (name : Str) (q : Mt → Bool) (A B : List Mt) (hnd : (A.map (Mt.key input)).Nodup)
    (hq : ∀ m, q m = true → m.name ≠ some name) (hB : ∀ m ∈ A.filter q, ∀ b ∈ B, m.key input ≠ b.key input) :
    renameAll input name (A ++ B) (A.filter q) =
      (A.filter fun m => !q m) ++ B ++ (A.filter q).map fun m => { m with name := some name } := by
  unfold renameAll
  rw [removeAll_append input _ A B hB, removedBy_append input _ A B hB, removeAll_filter input q A hnd, removedBy_filter input q A hnd,
    appendNamed_fresh]
  · intro m hm x hx hk
    rcases List.mem_append.1 hx with hx | hx
    · rw [List.mem_filter] at hm hx
      have : m = x := by
        have := eq_of_nodup_map hnd hm.1 hx.1 hk
        exact this
      subst this
      rw [hm.2] at hx; simp at hx
    · exact hB m hm x hx hk
  · intro m hm; exact hq m (List.mem_filter.1 hm).2

/-! ## C58 -/

/-- What precedes a count: an episode or a season. -/
def CountsWhat (s : Ms) (c : Mt) (what : Str) : Prop :=
  ∃ p, JustBefore s.live (fun n => n = c!"episode" ∨ n = c!"season") c p ∧ p.name = some what

theorem countOf_iff {s : Ms} (h : ∀ m ∈ s.live, m.start < m.stop) (c : Mt) (what : Str) :
    countOf s c = some what ↔ CountsWhat s c what := by
  have hp := fun p => previous_iff h (fun m => decide (m.name = some c!"episode") || decide (m.name = some c!"season"))
    (fun n => n = c!"episode" ∨ n = c!"season") (by
      intro m
      simp only [Bool.or_eq_true, decide_eq_true_eq]
      constructor
      · rintro (h | h)
        · exact ⟨_, h, Or.inl rfl⟩
        · exact ⟨_, h, Or.inr rfl⟩
      · rintro ⟨n, h, rfl | rfl⟩
        · exact Or.inl h
        · exact Or.inr h) c p
  unfold countOf CountsWhat
  rw [Option.bind_eq_some_iff]
  constructor
  · rintro ⟨p, h1, h2⟩; exact ⟨p, (hp p).1 h1, h2⟩
  · rintro ⟨p, h1, h2⟩; exact ⟨p, (hp p).2 h1, h2⟩

theorem countOf_cases (s : Ms) (h : ∀ m ∈ s.live, m.start < m.stop) (c : Mt) :
    countOf s c = none ∨ countOf s c = some c!"episode" ∨ countOf s c = some c!"season" := by
  cases hc : countOf s c with
  | none => simp
  | some w =>
    obtain ⟨p, h1, h2⟩ := (countOf_iff h c w).1 hc
    obtain ⟨_, ⟨n, hn, hor⟩, _⟩ := firstOf_mem h1
    rw [h2] at hn
    cases hn
    rcases hor with rfl | rfl <;> simp

/-- C58: what the rule does, exactly: the raw counts go; those that directly follow an episode come back as
`episode_count`, those that directly follow a season as `season_count`, with the same position and value. -/
theorem C58_counts_renamed (s : Ms) (h : ∀ m ∈ s.live, m.start < m.stop) (hnd : (s.live.map (Mt.key s.input)).Nodup) :
    ∃ eps seas : List Mt,
      (countValidator s).live = (s.live.filter fun m => decide (m.name ≠ some c!"count")) ++
        eps.map (fun m => { m with name := some c!"episode_count" }) ++ seas.map (fun m => { m with name := some c!"season_count" }) ∧
      eps.Sublist s.live ∧ seas.Sublist s.live ∧
      (∀ m, m ∈ eps ↔ m ∈ s.live ∧ m.name = some c!"count" ∧ CountsWhat s m c!"episode") ∧
      (∀ m, m ∈ seas ↔ m ∈ s.live ∧ m.name = some c!"count" ∧ CountsWhat s m c!"season") := by
  let qc : Mt → Bool := fun m => decide (m.name = some c!"count")
  let q1 : Mt → Bool := fun m => qc m && decide (countOf s m = none)
  let q2 : Mt → Bool := fun m => qc m && decide (countOf s m = some c!"episode")
  let q3 : Mt → Bool := fun m => qc m && decide (countOf s m = some c!"season")
  have hex12 : ∀ m, q2 m = true → q1 m = false := by
    intro m hm; simp only [q1, q2, qc, Bool.and_eq_true, decide_eq_true_eq] at hm ⊢; simp [hm.2]
  have hex13 : ∀ m, q3 m = true → q1 m = false ∧ q2 m = false := by
    intro m hm; simp only [q1, q2, q3, qc, Bool.and_eq_true, decide_eq_true_eq] at hm ⊢; simp [hm.2]
  have e1 : (named s.live c!"count").filter (fun c => decide (countOf s c = none)) = s.live.filter q1 := by
    unfold named; rw [List.filter_filter]; apply List.filter_congr; intro m _; simp only [q1, qc]; rw [Bool.and_comm]
  have e2 : (named s.live c!"count").filter (fun c => decide (countOf s c = some c!"episode")) = s.live.filter q2 := by
    unfold named; rw [List.filter_filter]; apply List.filter_congr; intro m _; simp only [q2, qc]; rw [Bool.and_comm]
  have e3 : (named s.live c!"count").filter (fun c => decide (countOf s c = some c!"season")) = s.live.filter q3 := by
    unfold named; rw [List.filter_filter]; apply List.filter_congr; intro m _; simp only [q3, qc]; rw [Bool.and_comm]
  let A1 := s.live.filter fun m => !q1 m
  let A2 := A1.filter fun m => !q2 m
  have hA1 : A1.filter q2 = s.live.filter q2 := by
    show (s.live.filter fun m => !q1 m).filter q2 = _
    rw [List.filter_filter]; apply List.filter_congr
    intro m _
    cases hq : q2 m with
    | false => simp
    | true => simp [hex12 m hq]
  have hA2 : A2.filter q3 = s.live.filter q3 := by
    show ((s.live.filter fun m => !q1 m).filter fun m => !q2 m).filter q3 = _
    rw [List.filter_filter, List.filter_filter]; apply List.filter_congr
    intro m _
    cases hq : q3 m with
    | false => simp
    | true => simp [hex13 m hq]
  have hnd1 : (A1.map (Mt.key s.input)).Nodup := ((List.filter_sublist (l := s.live)).map _).nodup hnd
  have hnd2 : (A2.map (Mt.key s.input)).Nodup := ((List.filter_sublist (l := A1)).map _).nodup hnd1
  have hname : ∀ (q : Mt → Bool) (w : Str), (∀ m, q m = true → qc m = true) → w ≠ c!"count" → ∀ m, q m = true → m.name ≠ some w := by
    intro q w hq hw m hm he
    have := hq m hm
    simp only [qc, decide_eq_true_eq] at this
    rw [this] at he
    exact hw (Option.some.inj he).symm
  have hq2c : ∀ m, q2 m = true → qc m = true := by intro m hm; simp only [q2, Bool.and_eq_true] at hm; exact hm.1
  have hq3c : ∀ m, q3 m = true → qc m = true := by intro m hm; simp only [q3, Bool.and_eq_true] at hm; exact hm.1
  have hl : (countValidator s).live = (A2.filter fun m => !q3 m) ++
      (s.live.filter q2).map (fun m => { m with name := some c!"episode_count" }) ++
      (s.live.filter q3).map (fun m => { m with name := some c!"season_count" }) := by
    unfold countValidator
    dsimp only
    rw [e1, e2, e3, removeAll_filter s.input q1 s.live hnd]
    show renameAll s.input _ (renameAll s.input _ A1 (s.live.filter q2)) (s.live.filter q3) = _
    have r1 := renameAll_filter s.input c!"episode_count" q2 A1 [] hnd1 (hname q2 _ hq2c (by decide)) (by simp)
    rw [List.append_nil, List.append_nil, hA1] at r1
    rw [r1]
    have r2 := renameAll_filter s.input c!"season_count" q3 A2
      ((s.live.filter q2).map fun m => { m with name := some c!"episode_count" }) hnd2 (hname q3 _ hq3c (by decide)) (by
        intro m hm b hb hk
        obtain ⟨x, _, rfl⟩ := List.mem_map.1 hb
        have := congrArg MtKey.name hk
        simp only [Mt.key] at this
        have hqc := hq3c m (List.mem_filter.1 hm).2
        simp only [qc, decide_eq_true_eq] at hqc
        rw [hqc] at this
        exact absurd (Option.some.inj this) (by decide))
    rw [hA2] at r2
    exact r2
  refine ⟨s.live.filter q2, s.live.filter q3, ?_, List.filter_sublist, List.filter_sublist, ?_, ?_⟩
  · rw [hl]
    congr 2
    show ((s.live.filter fun m => !q1 m).filter fun m => !q2 m).filter (fun m => !q3 m) = _
    rw [List.filter_filter, List.filter_filter]
    apply List.filter_congr
    intro m _
    rw [Bool.eq_iff_iff]
    simp only [q1, q2, q3, qc, Bool.and_eq_true, Bool.not_eq_true', Bool.and_eq_false_iff, decide_eq_false_iff_not, decide_eq_true_eq]
    constructor
    · rintro ⟨⟨h3, h2⟩, h1⟩ hc
      rcases countOf_cases s h m with hh | hh | hh
      · rcases h1 with h1 | h1
        · exact h1 hc
        · exact h1 hh
      · rcases h2 with h2 | h2
        · exact h2 hc
        · exact h2 hh
      · rcases h3 with h3 | h3
        · exact h3 hc
        · exact h3 hh
    · intro hc; exact ⟨⟨Or.inl hc, Or.inl hc⟩, Or.inl hc⟩
  · intro m
    simp only [q2, qc, List.mem_filter, Bool.and_eq_true, decide_eq_true_eq]
    rw [countOf_iff h]
  · intro m
    simp only [q3, qc, List.mem_filter, Bool.and_eq_true, decide_eq_true_eq]
    rw [countOf_iff h]

/-- C58: no raw count survives. -/
theorem C58_no_raw_count (s : Ms) (h : ∀ m ∈ s.live, m.start < m.stop) (hnd : (s.live.map (Mt.key s.input)).Nodup) :
    ∀ m ∈ (countValidator s).live, m.name ≠ some c!"count" := by
  obtain ⟨eps, seas, he, _⟩ := C58_counts_renamed s h hnd
  intro m hm
  rw [he, List.mem_append, List.mem_append] at hm
  rcases hm with (hm | hm) | hm
  · simpa using (List.mem_filter.1 hm).2
  · obtain ⟨x, _, rfl⟩ := List.mem_map.1 hm; simp
  · obtain ⟨x, _, rfl⟩ := List.mem_map.1 hm; simp

/-- `Episode 4 of 12` and a detached `of 3`. -/
def exCount : Ms :=
  { input := c!"ep4of12 x3", markers := []
    live := [{ id := 0, start := 2, stop := 3, name := some c!"episode", val := some (.int 4) },
      { id := 1, start := 5, stop := 7, name := some c!"count", val := some (.int 12) },
      { id := 2, start := 9, stop := 10, name := some c!"count", val := some (.int 3) }] }

example : (∀ m ∈ exCount.live, m.start < m.stop) ∧ (exCount.live.map (Mt.key exCount.input)).Nodup ∧
    (countValidator exCount).live.map (fun m => (m.name, m.value exCount.input)) =
      [(some c!"episode", .int 4), (some c!"episode_count", .int 12)] := by decide +kernel

/-! ## C59 -/

theorem mem_dedupInts (x : Int) : ∀ l : List Int, x ∈ dedupInts l ↔ x ∈ l
  | [] => by simp [dedupInts]
  | y :: l => by
    rw [dedupInts, List.mem_cons, List.mem_filter, mem_dedupInts x l, List.mem_cons]
    by_cases h : x = y <;> simp [h]

theorem isSorted_iff : ∀ l : List Int, isSorted l = true ↔ l.Pairwise (· ≤ ·) := by
  intro l
  induction l with
  | nil => simp [isSorted]
  | cons a l ih =>
    cases l with
    | nil => simp [isSorted]
    | cons b l =>
      rw [isSorted, Bool.and_eq_true, ih, decide_eq_true_eq, List.pairwise_cons (a := a)]
      constructor
      · rintro ⟨h1, h2⟩
        refine ⟨?_, h2⟩
        intro c hc
        rw [List.mem_cons] at hc
        rcases hc with rfl | hc
        · exact h1
        · exact Int.le_trans h1 ((List.pairwise_cons.1 h2).1 c hc)
      · rintro ⟨h1, h2⟩; exact ⟨h1 b (by simp), h2⟩

theorem first_occurrence {v : Int} : ∀ {l : List Int}, v ∈ l → ∃ pre post, l = pre ++ v :: post ∧ v ∉ pre := by
  intro l
  induction l with
  | nil => intro h; simp at h
  | cons y l ih =>
    intro h
    by_cases hy : v = y
    · exact ⟨[], l, by simp [hy], by simp⟩
    · rw [List.mem_cons] at h
      obtain ⟨a, b, h1, h2⟩ := ih (h.resolve_left hy)
      exact ⟨y :: a, b, by simp [h1], by simp [h2, hy]⟩

theorem sorted_dedup_le (u v : Int) : ∀ (pre post : List Int) (q : Int → Bool), v ∉ pre → u ∈ pre → q u = true → q v = true →
    ((dedupInts (pre ++ v :: post)).filter q).Pairwise (· ≤ ·) → u ≤ v := by
  intro pre
  induction pre with
  | nil => intro _ _ _ h; simp at h
  | cons w pre ih =>
    intro post q hv hu hqu hqv hs
    rw [List.mem_cons, not_or] at hv
    rw [List.cons_append, dedupInts] at hs
    by_cases hwu : u = w
    · subst hwu
      rw [List.filter_cons_of_pos hqu, List.pairwise_cons] at hs
      exact hs.1 v (by simp [List.mem_filter, mem_dedupInts, hqv, hv.1])
    · rw [List.mem_cons] at hu
      apply ih post (fun y => q y && decide (y ≠ w)) hv.2 (hu.resolve_left hwu)
      · simp [hqu, hwu]
      · simp [hqv, hv.1]
      · by_cases hqw : q w = true
        · rw [List.filter_cons_of_pos hqw, List.pairwise_cons, List.filter_filter] at hs
          exact hs.2
        · rw [List.filter_cons_of_neg hqw, List.filter_filter] at hs
          exact hs

theorem sorted_dedup_of : ∀ (l : List Int) (q : Int → Bool),
    (∀ pre v post, l = pre ++ v :: post → q v = true → v ∈ pre ∨ ∀ u ∈ pre, q u = true → u < v) →
    ((dedupInts l).filter q).Pairwise (· ≤ ·) := by
  intro l
  induction l with
  | nil => intro _ _; simp [dedupInts]
  | cons y l ih =>
    intro q h
    rw [dedupInts]
    have htl : (((dedupInts l).filter fun z => decide (z ≠ y)).filter q).Pairwise (· ≤ ·) := by
      rw [List.filter_filter]
      apply ih
      intro pre v post he hq
      simp only [Bool.and_eq_true, decide_eq_true_eq] at hq
      rcases h (y :: pre) v post (by simp [he]) hq.1 with h' | h'
      · rw [List.mem_cons] at h'
        exact Or.inl (h'.resolve_left hq.2)
      · right; intro u hu hqu
        simp only [Bool.and_eq_true] at hqu
        exact h' u (by simp [hu]) hqu.1
    by_cases hy : q y = true
    · rw [List.filter_cons_of_pos hy, List.pairwise_cons]
      refine ⟨?_, htl⟩
      intro v hv
      rw [List.mem_filter, List.mem_filter, mem_dedupInts, decide_eq_true_eq] at hv
      obtain ⟨⟨hm, hne⟩, hqv⟩ := hv
      obtain ⟨pre, post, he, hnp⟩ := first_occurrence hm
      rcases h (y :: pre) v post (by simp [he]) hqv with h' | h'
      · simp [hne, hnp] at h'
      · have := h' y (by simp) hy; omega
    · rw [List.filter_cons_of_neg hy]; exact htl

/-- A number that appears for the first time is larger than everything before it. -/
def NewIsLarger (l : List Int) : Prop := ∀ pre v post, l = pre ++ v :: post → v ∈ pre ∨ ∀ u ∈ pre, u < v

theorem isSorted_dedup_iff (l : List Int) : isSorted (dedupInts l) = true ↔ NewIsLarger l := by
  rw [isSorted_iff]
  have hall : (dedupInts l).filter (fun _ => true) = dedupInts l := by simp
  constructor
  · intro h pre v post he
    by_cases hv : v ∈ pre
    · exact Or.inl hv
    · right; intro u hu
      subst he
      have := sorted_dedup_le u v pre post (fun _ => true) hv hu rfl rfl (by rw [hall]; exact h)
      have hne : u ≠ v := fun h => hv (h ▸ hu)
      omega
  · intro h
    rw [← hall]
    apply sorted_dedup_of
    intro pre v post he _
    rcases h pre v post he with h | h
    · exact Or.inl h
    · exact Or.inr fun u hu _ => h u hu

/-- Two successive numbers of a chain with the separator in between. -/
def Successive (chain : List (Option Str × Int)) (p : Int) (sep : Str) (v : Int) : Prop :=
  ∃ pre s post, chain = pre ++ (s, p) :: (some sep, v) :: post

theorem consecutive_iff (isRange isWeak isStrong : Str → Bool) (gap : Int) : ∀ (chain : List (Option Str × Int)) (valid : Bool) (p : Int),
    (∀ s v, (some s, v) ∈ chain → isStrong s = false) →
    (consecutiveFrom isRange isWeak isStrong gap valid (some p) chain = true ↔
      valid = true ∧ ∀ q sep v, Successive ((none, p) :: chain) q sep v → isRange sep = false → isWeak sep = true →
        0 < v - q ∧ v - q ≤ gap + 1) := by
  intro chain
  induction chain with
  | nil =>
    intro valid p _
    simp only [consecutiveFrom]
    constructor
    · intro h; refine ⟨h, ?_⟩
      rintro q sep v ⟨pre, s, post, he⟩
      have := congrArg List.length he
      simp at this
      omega
    · exact fun h => h.1
  | cons c chain ih =>
    intro valid p hns
    obtain ⟨sep, v⟩ := c
    have hns' : ∀ s v, (some s, v) ∈ chain → isStrong s = false := fun s v h => hns s v (by simp [h])
    -- the successive pairs: the first, and those of the rest
    have hsucc : ∀ q sp w, Successive ((none, p) :: (sep, v) :: chain) q sp w ↔
        (q = p ∧ sep = some sp ∧ w = v) ∨ Successive ((none, v) :: chain) q sp w := by
      intro q sp w
      constructor
      · rintro ⟨pre, s, post, he⟩
        cases pre with
        | nil =>
          simp only [List.nil_append, List.cons.injEq, Prod.mk.injEq] at he
          exact Or.inl ⟨he.1.2.symm, he.2.1.1, he.2.1.2.symm⟩
        | cons x pre =>
          right
          simp only [List.cons_append, List.cons.injEq] at he
          cases pre with
          | nil =>
            simp only [List.nil_append, List.cons.injEq, Prod.mk.injEq] at he
            exact ⟨[], none, post, by rw [← he.2.1.2]; simp [he.2.2]⟩
          | cons y pre =>
            simp only [List.cons_append, List.cons.injEq] at he
            exact ⟨(none, v) :: pre, s, post, by simp [he.2.2]⟩
      · rintro (⟨rfl, rfl, rfl⟩ | ⟨pre, s, post, he⟩)
        · exact ⟨[], none, chain, rfl⟩
        · cases pre with
          | nil =>
            simp only [List.nil_append, List.cons.injEq, Prod.mk.injEq] at he
            exact ⟨[(none, p)], sep, post, by rw [← he.1.2]; simp [he.2]⟩
          | cons x pre =>
            simp only [List.cons_append, List.cons.injEq] at he
            exact ⟨(none, p) :: (sep, v) :: pre, s, post, by simp [he.2]⟩
    cases sep with
    | none =>
      rw [consecutiveFrom, ih valid v hns']
      simp only [hsucc]
      simp
    | some sp =>
      have hst : isStrong sp = false := hns sp v (by simp)
      rw [consecutiveFrom]
      simp only [hst, Bool.false_eq_true, if_false]
      rw [ih _ v hns']
      simp only [hsucc]
      constructor
      · rintro ⟨h1, h2⟩
        split at h1
        · simp at h1
        · rename_i hc
          refine ⟨h1, ?_⟩
          rintro q sp' w (⟨rfl, hs, rfl⟩ | hh) hr hw
          · cases hs
            simp only [hr, hw, Bool.not_false, Bool.true_and, Bool.not_eq_true', Bool.not_eq_false, Bool.and_eq_true, decide_eq_true_eq] at hc
            exact hc
          · exact h2 q sp' w hh hr hw
      · rintro ⟨h1, h2⟩
        refine ⟨?_, fun q sp' w hh => h2 q sp' w (Or.inr hh)⟩
        split
        · rename_i hc
          simp only [Bool.and_eq_true, Bool.not_eq_true'] at hc
          have := h2 p sp v (Or.inl ⟨rfl, rfl, rfl⟩) hc.1.1 hc.1.2
          have h3 := hc.2
          rw [Bool.and_eq_false_iff, decide_eq_false_iff_not, decide_eq_false_iff_not] at h3
          omega
        · exact h1

/-- Two successive numbers of a chain separated by a weak separator follow each other closely. -/
def WeakIsClose (isRange isWeak : Str → Bool) (gap : Int) (chain : List (Option Str × Int)) : Prop :=
  ∀ p sep v, Successive chain p sep v → isRange sep = false → isWeak sep = true → p < v ∧ v ≤ p + gap + 1

/-- No strong separator in the chain (the first number has none before it). -/
def NoStrong (isStrong : Str → Bool) (chain : List (Option Str × Int)) : Prop := ∀ s v, (some s, v) ∈ chain → isStrong s = false

theorem consecutive_noStrong (isRange isWeak isStrong : Str → Bool) (gap : Int) : ∀ chain, NoStrong isStrong chain →
      (consecutiveFrom isRange isWeak isStrong gap true none chain = true ↔ WeakIsClose isRange isWeak gap chain) := by
  intro chain hc
  cases chain with
  | nil =>
    simp only [consecutiveFrom, true_iff]
    rintro p sep v ⟨pre, s, post, h⟩
    simp at h
  | cons x chain =>
    obtain ⟨sx, vx⟩ := x
    rw [consecutiveFrom, consecutive_iff isRange isWeak isStrong gap chain true vx (fun s v h => hc s v (by simp [h]))]
    have hfirst : ∀ q sp w, Successive ((none, vx) :: chain) q sp w ↔ Successive ((sx, vx) :: chain) q sp w := by
      intro q sp w
      constructor
      · rintro ⟨pre, s, post, h⟩
        cases pre with
        | nil => simp only [List.nil_append, List.cons.injEq, Prod.mk.injEq] at h; exact ⟨[], sx, post, by simp [h.1.2, h.2]⟩
        | cons y pre => simp only [List.cons_append, List.cons.injEq] at h; exact ⟨(sx, vx) :: pre, s, post, by simp [h.2]⟩
      · rintro ⟨pre, s, post, h⟩
        cases pre with
        | nil => simp only [List.nil_append, List.cons.injEq, Prod.mk.injEq] at h; exact ⟨[], none, post, by simp [h.1.2, h.2]⟩
        | cons y pre => simp only [List.cons_append, List.cons.injEq] at h; exact ⟨(none, vx) :: pre, s, post, by simp [h.2]⟩
    simp only [true_and, hfirst]
    constructor
    · intro h p sep v h1 h2 h3; have := h p sep v h1 h2 h3; omega
    · intro h p sep v h1 h2 h3; have := h p sep v h1 h2 h3; omega

/-- C59: what `ordering_validator` accepts is exactly the chains whose new numbers are larger than everything before them
and, in the absence of strong separators, whose weakly separated numbers are close. -/
theorem C59_accepted_iff (isRange isWeak isStrong : Str → Bool) (gap : Int) (seasons episodes : List (Option Str × Int))
    (hs : NoStrong isStrong seasons) (he : NoStrong isStrong episodes) :
    orderingValidator isRange isWeak isStrong gap seasons episodes = true ↔
      NewIsLarger (seasons.map Prod.snd) ∧ NewIsLarger (episodes.map Prod.snd) ∧
      WeakIsClose isRange isWeak gap seasons ∧ WeakIsClose isRange isWeak gap episodes := by
  have hcon := consecutive_noStrong isRange isWeak isStrong gap
  rw [orderingValidator, Bool.and_eq_true, Bool.and_eq_true, Bool.and_eq_true, isSorted_dedup_iff, isSorted_dedup_iff,
    hcon _ hs, hcon _ he]
  constructor
  · rintro ⟨⟨⟨a, b⟩, c⟩, d⟩; exact ⟨a, b, d, c⟩
  · rintro ⟨a, b, c, d⟩; exact ⟨⟨⟨a, b⟩, d⟩, c⟩

/-- A strong separator stands before some number of the chain other than the first. -/
def HasStrong (isStrong : Str → Bool) (chain : List (Option Str × Int)) : Prop :=
  ∃ pre p s v post, chain = pre ++ p :: (some s, v) :: post ∧ isStrong s = true

theorem consecutive_strong (isRange isWeak isStrong : Str → Bool) (gap : Int) :
    ∀ (chain : List (Option Str × Int)) (valid : Bool) (p : Int), (∃ s v, (some s, v) ∈ chain ∧ isStrong s = true) →
      consecutiveFrom isRange isWeak isStrong gap valid (some p) chain = true := by
  intro chain
  induction chain with
  | nil => rintro _ _ ⟨s, v, h, _⟩; simp at h
  | cons x chain ih =>
    rintro valid p ⟨s, v, h, hs⟩
    obtain ⟨sep, w⟩ := x
    rw [List.mem_cons] at h
    cases sep with
    | none =>
      rw [consecutiveFrom]
      rcases h with h | h
      · simp at h
      · exact ih _ _ ⟨s, v, h, hs⟩
    | some sp =>
      rw [consecutiveFrom]
      cases hsp : isStrong sp with
      | true => simp
      | false =>
        simp only [Bool.false_eq_true, if_false]
        rcases h with h | h
        · simp only [Prod.mk.injEq, Option.some.injEq] at h
          rw [h.1, hsp] at hs; exact absurd hs (by decide)
        · exact ih _ _ ⟨s, v, h, hs⟩

/-- C59: the exact condition, strong separators included: a chain is accepted when its new numbers are larger than everything
before them and, unless a strong separator occurs in it, its weakly separated numbers are close. -/
theorem C59_accepted_iff_strong (isRange isWeak isStrong : Str → Bool) (gap : Int) (seasons episodes : List (Option Str × Int)) :
    orderingValidator isRange isWeak isStrong gap seasons episodes = true ↔
      NewIsLarger (seasons.map Prod.snd) ∧ NewIsLarger (episodes.map Prod.snd) ∧
      (HasStrong isStrong seasons ∨ WeakIsClose isRange isWeak gap seasons) ∧
      (HasStrong isStrong episodes ∨ WeakIsClose isRange isWeak gap episodes) := by
  have hcon : ∀ chain, (consecutiveFrom isRange isWeak isStrong gap true none chain = true ↔
      (HasStrong isStrong chain ∨ WeakIsClose isRange isWeak gap chain)) := by
    intro chain
    cases chain with
    | nil =>
      simp only [consecutiveFrom, true_iff]
      right
      rintro p sep v ⟨pre, s, post, h⟩
      simp at h
    | cons x chain =>
      obtain ⟨sx, vx⟩ := x
      by_cases hst : ∃ s v, (some s, v) ∈ chain ∧ isStrong s = true
      · rw [consecutiveFrom, consecutive_strong _ _ _ _ _ _ _ hst]
        simp only [true_iff]
        left
        obtain ⟨s, v, hm, hs⟩ := hst
        obtain ⟨a, b, rfl⟩ := List.append_of_mem hm
        rcases List.eq_nil_or_concat a with rfl | ⟨a', y, rfl⟩
        · exact ⟨[], (sx, vx), s, v, b, rfl, hs⟩
        · exact ⟨(sx, vx) :: a', y, s, v, b, by simp, hs⟩
      · have hno : ¬ HasStrong isStrong ((sx, vx) :: chain) := by
          rintro ⟨pre, p, s, v, post, h, hs⟩
          apply hst
          cases pre with
          | nil => simp only [List.nil_append, List.cons.injEq] at h; exact ⟨s, v, by rw [h.2]; simp, hs⟩
          | cons y pre => simp only [List.cons_append, List.cons.injEq] at h; exact ⟨s, v, by rw [h.2]; simp, hs⟩
        have hns : NoStrong isStrong ((none, vx) :: chain) := by
          intro s v h
          rw [List.mem_cons] at h
          rcases h with h | h
          · simp at h
          · by_contra hc; exact hst ⟨s, v, h, by simpa using hc⟩
        have h2 : consecutiveFrom isRange isWeak isStrong gap true none ((sx, vx) :: chain) =
            consecutiveFrom isRange isWeak isStrong gap true none ((none, vx) :: chain) := by
          rw [consecutiveFrom, consecutiveFrom]
        rw [h2, consecutive_noStrong isRange isWeak isStrong gap _ hns]
        have hfirst : ∀ q sp w, Successive ((none, vx) :: chain) q sp w ↔ Successive ((sx, vx) :: chain) q sp w := by
          intro q sp w
          constructor
          · rintro ⟨pre, s, post, h⟩
            cases pre with
            | nil => simp only [List.nil_append, List.cons.injEq, Prod.mk.injEq] at h; exact ⟨[], sx, post, by simp [h.1.2, h.2]⟩
            | cons y pre => simp only [List.cons_append, List.cons.injEq] at h; exact ⟨(sx, vx) :: pre, s, post, by simp [h.2]⟩
          · rintro ⟨pre, s, post, h⟩
            cases pre with
            | nil => simp only [List.nil_append, List.cons.injEq, Prod.mk.injEq] at h; exact ⟨[], none, post, by simp [h.1.2, h.2]⟩
            | cons y pre => simp only [List.cons_append, List.cons.injEq] at h; exact ⟨(none, vx) :: pre, s, post, by simp [h.2]⟩
        simp only [WeakIsClose, hfirst, hno, false_or]
  rw [orderingValidator, Bool.and_eq_true, Bool.and_eq_true, Bool.and_eq_true, isSorted_dedup_iff, isSorted_dedup_iff, hcon, hcon]
  constructor
  · rintro ⟨⟨⟨a, b⟩, c⟩, d⟩; exact ⟨a, b, d, c⟩
  · rintro ⟨a, b, c, d⟩; exact ⟨⟨⟨a, b⟩, d⟩, c⟩

/-- The strong case is not empty: `1.3&5` with `&` strong is accepted, `1.3.5` is not. -/
example : orderingValidator (fun _ => false) (· == c!".") (· == c!"&") 1 [] [(none, 1), (some c!".", 3), (some c!"&", 7)] = true ∧
    orderingValidator (fun _ => false) (· == c!".") (· == c!"&") 1 [] [(none, 1), (some c!".", 4), (some c!"&", 5)] = true ∧
    orderingValidator (fun _ => false) (· == c!".") (· == c!"&") 1 [] [(none, 1), (some c!".", 4), (some c!".", 5)] = false := by
  decide

/-- C59: in every accepted chain, strong separators or not, a number that appears for the first time is larger than everything
before it. -/
theorem C59_in_order (isRange isWeak isStrong : Str → Bool) (gap : Int) (seasons episodes : List (Option Str × Int))
    (h : orderingValidator isRange isWeak isStrong gap seasons episodes = true) :
    NewIsLarger (seasons.map Prod.snd) ∧ NewIsLarger (episodes.map Prod.snd) := by
  rw [orderingValidator, Bool.and_eq_true, Bool.and_eq_true, Bool.and_eq_true, isSorted_dedup_iff, isSorted_dedup_iff] at h
  exact h.1.1

/-- C59: a chain without repeated numbers is accepted only if it is strictly increasing. -/
theorem C59_increasing (isRange isWeak isStrong : Str → Bool) (gap : Int) (seasons episodes : List (Option Str × Int))
    (hnd : (episodes.map Prod.snd).Nodup) (h : orderingValidator isRange isWeak isStrong gap seasons episodes = true) :
    (episodes.map Prod.snd).Pairwise (· < ·) := by
  have hn := (C59_in_order isRange isWeak isStrong gap seasons episodes h).2
  rw [List.pairwise_iff_getElem]
  intro i j hi hj hij
  generalize episodes.map Prod.snd = l at *
  have hsplit : l = l.take j ++ l[j] :: l.drop (j + 1) := by simp
  rcases hn _ _ _ hsplit with h' | h'
  · exfalso
    rw [hsplit, List.nodup_append] at hnd
    exact hnd.2.2 _ h' _ (List.mem_cons_self ..) rfl
  · exact h' l[i] (List.mem_take_iff_getElem.2 ⟨i, by omega, rfl⟩)

/-- C59, the finding: the order is checked on the distinct values only, so a chain may go back to a number it already had:
`E01-E02-E01` is accepted. -/
theorem C59_repeated_counterexample (isRange isWeak isStrong : Str → Bool) (gap : Int) (sep : Str) (hw : isWeak sep = false)
    (hst : isStrong sep = false) :
    orderingValidator isRange isWeak isStrong gap [] [(none, 1), (some sep, 2), (some sep, 1)] = true := by
  rw [C59_accepted_iff _ _ _ _ _ _ (by intro s v h; simp at h) (by
    intro s v h
    simp at h
    rcases h with ⟨rfl, _⟩ | ⟨rfl, _⟩ <;> exact hst)]
  refine ⟨?_, ?_, ?_, ?_⟩
  · rw [← isSorted_dedup_iff]; rfl
  · rw [← isSorted_dedup_iff]; show isSorted (dedupInts [1, 2, 1]) = true; decide
  · rintro p sp v ⟨pre, s, post, h⟩; simp at h
  · rintro p sp v ⟨pre, s, post, h⟩ _ h3
    have hm : (some sp, v) ∈ [((none : Option Str), (1 : Int)), (some sep, 2), (some sep, 1)] := by rw [h]; simp
    simp at hm
    rcases hm with ⟨rfl, _⟩ | ⟨rfl, _⟩ <;> rw [hw] at h3 <;> exact absurd h3 (by decide)

/-- The hypotheses are met: with `.` weak, `E01.E02` is accepted and `E01.E05` is not (gap 1). -/
example : NoStrong (fun _ => false) [((none : Option Str), (1 : Int)), (some c!".", 2)] ∧
    orderingValidator (fun _ => false) (fun s => s == c!".") (fun _ => false) 1 [] [(none, 1), (some c!".", 2)] = true ∧
    orderingValidator (fun _ => false) (fun s => s == c!".") (fun _ => false) 1 [] [(none, 1), (some c!".", 5)] = false :=
  ⟨fun _ _ _ => rfl, by decide, by decide⟩

/-! ## C60 -/

theorem breaksAt_snoc2 (maxRange : Int) (l : List Int) (a b : Int) :
    breaksAt maxRange (l ++ [a, b]) = decide (((b - a).natAbs : Int) > maxRange) := by
  simp [breaksAt]

/-- Two neighbours in a list. -/
def Neighbours (l : List Int) (a b : Int) : Prop := ∃ pre post, l = pre ++ a :: b :: post

theorem neighbours_snoc {l : List Int} {x a b : Int} (h : Neighbours (l ++ [x]) a b) :
    Neighbours l a b ∨ ∃ pre, l = pre ++ [a] ∧ b = x := by
  obtain ⟨pre, post, he⟩ := h
  rcases List.eq_nil_or_concat post with rfl | ⟨post', y, rfl⟩
  · right
    have : l ++ [x] = (pre ++ [a]) ++ [b] := by rw [he]; simp
    obtain ⟨h1, h2⟩ := List.append_inj' this rfl
    exact ⟨pre, h1, by simpa using h2.symm⟩
  · left
    have : l ++ [x] = (pre ++ a :: b :: post') ++ [y] := by rw [he]; simp
    obtain ⟨h1, _⟩ := List.append_inj' this rfl
    exact ⟨pre, post', h1⟩

theorem chainGrow_inv (em sm : Int) (P : List Int × List Int → Prop)
    (hstep : ∀ (acc : List Int × List Int) (g : Option Int × Option Int), P acc → chainBreaker em sm (acc.1 ++ g.1.toList) (acc.2 ++ g.2.toList) = false →
      P (acc.1 ++ g.1.toList, acc.2 ++ g.2.toList)) :
    ∀ (gs : List (Option Int × Option Int)) (acc : List Int × List Int), P acc → P (chainGrow em sm acc gs) := by
  intro gs
  induction gs with
  | nil => intro acc h; exact h
  | cons g gs ih =>
    intro acc h
    rw [chainGrow]
    split
    · exact ih acc h
    · rename_i hb
      exact ih _ (hstep acc g h (by simpa using hb))

theorem breaks_close {m : Int} {l : List Int} {g : Option Int} (hP : ∀ a b, Neighbours l a b → ((b - a).natAbs : Int) ≤ m)
    (hb : breaksAt m (l ++ g.toList) = false) : ∀ a b, Neighbours (l ++ g.toList) a b → ((b - a).natAbs : Int) ≤ m := by
  intro a b hn
  cases g with
  | none => simp only [Option.toList, List.append_nil] at hn; exact hP a b hn
  | some x =>
    simp only [Option.toList] at hn hb
    rcases neighbours_snoc hn with h | ⟨pre, rfl, rfl⟩
    · exact hP a b h
    · rw [show pre ++ [a] ++ [b] = pre ++ [a, b] by simp, breaksAt_snoc2] at hb
      simpa using hb

/-- C60: in a chain two successive episode numbers, and two successive season numbers, are never further apart than the
configured maximum. -/
theorem C60_chain_is_close (em sm : Int) (gs : List (Option Int × Option Int)) (a b : Int) :
    (Neighbours (chainGrow em sm ([], []) gs).1 a b → ((b - a).natAbs : Int) ≤ em) ∧
    (Neighbours (chainGrow em sm ([], []) gs).2 a b → ((b - a).natAbs : Int) ≤ sm) := by
  have := chainGrow_inv em sm
    (fun acc => (∀ a b, Neighbours acc.1 a b → ((b - a).natAbs : Int) ≤ em) ∧ (∀ a b, Neighbours acc.2 a b → ((b - a).natAbs : Int) ≤ sm))
    (by
      intro acc g hP hb
      simp only [chainBreaker, Bool.or_eq_false_iff] at hb
      exact ⟨breaks_close hP.1 hb.1, breaks_close hP.2 hb.2⟩)
    gs ([], []) (by
      constructor <;> rintro a b ⟨pre, post, h⟩ <;> simp at h)
  exact ⟨this.1 a b, this.2 a b⟩

/-- C60: so a range inside a chain never creates more numbers than the configured maximum. -/
theorem C60_range_is_bounded (em sm : Int) (gs : List (Option Int × Option Int)) (input : Str) (p n : Mt) (a b : Int)
    (hp : p.value input = .int a) (hn : n.value input = .int b) (hh : Neighbours (chainGrow em sm ([], []) gs).1 a b)
    (copies : List Mt) (hc : copiesBetween input p n = some copies) : (copies.length : Int) ≤ em := by
  have hclose := (C60_chain_is_close em sm gs a b).1 hh
  simp only [copiesBetween, intValue, hp, hn, Option.some.injEq] at hc
  subst hc
  simp only [copiesFor, pyRange, List.length_map, List.length_range]
  omega

/-- Numbers are only left out of the chain, never added or reordered; and a chain whose numbers are all close keeps them all. -/
theorem C60_nothing_invented (em sm : Int) (gs : List (Option Int × Option Int)) :
    ((chainGrow em sm ([], []) gs).1.Sublist (gs.filterMap Prod.fst)) ∧ ((chainGrow em sm ([], []) gs).2.Sublist (gs.filterMap Prod.snd)) := by
  have key : ∀ (gs : List (Option Int × Option Int)) (acc : List Int × List Int),
      (chainGrow em sm acc gs).1.Sublist (acc.1 ++ gs.filterMap Prod.fst) ∧
      (chainGrow em sm acc gs).2.Sublist (acc.2 ++ gs.filterMap Prod.snd) := by
    intro gs
    induction gs with
    | nil => intro acc; simp [chainGrow]
    | cons g gs ih =>
      intro acc
      obtain ⟨e, s⟩ := g
      rw [chainGrow]
      split
      · have := ih acc
        constructor
        · refine this.1.trans (List.Sublist.append (List.Sublist.refl _) ?_)
          cases e <;> simp [List.filterMap_cons]
        · refine this.2.trans (List.Sublist.append (List.Sublist.refl _) ?_)
          cases s <;> simp [List.filterMap_cons]
      · have := ih (acc.1 ++ e.toList, acc.2 ++ s.toList)
        constructor
        · refine this.1.trans ?_
          cases e <;> simp [List.filterMap_cons]
        · refine this.2.trans ?_
          cases s <;> simp [List.filterMap_cons]
  simpa using key gs ([], [])

/-- The hypotheses are met: `1, 2, 500, 3` with a maximum of 100 keeps `1, 2, 3`. -/
example : (chainGrow 100 100 ([], []) [(some 1, none), (some 2, none), (some 500, none), (some 3, none)]).1 = [1, 2, 3] := by decide

/-- Two episode matches of a file name joined by the text `-`, but which belong to different patterns. -/
def exFar : Mt × Mt :=
  ({ id := 0, start := 1, stop := 3, istart := 0, name := some c!"episode", val := some (.int 1) },
   { id := 1, start := 5, stop := 9, istart := 4, name := some c!"episode", val := some (.int 1500) })

/-- C60, the finding: the bound does not apply between two patterns: two distinct episode matches joined by the text `-` are
expanded whatever their distance, so `e01-e1500` gives 1500 episodes although the configured maximum is 100. -/
theorem C60_unbounded_counterexample (rs : List Str) (hrs : c!"-" ∈ rs) :
    ∃ a : List Mt × List Mt, pairStep rs c!"episode" c!"e01-e1500" exFar.1 exFar.2 = some a ∧
      (a.2.filter fun m => decide (m.name = some c!"episode")).length = 1499 := by
  have hj : textJoins rs c!"e01-e1500" exFar.1 exFar.2 = true := by
    simp only [textJoins]
    have : (List.drop exFar.1.istop (List.take exFar.2.istart c!"e01-e1500")) = c!"-" := by decide
    rw [this]
    simp [hrs]
  refine ⟨_, by rw [pairStep, if_pos hj]; rfl, ?_⟩
  simp only [List.filter_append, List.length_append]
  rw [List.filter_eq_self.2]
  · simp [copiesFor, pyRange, exFar, sepName]
  · intro m hm
    simp only [copiesFor, List.mem_map] at hm
    obtain ⟨_, _, rfl⟩ := hm
    rfl

end Guessit
