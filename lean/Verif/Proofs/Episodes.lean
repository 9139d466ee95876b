import Verif.Model.Episodes
import Verif.Spec.Episodes
import Verif.Proofs.Matches
import Mathlib.Data.List.Induction

namespace Guessit
open Spec

theorem head_filter_iff {α : Type} (q : α → Bool) (l : List α) (x : α) :
    (l.filter q).head? = some x ↔ FirstOf l (fun y => q y = true) x := by
  induction l with
  | nil => simp [FirstOf]
  | cons a l ih =>
    by_cases ha : q a = true
    · rw [List.filter_cons_of_pos ha]
      constructor
      · intro h
        have : a = x := by simpa using h
        subst this
        exact ⟨[], l, rfl, ha, by simp⟩
      · rintro ⟨pre, post, h1, h2, h3⟩
        cases pre with
        | nil => simp only [List.nil_append, List.cons.injEq] at h1; simp [h1.1]
        | cons b pre =>
          simp only [List.cons_append, List.cons.injEq] at h1
          exact absurd ha (by rw [h1.1]; exact h3 b (by simp))
    · rw [List.filter_cons_of_neg ha, ih]
      constructor
      · rintro ⟨pre, post, h1, h2, h3⟩
        refine ⟨a :: pre, post, by simp [h1], h2, ?_⟩
        intro y hy
        rcases List.mem_cons.1 hy with rfl | hy
        · exact ha
        · exact h3 y hy
      · rintro ⟨pre, post, h1, h2, h3⟩
        cases pre with
        | nil =>
          simp only [List.nil_append, List.cons.injEq] at h1
          rw [h1.1] at ha; exact absurd h2 ha
        | cons b pre =>
          simp only [List.cons_append, List.cons.injEq] at h1
          exact ⟨pre, post, h1.2, h2, fun y hy => h3 y (by simp [hy])⟩

theorem firstOf_congr {α : Type} {l : List α} {P Q : α → Prop} (h : ∀ y ∈ l, P y ↔ Q y) (x : α) :
    FirstOf l P x ↔ FirstOf l Q x := by
  constructor
  · rintro ⟨pre, post, h1, h2, h3⟩
    refine ⟨pre, post, h1, (h x (by simp [h1])).1 h2, fun y hy hq => h3 y hy ((h y (by simp [h1, hy])).2 hq)⟩
  · rintro ⟨pre, post, h1, h2, h3⟩
    refine ⟨pre, post, h1, (h x (by simp [h1])).2 h2, fun y hy hq => h3 y hy ((h y (by simp [h1, hy])).1 hq)⟩

theorem firstOf_mem {α : Type} {l : List α} {P : α → Prop} {x : α} (h : FirstOf l P x) : x ∈ l ∧ P x := by
  obtain ⟨pre, post, h1, h2, _⟩ := h
  exact ⟨by simp [h1], h2⟩

theorem previousFrom_eq (l : List Mt) (k : Nat) : previousFrom l k =
    l.filter fun m => decide (m.stop ≤ k) && decide (∀ y ∈ l, y.stop ≤ k → y.stop ≤ m.stop) := by
  induction k with
  | zero =>
    unfold previousFrom ending
    apply List.filter_congr
    intro m hm
    rw [Bool.eq_iff_iff]
    simp only [decide_eq_true_eq, Bool.and_eq_true]
    constructor
    · intro h; exact ⟨by omega, fun y _ hy => by omega⟩
    · intro h; omega
  | succ k ih =>
    unfold previousFrom
    by_cases he : ending l (k + 1) = []
    · rw [he]
      dsimp only
      rw [ih]
      have hne : ∀ y ∈ l, y.stop ≠ k + 1 := by
        intro y hy hc
        have : y ∈ ending l (k + 1) := by simp [ending, hy, hc]
        rw [he] at this; simp at this
      apply List.filter_congr
      intro m hm
      rw [Bool.eq_iff_iff]
      simp only [decide_eq_true_eq, Bool.and_eq_true]
      constructor
      · rintro ⟨h1, h2⟩
        exact ⟨by omega, fun y hy h3 => h2 y hy (by have := hne y hy; omega)⟩
      · rintro ⟨h1, h2⟩
        exact ⟨by have := hne m hm; omega, fun y hy h3 => h2 y hy (by omega)⟩
    · have hx : ∃ x ∈ l, x.stop = k + 1 := by
        cases hl : ending l (k + 1) with
        | nil => exact absurd hl he
        | cons x xs =>
          have : x ∈ ending l (k + 1) := by rw [hl]; simp
          simp only [ending, List.mem_filter, decide_eq_true_eq] at this
          exact ⟨x, this⟩
      refine Eq.trans (b := ending l (k + 1)) ?_ ?_
      · split
        · rename_i h; exact absurd h he
        · rfl
      unfold ending
      obtain ⟨x, hx1, hx2⟩ := hx
      apply List.filter_congr
      intro m hm
      rw [Bool.eq_iff_iff]
      simp only [decide_eq_true_eq, Bool.and_eq_true]
      constructor
      · intro h; exact ⟨by omega, fun y _ h3 => by omega⟩
      · rintro ⟨h1, h2⟩
        have := h2 x hx1 (by omega); omega

theorem nextFrom_eq (l : List Mt) : ∀ (f i : Nat), nextFrom l f i =
    l.filter fun m => decide (i ≤ m.start) && decide (m.start < i + f) && decide (∀ y ∈ l, i ≤ y.start → m.start ≤ y.start) := by
  intro f
  induction f with
  | zero =>
    intro i
    unfold nextFrom
    symm
    rw [List.filter_eq_nil_iff]
    intro m _
    simp only [Bool.and_eq_true, decide_eq_true_eq]
    omega
  | succ f ih =>
    intro i
    unfold nextFrom
    by_cases he : starting l i = []
    · rw [he]
      dsimp only
      rw [ih]
      have hne : ∀ y ∈ l, y.start ≠ i := by
        intro y hy hc
        have : y ∈ starting l i := by simp [starting, hy, hc]
        rw [he] at this; simp at this
      apply List.filter_congr
      intro m hm
      rw [Bool.eq_iff_iff]
      simp only [decide_eq_true_eq, Bool.and_eq_true]
      constructor
      · rintro ⟨⟨h1, h2⟩, h3⟩
        exact ⟨⟨by omega, by omega⟩, fun y hy h4 => h3 y hy (by have := hne y hy; omega)⟩
      · rintro ⟨⟨h1, h2⟩, h3⟩
        exact ⟨⟨by have := hne m hm; omega, by omega⟩, fun y hy h4 => h3 y hy (by omega)⟩
    · have hx : ∃ x ∈ l, x.start = i := by
        cases hl : starting l i with
        | nil => exact absurd hl he
        | cons x xs =>
          have : x ∈ starting l i := by rw [hl]; simp
          simp only [starting, List.mem_filter, decide_eq_true_eq] at this
          exact ⟨x, this⟩
      refine Eq.trans (b := starting l i) ?_ ?_
      · split
        · rename_i h; exact absurd h he
        · rfl
      unfold starting
      obtain ⟨x, hx1, hx2⟩ := hx
      apply List.filter_congr
      intro m hm
      rw [Bool.eq_iff_iff]
      simp only [decide_eq_true_eq, Bool.and_eq_true]
      constructor
      · intro h; exact ⟨⟨by omega, by omega⟩, fun y _ h3 => by omega⟩
      · rintro ⟨⟨h1, _⟩, h2⟩
        have := h2 x hx1 (by omega); omega

theorem firstTrue_eq {l : List Mt} {p : Mt} (h : ∀ m ∈ l, m.start < m.stop) : firstTrue l = some p ↔ l.head? = some p := by
  cases l with
  | nil => simp [firstTrue]
  | cons m l => simp [firstTrue, h m (by simp)]

theorem previous_iff {l : List Mt} (hwf : ∀ m ∈ l, m.start < m.stop) (q : Mt → Bool) (prop : Str → Prop)
    (hq : ∀ m, q m = true ↔ ∃ n, m.name = some n ∧ prop n) (x p : Mt) :
    firstTrue (previous l x q) = some p ↔ JustBefore l prop x p := by
  have hsub : ∀ m ∈ previous l x q, m.start < m.stop := by
    intro m hm
    rw [previous, previousFrom_eq] at hm
    exact hwf m (by simp at hm; exact hm.1)
  rw [firstTrue_eq hsub, previous, previousFrom_eq, List.filter_filter, head_filter_iff]
  refine firstOf_congr ?_ p
  intro y hy
  simp only [Bool.and_eq_true, decide_eq_true_eq, hq]

theorem next_iff {input : Str} {l : List Mt} (hwf : ∀ m ∈ l, m.start < m.stop) (prop : Str) (x n : Mt) :
    firstTrue (nextOf input l x fun m => m.name = some prop) = some n ↔ JustAfter l prop x n := by
  have hsub : ∀ m ∈ nextOf input l x (fun m => m.name = some prop), m.start < m.stop := by
    intro m hm
    rw [nextOf, nextFrom_eq] at hm
    exact hwf m (by simp at hm; exact hm.1)
  rw [firstTrue_eq hsub, nextOf, nextFrom_eq, List.filter_filter, head_filter_iff]
  refine firstOf_congr ?_ n
  intro y hy
  simp only [Bool.and_eq_true, decide_eq_true_eq]
  constructor
  · rintro ⟨h1, ⟨h2, _⟩, h3⟩
    exact ⟨h1, by omega, fun z hz h => h3 z hz (by omega)⟩
  · rintro ⟨h1, h2, h3⟩
    refine ⟨h1, ⟨by omega, ?_⟩, fun z hz h => h3 z hz (by omega)⟩
    have := (maxEnd_ge input l).2 y hy
    have := hwf y hy
    omega

/-! ### loops -/

theorem collect_some {α : Type} {f : α → Option (List Mt × List Mt)} : ∀ {l : List α} {r : List Mt × List Mt},
    collect f l = some r → (∀ x ∈ l, ∃ y, f x = some y) ∧ r.1 = l.flatMap (fun x => (f x).elim [] Prod.fst) ∧
      r.2 = l.flatMap (fun x => (f x).elim [] Prod.snd) := by
  intro l
  induction l with
  | nil => intro r h; simp only [collect, Option.some.injEq] at h; subst h; simp
  | cons x l ih =>
    intro r h
    simp only [collect] at h
    split at h
    · rename_i a b ha hb
      obtain ⟨h1, h2, h3⟩ := ih hb
      simp only [Option.some.injEq] at h
      subst h
      refine ⟨?_, ?_, ?_⟩
      · intro y hy
        rcases List.mem_cons.1 hy with rfl | hy
        · exact ⟨a, ha⟩
        · exact h1 y hy
      · simp [List.flatMap_cons, ha, h2]
      · simp [List.flatMap_cons, ha, h3]
    · cases h

theorem collect_total {α : Type} {f : α → Option (List Mt × List Mt)} : ∀ {l : List α}, (∀ x ∈ l, ∃ y, f x = some y) →
    ∃ r, collect f l = some r := by
  intro l
  induction l with
  | nil => intro _; exact ⟨_, rfl⟩
  | cons x l ih =>
    intro h
    obtain ⟨y, hy⟩ := h x (by simp)
    obtain ⟨r, hr⟩ := ih (fun z hz => h z (by simp [hz]))
    exact ⟨_, by simp [collect, hy, hr]; rfl⟩

/-- The second loop visits the successive pairs. -/
theorem pairLoop_some (rs : List Str) (prop : Str) (canStart : Mt → Bool) (input : Str) : ∀ (l : List Mt) (p : Mt),
    (∀ m ∈ l, m.start < m.stop) →
    pairLoop rs prop canStart input (some p) l = collect (fun q : Mt × Mt => pairStep rs prop input q.1 q.2) ((p :: l).zip l) := by
  intro l
  induction l with
  | nil => intro p _; rfl
  | cons n l ih =>
    intro p h
    unfold pairLoop
    rw [if_pos (h n (by simp)), ih n (fun m hm => h m (by simp [hm]))]
    rfl

theorem pairLoop_none (rs : List Str) (prop : Str) (canStart : Mt → Bool) (input : Str) : ∀ (l : List Mt),
    (∀ m ∈ l, m.start < m.stop) →
    pairLoop rs prop canStart input none l = collect (fun q : Mt × Mt => pairStep rs prop input q.1 q.2)
      ((l.dropWhile fun m => !canStart m).zip (l.dropWhile fun m => !canStart m).tail) := by
  intro l
  induction l with
  | nil => intro _; rfl
  | cons n l ih =>
    intro h
    have hn : decide (n.start < n.stop) = true := by simp [h n (by simp)]
    unfold pairLoop
    cases hc : canStart n with
    | true =>
      rw [if_pos (by simp [h n (by simp)]), pairLoop_some _ _ _ _ _ _ (fun m hm => h m (by simp [hm]))]
      simp [hc]
    | false =>
      rw [if_neg (by simp), ih (fun m hm => h m (by simp [hm]))]
      simp [hc]

theorem mem_zip_tail {α : Type} {l : List α} {p n : α} : (p, n) ∈ l.zip l.tail ↔ ∃ pre post, l = pre ++ p :: n :: post := by
  induction l with
  | nil => simp
  | cons a l ih =>
    cases l with
    | nil =>
      simp only [List.tail_cons, List.zip_nil_right, List.not_mem_nil, false_iff]
      rintro ⟨pre, post, h⟩
      have := congrArg List.length h
      simp at this; omega
    | cons b l =>
      simp only [List.tail_cons, List.zip_cons_cons, List.mem_cons, Prod.mk.injEq] at ih ⊢
      rw [ih]
      constructor
      · rintro (⟨rfl, rfl⟩ | ⟨pre, post, h⟩)
        · exact ⟨[], l, rfl⟩
        · exact ⟨a :: pre, post, by rw [h]; rfl⟩
      · rintro ⟨pre, post, h⟩
        cases pre with
        | nil => simp only [List.nil_append, List.cons.injEq] at h; exact Or.inl ⟨h.1.symm, h.2.1.symm⟩
        | cons c pre => simp only [List.cons_append, List.cons.injEq] at h; exact Or.inr ⟨pre, post, h.2⟩

theorem successive_iff {l : List Mt} {canStart : Mt → Bool} {p n : Mt} : Successive l canStart p n ↔
    (p, n) ∈ (l.dropWhile fun m => !canStart m).zip (l.dropWhile fun m => !canStart m).tail := by
  rw [mem_zip_tail]
  induction l with
  | nil =>
    constructor
    · rintro ⟨pre, post, h, _⟩; simp at h
    · rintro ⟨pre, post, h⟩; simp at h
  | cons a l ih =>
    cases hc : canStart a with
    | true =>
      rw [List.dropWhile_cons_of_neg (by simp [hc])]
      constructor
      · rintro ⟨pre, post, h, _⟩; exact ⟨pre, post, h⟩
      · rintro ⟨pre, post, h⟩
        refine ⟨pre, post, h, a, ?_, hc⟩
        cases pre with
        | nil => simp only [List.nil_append, List.cons.injEq] at h; simp [h.1]
        | cons c pre => simp only [List.cons_append, List.cons.injEq] at h; simp [h.1]
    | false =>
      rw [List.dropWhile_cons_of_pos (by simp [hc]), ← ih]
      constructor
      · rintro ⟨pre, post, h, q, hq, hqc⟩
        cases pre with
        | nil =>
          simp only [List.nil_append, List.cons.injEq] at h
          simp only [List.nil_append, List.mem_singleton] at hq
          rw [hq, ← h.1, hc] at hqc; cases hqc
        | cons c pre =>
          simp only [List.cons_append, List.cons.injEq] at h
          refine ⟨pre, post, h.2, q, ?_, hqc⟩
          rw [List.cons_append, List.mem_cons] at hq
          rcases hq with hq | hq
          · rw [hq, ← h.1, hc] at hqc; cases hqc
          · exact hq
      · rintro ⟨pre, post, h, q, hq, hqc⟩
        exact ⟨a :: pre, post, by rw [h]; rfl, q, by simp only [List.cons_append, List.mem_cons]; exact Or.inr hq, hqc⟩

theorem textJoins_iff {rs : List Str} {input : Str} {p n : Mt} : textJoins rs input p n = true ↔ RangeText input rs p n := by
  unfold textJoins RangeText
  dsimp only
  split
  · rename_i h; simp only [List.contains_iff_mem] at h ⊢; simp [h]
  · rename_i h; simp only [List.contains_iff_mem] at h ⊢; simp [h]

theorem isRangeSep_iff {rs : List Str} {input : Str} {sep : Mt} :
    isRangeSep input rs sep = true ↔ ∃ r ∈ rs, sep.value input = .str r := by
  unfold isRangeSep
  simp only [List.contains_iff_mem, List.mem_map]
  constructor
  · rintro ⟨r, h1, h2⟩; exact ⟨r, h1, h2.symm⟩
  · rintro ⟨r, h1, h2⟩; exact ⟨r, h1, h2.symm⟩

theorem intValue_iff {input : Str} {m : Mt} {n : Int} : intValue input m = some n ↔ m.value input = .int n := by
  unfold intValue
  cases m.value input <;> simp

/-! ### consequences act separately on matches that `==` separates -/

theorem filter_removeMatch (input : Str) (q : Mt → Bool) (hq : ∀ a b, a.key input = b.key input → q a = q b) (m : Mt) :
    ∀ l, (removeMatch input l m).filter q = if q m then removeMatch input (l.filter q) m else l.filter q := by
  intro l
  induction l with
  | nil => simp [removeMatch]
  | cons x l ih =>
    have hu : ∀ t, removeMatch input (x :: t) m = if Mt.eqv input m x then t else x :: removeMatch input t m := fun _ => rfl
    rw [hu]
    by_cases he : Mt.eqv input m x = true
    · rw [if_pos he]
      have := hq m x (eqv_iff.1 he)
      by_cases hm : q m = true
      · rw [if_pos hm, List.filter_cons_of_pos (by rw [← this]; exact hm), hu, if_pos he]
      · rw [if_neg hm, List.filter_cons_of_neg (by rw [← this]; exact hm)]
    · rw [if_neg he]
      by_cases hx : q x = true
      · rw [List.filter_cons_of_pos hx, List.filter_cons_of_pos hx, ih]
        by_cases hm : q m = true
        · rw [if_pos hm, if_pos hm, hu, if_neg he]
        · rw [if_neg hm, if_neg hm]
      · rw [List.filter_cons_of_neg hx, List.filter_cons_of_neg hx, ih]

theorem filter_removeAll (input : Str) (q : Mt → Bool) (hq : ∀ a b, a.key input = b.key input → q a = q b) :
    ∀ (ms l : List Mt), (removeAll input l ms).filter q = removeAll input (l.filter q) (ms.filter q) := by
  intro ms
  induction ms with
  | nil => intro l; rfl
  | cons m ms ih =>
    intro l
    show (removeAll input (removeMatch input l m) ms).filter q = _
    rw [ih, filter_removeMatch input q hq]
    by_cases hm : q m = true
    · rw [if_pos hm, List.filter_cons_of_pos hm]; rfl
    · rw [if_neg hm, List.filter_cons_of_neg hm]

theorem hasMatch_filter (input : Str) (q : Mt → Bool) (hq : ∀ a b, a.key input = b.key input → q a = q b) (m : Mt) (hm : q m = true)
    (l : List Mt) : hasMatch input (l.filter q) m = hasMatch input l m := by
  rw [Bool.eq_iff_iff, hasMatch_iff, hasMatch_iff]
  constructor
  · rintro ⟨x, h1, h2⟩; exact ⟨x, (List.mem_filter.1 h1).1, h2⟩
  · rintro ⟨x, h1, h2⟩; exact ⟨x, List.mem_filter.2 ⟨h1, by rw [← hq m x h2]; exact hm⟩, h2⟩

theorem filter_appendAll (input : Str) (q : Mt → Bool) (hq : ∀ a b, a.key input = b.key input → q a = q b) :
    ∀ (ms l : List Mt), (appendAll input l ms).filter q = appendAll input (l.filter q) (ms.filter q) := by
  intro ms
  induction ms with
  | nil => intro l; rfl
  | cons m ms ih =>
    intro l
    show (appendAll input (if hasMatch input l m then l else l ++ [m]) ms).filter q = _
    rw [ih]
    by_cases hm : q m = true
    · rw [List.filter_cons_of_pos hm]
      show _ = appendAll input (if hasMatch input (l.filter q) m then l.filter q else l.filter q ++ [m]) (ms.filter q)
      rw [hasMatch_filter input q hq m hm]
      split
      · rfl
      · rw [List.filter_append]; simp [hm]
    · rw [List.filter_cons_of_neg hm]
      split
      · rfl
      · rw [List.filter_append]; simp [hm]

theorem appendAll_append (input : Str) (l a b : List Mt) :
    appendAll input l (a ++ b) = appendAll input (appendAll input l a) b := by simp [appendAll, List.foldl_append]

theorem appendAll_present (input : Str) : ∀ (ms l : List Mt), (∀ m ∈ ms, ∃ x ∈ l, m.key input = x.key input) →
    appendAll input l ms = l := by
  intro ms
  induction ms with
  | nil => intro l _; rfl
  | cons m ms ih =>
    intro l h
    show appendAll input (if hasMatch input l m then l else l ++ [m]) ms = l
    rw [if_pos (hasMatch_iff.2 (h m (by simp)))]
    exact ih l (fun x hx => h x (by simp [hx]))

/-- Appending keeps a list without equal matches without equal matches. -/
theorem appendAll_nodup (input : Str) : ∀ (ms l : List Mt), (l.map (Mt.key input)).Nodup →
    ((appendAll input l ms).map (Mt.key input)).Nodup := by
  intro ms
  induction ms with
  | nil => intro l h; exact h
  | cons m ms ih =>
    intro l h
    show ((appendAll input (if hasMatch input l m then l else l ++ [m]) ms).map (Mt.key input)).Nodup
    apply ih
    split
    · exact h
    · rename_i hh
      rw [List.map_append, List.nodup_append]
      refine ⟨h, by simp, ?_⟩
      intro a ha b hb hab
      simp only [List.map_cons, List.map_nil, List.mem_singleton] at hb
      obtain ⟨x, hx, rfl⟩ := List.mem_map.1 ha
      exact hh (hasMatch_iff.2 ⟨x, hx, by rw [hab, hb]⟩)

/-! ### stable sorting by position -/

theorem insertBy_split {α : Type} (lt : α → α → Bool) (x : α) : ∀ (a c : List α), (∀ y ∈ a, lt x y = false) →
    (∀ y ∈ c, lt x y = true) → insertBy lt x (a ++ c) = a ++ x :: c := by
  intro a
  induction a with
  | nil =>
    intro c _ hc
    cases c with
    | nil => rfl
    | cons y c => simp [insertBy, hc y (by simp)]
  | cons y a ih =>
    intro c ha hc
    simp only [List.cons_append, insertBy]
    rw [ha y (by simp), ih c (fun z hz => ha z (by simp [hz])) hc]
    simp

/-- A stable sort groups by key: the blocks of equal key, each in the original order. -/
theorem sortBy_blocks {α : Type} (lt : α → α → Bool) (f : α → Nat) : ∀ (ks : List Nat) (l : List α), ks.Pairwise (· < ·) →
    (∀ x ∈ l, f x ∈ ks) → (∀ x ∈ l, ∀ y ∈ l, lt x y = decide (f x < f y)) →
    sortBy lt l = ks.flatMap fun k => l.filter fun x => decide (f x = k) := by
  intro ks l hks
  unfold sortBy
  induction l using List.reverseRecOn with
  | nil => intro _ _; simp
  | append_singleton l x ih =>
    intro hmem hlt
    rw [List.foldl_append, ih (fun y hy => hmem y (by simp [hy])) (fun y hy z hz => hlt y (by simp [hy]) z (by simp [hz]))]
    obtain ⟨ka, kb, hk⟩ := List.append_of_mem (hmem x (by simp))
    subst hk
    rw [List.pairwise_append] at hks
    obtain ⟨h1, h2, h3⟩ := hks
    rw [List.pairwise_cons] at h2
    simp only [List.foldl_cons, List.foldl_nil]
    have e1 : ∀ kk : List Nat, f x ∉ kk → (kk.flatMap fun k => (l ++ [x]).filter fun y => decide (f y = k)) =
        kk.flatMap fun k => l.filter fun y => decide (f y = k) := by
      intro kk hno
      induction kk with
      | nil => rfl
      | cons k kk ihk =>
        rw [List.flatMap_cons, List.flatMap_cons, ihk (fun h => hno (by simp [h])), List.filter_append]
        have : f x ≠ k := fun h => hno (by simp [h])
        simp [this]
    rw [List.flatMap_append, List.flatMap_append, List.flatMap_cons, List.flatMap_cons, e1 ka, e1 kb, List.filter_append]
    · have : List.filter (fun y => decide (f y = f x)) [x] = [x] := by simp
      rw [this, ← List.append_assoc, insertBy_split]
      · simp
      · intro y hy
        rw [List.mem_append] at hy
        rcases hy with hy | hy
        · obtain ⟨k, hk1, hk2⟩ := List.mem_flatMap.1 hy
          rw [List.mem_filter] at hk2
          have e : f y = k := by simpa using hk2.2
          have := h3 k hk1 (f x) (by simp)
          rw [hlt x (by simp) y (by simp [hk2.1])]
          simp; omega
        · rw [List.mem_filter] at hy
          have e : f y = f x := by simpa using hy.2
          rw [hlt x (by simp) y (by simp [hy.1])]
          simp; omega
      · intro y hy
        obtain ⟨k, hk1, hk2⟩ := List.mem_flatMap.1 hy
        rw [List.mem_filter] at hk2
        have e : f y = k := by simpa using hk2.2
        have := h2.1 k hk1
        rw [hlt x (by simp) y (by simp [hk2.1])]
        simp; omega
    · intro h; have := h2.1 _ h; omega
    · intro h; have := h3 _ h (f x) (by simp); omega

/-- Filtering commutes with stable sorting. -/
theorem filter_insertBy {α : Type} {lt : α → α → Bool} (h : StrictWeak lt) (q : α → Bool) (x : α) : ∀ (l : List α),
    l.Pairwise (fun a b => lt b a = false) →
    (insertBy lt x l).filter q = if q x then insertBy lt x (l.filter q) else l.filter q := by
  intro l
  induction l with
  | nil => intro _; by_cases hx : q x = true <;> simp [insertBy, hx]
  | cons y l ih =>
    intro hp
    rw [List.pairwise_cons] at hp
    have hu : ∀ t, insertBy lt x (y :: t) = if lt x y then x :: y :: t else y :: insertBy lt x t := fun _ => rfl
    rw [hu]
    by_cases hxy : lt x y = true
    · rw [if_pos hxy]
      have hall : ∀ z ∈ (y :: l).filter q, lt x z = true := by
        intro z hz
        rcases List.mem_cons.1 (List.mem_filter.1 hz).1 with rfl | hz
        · exact hxy
        · have hzy := hp.1 z hz
          cases hh : lt x z with
          | true => rfl
          | false => have := h.trans _ _ _ hzy hh; rw [this] at hxy; cases hxy
      by_cases hx : q x = true
      · rw [if_pos hx, List.filter_cons_of_pos hx]
        have := insertBy_split lt x [] ((y :: l).filter q) (by simp) hall
        simpa using this.symm
      · rw [if_neg hx, List.filter_cons_of_neg hx]
    · rw [if_neg hxy]
      by_cases hy : q y = true
      · rw [List.filter_cons_of_pos hy, List.filter_cons_of_pos hy, ih hp.2]
        split
        · rw [hu, if_neg hxy]
        · rfl
      · rw [List.filter_cons_of_neg hy, List.filter_cons_of_neg hy, ih hp.2]

theorem filter_sortBy {α : Type} {lt : α → α → Bool} (h : StrictWeak lt) (q : α → Bool) (l : List α) :
    (sortBy lt l).filter q = sortBy lt (l.filter q) := by
  induction l using List.reverseRecOn with
  | nil => rfl
  | append_singleton l x ih =>
    have e : ∀ (l : List α) (x : α), sortBy lt (l ++ [x]) = insertBy lt x (sortBy lt l) := by
      intro l x; simp [sortBy, List.foldl_append]
    rw [e, filter_insertBy h q x _ (sortBy_sorted h l), ih, List.filter_append]
    by_cases hx : q x = true
    · rw [if_pos hx]; simp only [List.filter_cons_of_pos hx, List.filter_nil]; rw [e]
    · rw [if_neg hx]; simp [hx]

/-- Repeating the same additions changes nothing. -/
theorem appendAll_chunks (input : Str) {α : Type} (g : α → List Mt) (C : List Mt) (hC : (C.map (Mt.key input)).Nodup) :
    ∀ (cs : List α), (∀ x ∈ cs, g x = [] ∨ g x = C) →
      (∀ l, (∀ m ∈ C, ∃ x ∈ l, m.key input = x.key input) → appendAll input l (cs.flatMap g) = l) ∧
      ((∃ x ∈ cs, g x = C) → appendAll input [] (cs.flatMap g) = C) ∧
      ((¬ ∃ x ∈ cs, g x = C) → appendAll input [] (cs.flatMap g) = []) := by
  intro cs
  induction cs with
  | nil => intro _; simp [appendAll]
  | cons c cs ih =>
    intro h
    obtain ⟨h1, h2, h3⟩ := ih (fun x hx => h x (by simp [hx]))
    refine ⟨?_, ?_, ?_⟩
    · intro l hl
      rw [List.flatMap_cons, appendAll_append]
      rcases h c (by simp) with he | he
      · rw [he]; exact h1 l hl
      · rw [he, appendAll_present input C l hl]; exact h1 l hl
    · intro hex
      rw [List.flatMap_cons, appendAll_append]
      rcases h c (by simp) with he | he
      · rw [he]
        by_cases hcs : ∃ x ∈ cs, g x = C
        · exact h2 hcs
        · have hc : C = [] := by
            obtain ⟨x, hx, hxC⟩ := hex
            rcases List.mem_cons.1 hx with rfl | hx
            · rw [← hxC, he]
            · exact absurd ⟨x, hx, hxC⟩ hcs
          rw [hc]; exact h3 hcs
      · rw [he, appendAll_fresh input C [] (by simp) hC, List.nil_append]
        exact h1 C (fun m hm => ⟨m, hm, rfl⟩)
    · intro hno
      rw [List.flatMap_cons, appendAll_append]
      have hne : g c ≠ C := fun he => hno ⟨c, by simp, he⟩
      have he : g c = [] := (h c (by simp)).resolve_right hne
      rw [he]
      exact h3 (fun ⟨x, hx, hxC⟩ => hno ⟨x, by simp [hx], hxC⟩)

theorem filter_flatMap {α β : Type} (q : β → Bool) (g : α → List β) (l : List α) :
    (l.flatMap g).filter q = l.flatMap fun x => (g x).filter q := by
  induction l with
  | nil => rfl
  | cons x l ih => rw [List.flatMap_cons, List.filter_append, ih, List.flatMap_cons]

theorem filter_start {l : List Mt} (h : l.Pairwise fun a b => a.start < b.start) {e : Mt} (he : e ∈ l) :
    (l.filter fun m => decide (m.start = e.start)) = [e] := by
  induction l with
  | nil => simp at he
  | cons a l ih =>
    rw [List.pairwise_cons] at h
    rcases List.mem_cons.1 he with rfl | he
    · rw [List.filter_cons_of_pos (by simp), List.filter_eq_nil_iff.2]
      intro y hy; have := h.1 y hy; simp; omega
    · have := h.1 e he
      rw [List.filter_cons_of_neg (by simp; omega)]
      exact ih h.2 he

theorem start_inj {l : List Mt} (h : l.Pairwise fun a b => a.start < b.start) {a b : Mt} (ha : a ∈ l) (hb : b ∈ l)
    (he : a.start = b.start) : a = b := by
  have := filter_start h hb
  have hm : a ∈ l.filter fun m => decide (m.start = b.start) := by simp [ha, he]
  rw [this] at hm; simpa using hm

/-- In a list without repetition, a successor has one predecessor. -/
theorem pred_unique {l : List Mt} (h : l.Pairwise fun a b => a.start < b.start) {p p' n : Mt} (h1 : (p, n) ∈ l.zip l.tail)
    (h2 : (p', n) ∈ l.zip l.tail) : p = p' := by
  rw [mem_zip_tail] at h1 h2
  obtain ⟨a, b, e1⟩ := h1
  obtain ⟨a', b', e2⟩ := h2
  have key : ∀ (a a' : List Mt), a ++ p :: n :: b = a' ++ p' :: n :: b' → (a ++ p :: n :: b).Pairwise (fun a b => a.start < b.start) →
      p = p' := by
    intro a
    induction a with
    | nil =>
      intro a' he hp
      cases a' with
      | nil => simp only [List.nil_append, List.cons.injEq] at he; exact he.1
      | cons c a' =>
        simp only [List.nil_append, List.cons_append, List.cons.injEq] at he
        obtain ⟨rfl, he⟩ := he
        cases a' with
        | nil =>
          simp only [List.nil_append, List.cons.injEq] at he
          rw [List.nil_append, List.pairwise_cons, List.pairwise_cons, he.2] at hp
          have := hp.2.1 n (by simp); omega
        | cons d a' =>
          simp only [List.cons_append, List.cons.injEq] at he
          rw [List.nil_append, List.pairwise_cons, List.pairwise_cons, he.2] at hp
          have := hp.2.1 n (by simp); omega
    | cons c a ih =>
      intro a' he hp
      cases a' with
      | nil =>
        simp only [List.nil_append, List.cons_append, List.cons.injEq] at he
        obtain ⟨rfl, he⟩ := he
        rw [List.cons_append, List.pairwise_cons] at hp
        cases a with
        | nil =>
          simp only [List.nil_append, List.cons.injEq] at he
          rw [List.nil_append, he.1, List.pairwise_cons, ] at hp
          have := hp.2.1 n (by simp); omega
        | cons d a =>
          simp only [List.cons_append, List.cons.injEq] at he
          rw [List.cons_append, List.pairwise_cons, he.1] at hp
          have := hp.2.1 n (by simp); omega
      | cons d a' =>
        simp only [List.cons_append, List.cons.injEq] at he
        rw [List.cons_append, List.pairwise_cons] at hp
        exact ih a' he.2 hp.2
  exact key a a' (by rw [← e1, ← e2]) (by rw [← e1]; exact h)

theorem flatMap_congr_mem {α β : Type} {f g : α → List β} : ∀ {l : List α}, (∀ x ∈ l, f x = g x) → l.flatMap f = l.flatMap g := by
  intro l
  induction l with
  | nil => intro _; rfl
  | cons x l ih => intro h; rw [List.flatMap_cons, List.flatMap_cons, h x (by simp), ih (fun y hy => h y (by simp [hy]))]

end Guessit
