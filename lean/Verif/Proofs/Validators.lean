import Verif.Model.Validators
import Verif.Spec.Validators
import Verif.Proofs.Episodes
import Verif.Proofs.Text
import Verif.Props.Equivalent

namespace Guessit
open Spec

theorem strip_nil_iff (s : Str) : stripSeps s = [] ↔ ∀ c ∈ s, c ∈ seps := by
  unfold stripSeps
  constructor
  · intro h c hc
    by_contra hn
    have : c ∈ wordChars s := by simp [wordChars, hc, hn]
    rw [← wordChars_strip seps s (fun _ h => h), h] at this
    simp [wordChars] at this
  · intro h
    unfold stripChars
    have : s.dropWhile seps.contains = [] := by
      induction s with
      | nil => rfl
      | cons c s ih =>
        rw [List.dropWhile_cons_of_pos (by simpa using h c (by simp))]
        exact ih fun d hd => h d (by simp [hd])
    rw [this]; rfl

theorem slice_mem {s : Str} {a b : Nat} {c : Char} : c ∈ (s.take b).drop a ↔ ∃ i, a ≤ i ∧ i < b ∧ s[i]? = some c := by
  rw [List.mem_iff_getElem?]
  constructor
  · rintro ⟨i, h⟩
    rw [List.getElem?_drop, List.getElem?_take] at h
    split at h
    · exact ⟨a + i, by omega, by omega, h⟩
    · cases h
  · rintro ⟨i, h1, h2, h3⟩
    refine ⟨i - a, ?_⟩
    rw [List.getElem?_drop, List.getElem?_take, if_pos (by omega)]
    rwa [show a + (i - a) = i by omega]

theorem blank_iff {input : Str} {a b : Nat} : blank input a b = true ↔ OnlySeps input a b := by
  unfold blank OnlySeps
  rw [List.isEmpty_iff, strip_nil_iff]
  constructor
  · intro h i c h1 h2 h3; exact h c (slice_mem.2 ⟨i, h1, h2, h3⟩)
  · intro h c hc
    obtain ⟨i, h1, h2, h3⟩ := slice_mem.1 hc
    exact h i c h1 h2 h3

theorem runsFrom_covers (p : Nat → Bool) : ∀ f i o, (∀ a, o = some a → a < i) →
    (∀ j, i ≤ j → j < i + f → p j = true → ∃ r ∈ runsFrom p f i o, r.1 ≤ j ∧ j < r.2) ∧
    (∀ a, o = some a → ∃ r ∈ runsFrom p f i o, r.1 = a ∧ i ≤ r.2) := by
  intro f
  induction f with
  | zero =>
    intro i o _
    refine ⟨fun j h1 h2 => by omega, ?_⟩
    rintro a rfl
    exact ⟨(a, i), by simp [runsFrom], rfl, Nat.le_refl _⟩
  | succ f ih =>
    intro i o ho
    unfold runsFrom
    cases hp : p i with
    | true =>
      cases o with
      | none =>
        obtain ⟨h1, h2⟩ := ih (i + 1) (some i) (by simp)
        refine ⟨?_, by simp⟩
        intro j hj1 hj2 hj
        by_cases hji : j = i
        · obtain ⟨r, hr, e1, e2⟩ := h2 i rfl
          exact ⟨r, hr, by omega, by omega⟩
        · exact h1 j (by omega) (by omega) hj
      | some a =>
        obtain ⟨h1, h2⟩ := ih (i + 1) (some a) (by intro b hb; cases hb; have := ho a rfl; omega)
        refine ⟨?_, ?_⟩
        · intro j hj1 hj2 hj
          by_cases hji : j = i
          · obtain ⟨r, hr, e1, e2⟩ := h2 a rfl
            have := ho a rfl
            exact ⟨r, hr, by omega, by omega⟩
          · exact h1 j (by omega) (by omega) hj
        · rintro b hb
          cases hb
          obtain ⟨r, hr, e1, e2⟩ := h2 a rfl
          exact ⟨r, hr, e1, by omega⟩
    | false =>
      obtain ⟨h1, _⟩ := ih (i + 1) none (by simp)
      cases o with
      | none =>
        refine ⟨?_, by simp⟩
        intro j hj1 hj2 hj
        have : j ≠ i := by rintro rfl; rw [hp] at hj; cases hj
        exact h1 j (by omega) (by omega) hj
      | some a =>
        refine ⟨?_, ?_⟩
        · intro j hj1 hj2 hj
          have : j ≠ i := by rintro rfl; rw [hp] at hj; cases hj
          obtain ⟨r, hr, hh⟩ := h1 j (by omega) (by omega) hj
          exact ⟨r, by simp [hr], hh⟩
        · rintro b hb; cases hb
          exact ⟨(a, i), by simp, rfl, Nat.le_refl _⟩

theorem hasText_iff {input : Str} {l : List Mt} {a b : Nat} : hasText input l a b = false ↔ NoText input l a b := by
  unfold hasText NoText
  rw [List.any_eq_false]
  constructor
  · intro h i c h1 h2 h3 h4
    have hlen : i < input.length := (List.getElem?_eq_some_iff.1 h3).1
    have hp : (fun i => (atIndex l i).isEmpty) i = true := by
      simp only [List.isEmpty_iff, List.eq_nil_iff_forall_not_mem]
      intro m hm
      simp only [atIndex, List.mem_filter, Bool.and_eq_true, decide_eq_true_eq] at hm
      exact h4 m hm.1 hm.2
    have hm := (maxEnd_ge input l).1
    obtain ⟨r, hr, hr1, hr2⟩ := (runsFrom_covers (fun i => (atIndex l i).isEmpty) (min (maxEnd input l) b - a) a none (by simp)).1 i h1
      (by omega) hp
    have := h _ (List.mem_map.2 ⟨r, hr, rfl⟩)
    change ¬ (!(stripSeps ((input.take r.2).drop r.1)).isEmpty) = true at this
    simp only [Bool.not_eq_true', Bool.not_eq_false] at this
    rw [List.isEmpty_iff, strip_nil_iff] at this
    exact this c (slice_mem.2 ⟨i, hr1, hr2, h3⟩)
  · intro h hole hh
    obtain ⟨e1, e2, e3, e4, e5⟩ := holesOf_spec hh
    rw [e5]
    show ¬ (!(stripSeps ((input.take hole.stop).drop hole.start)).isEmpty) = true
    simp only [Bool.not_eq_true', Bool.not_eq_false]
    rw [List.isEmpty_iff, strip_nil_iff]
    intro c hc
    obtain ⟨i, h1, h2, h3⟩ := slice_mem.1 hc
    refine h i c (by omega) (by omega) h3 ?_
    intro m hm hin
    have := e4 i h1 h2
    rw [List.eq_nil_iff_forall_not_mem] at this
    exact this m (by simp [atIndex, hm, hin])

theorem hasText_iff' {input : Str} {l : List Mt} {a b : Nat} : hasText input l a b = true ↔ ¬ NoText input l a b := by
  rw [← hasText_iff]; simp

theorem sepsBefore_iff {input : Str} {m : Mt} : sepsBefore input m = true ↔ SepBefore input m := by
  unfold sepsBefore SepBefore charsBefore
  split
  · rename_i h; simp [h]
  · rename_i h
    cases hc : input[m.start - 1]? with
    | none => simp [h]
    | some c => simp [h]

theorem sepsAfter_iff {input : Str} {m : Mt} : sepsAfter input m = true ↔ SepAfter input m := by
  unfold sepsAfter SepAfter charsAfter
  split
  · rename_i h; simp [h]
  · rename_i h
    have h' : ¬ input.length ≤ m.stop := h
    cases hc : input[m.stop]? with
    | none => simp [h']
    | some c => simp [h']

/-! ### nearest matches -/

theorem mem_previous {l : List Mt} {x p : Mt} {q : Mt → Bool} : p ∈ previous l x q ↔ ClosestBefore l x p ∧ q p = true := by
  rw [previous, previousFrom_eq]
  simp only [List.mem_filter, Bool.and_eq_true, decide_eq_true_eq]
  rfl

theorem mem_nextOf {input : Str} {l : List Mt} {x n : Mt} {q : Mt → Bool} (hn : n ∈ l → q n = true → n.start < maxEnd input l) :
    n ∈ nextOf input l x q ↔ ClosestAfter l x n ∧ q n = true := by
  rw [nextOf, nextFrom_eq]
  simp only [List.mem_filter, Bool.and_eq_true, decide_eq_true_eq, ClosestAfter]
  constructor
  · rintro ⟨⟨h1, ⟨h2, _⟩, h3⟩, h4⟩
    exact ⟨⟨h1, by omega, fun y hy h => h3 y hy (by omega)⟩, h4⟩
  · rintro ⟨⟨h1, h2, h3⟩, h4⟩
    have := hn h1 h4
    exact ⟨⟨h1, ⟨by omega, by omega⟩, fun y hy h => h3 y hy (by omega)⟩, h4⟩

theorem firstTrue_none {l : List Mt} (h : ∀ m ∈ l, m.start < m.stop) : firstTrue l = none ↔ ∀ m, m ∉ l := by
  cases l with
  | nil => simp [firstTrue]
  | cons m l =>
    simp only [firstTrue, h m (by simp), if_true]
    constructor
    · intro h; cases h
    · intro h; exact absurd (List.mem_cons_self) (h m)

theorem firstTrue_mem {l : List Mt} {p : Mt} (h : firstTrue l = some p) : p ∈ l := by
  cases l with
  | nil => cases h
  | cons m l =>
    simp only [firstTrue] at h
    split at h
    · cases h; simp
    · cases h

theorem closestBefore_stop {l : List Mt} {x p p' : Mt} (h : ClosestBefore l x p) (h' : ClosestBefore l x p') : p.stop = p'.stop :=
  Nat.le_antisymm (h'.2.2 p h.1 h.2.1) (h.2.2 p' h'.1 h'.2.1)

theorem closestAfter_start {l : List Mt} {x p p' : Mt} (h : ClosestAfter l x p) (h' : ClosestAfter l x p') : p.start = p'.start :=
  Nat.le_antisymm (h.2.2 p' h'.1 h'.2.1) (h'.2.2 p h.1 h.2.1)

section
variable {input : Str} {l : List Mt} {q : Mt → Bool} (hq : ∀ m ∈ l, q m = true → m.start < m.stop)
include hq

/-- The match the code looks at before `x`, used through a property of where it ends. -/
theorem firstPrev' {x : Mt} {T : Nat → Prop} :
    (∃ p, firstTrue (previous l x q) = some p ∧ T p.stop) ↔ ∃ p, ClosestBefore l x p ∧ q p = true ∧ T p.stop := by
  constructor
  · rintro ⟨p, h1, h2⟩
    obtain ⟨h3, h4⟩ := mem_previous.1 (firstTrue_mem h1)
    exact ⟨p, h3, h4, h2⟩
  · rintro ⟨p, h1, h2, h3⟩
    cases hf : firstTrue (previous l x q) with
    | none =>
      exact absurd (mem_previous.2 ⟨h1, h2⟩)
        ((firstTrue_none (fun m hm => hq m (mem_previous.1 hm).1.1 (mem_previous.1 hm).2)).1 hf p)
    | some p' =>
      exact ⟨p', rfl, by rw [← closestBefore_stop h1 (mem_previous.1 (firstTrue_mem hf)).1]; exact h3⟩

theorem start_lt_maxEnd (n : Mt) (hn : n ∈ l) (hqn : q n = true) : n.start < maxEnd input l := by
  have := (maxEnd_ge input l).2 n hn
  have := hq n hn hqn
  omega

theorem firstNext' {x : Mt} {T : Nat → Prop} :
    (∃ n, firstTrue (nextOf input l x q) = some n ∧ T n.start) ↔ ∃ n, ClosestAfter l x n ∧ q n = true ∧ T n.start := by
  have hm : ∀ n, n ∈ nextOf input l x q ↔ ClosestAfter l x n ∧ q n = true := fun n => mem_nextOf (start_lt_maxEnd hq n)
  constructor
  · rintro ⟨p, h1, h2⟩
    obtain ⟨h3, h4⟩ := (hm p).1 (firstTrue_mem h1)
    exact ⟨p, h3, h4, h2⟩
  · rintro ⟨p, h1, h2, h3⟩
    cases hf : firstTrue (nextOf input l x q) with
    | none =>
      exact absurd ((hm p).2 ⟨h1, h2⟩)
        ((firstTrue_none (fun m hm' => hq m ((hm m).1 hm').1.1 ((hm m).1 hm').2)).1 hf p)
    | some p' =>
      exact ⟨p', rfl, by rw [← closestAfter_start h1 ((hm p').1 (firstTrue_mem hf)).1]; exact h3⟩

end

section
variable {input : Str} {l : List Mt} (hwf : ∀ m ∈ l, m.start < m.stop)
include hwf

theorem firstPrev {x : Mt} {q : Mt → Bool} {T : Nat → Prop} :
    (∃ p, firstTrue (previous l x q) = some p ∧ T p.stop) ↔ ∃ p, ClosestBefore l x p ∧ q p = true ∧ T p.stop :=
  firstPrev' fun m hm _ => hwf m hm

theorem firstNext {x : Mt} {q : Mt → Bool} {T : Nat → Prop} :
    (∃ n, firstTrue (nextOf input l x q) = some n ∧ T n.start) ↔ ∃ n, ClosestAfter l x n ∧ q n = true ∧ T n.start :=
  firstNext' fun m hm _ => hwf m hm

theorem firstPrev_none {x : Mt} {q : Mt → Bool} :
    (firstTrue (previous l x q)).isNone = true ↔ ¬ ∃ p, ClosestBefore l x p ∧ q p = true := by
  have := firstPrev hwf (x := x) (q := q) (T := fun _ => True)
  simp only [and_true] at this
  rw [← this]
  cases firstTrue (previous l x q) <;> simp

omit hwf in
theorem prev_empty {x : Mt} {q : Mt → Bool} : (previous l x q).isEmpty = true ↔ ¬ ∃ p, ClosestBefore l x p ∧ q p = true := by
  rw [List.isEmpty_iff, List.eq_nil_iff_forall_not_mem]
  simp only [mem_previous, not_exists]

theorem next_empty {x : Mt} {q : Mt → Bool} : (nextOf input l x q).isEmpty = true ↔ ¬ ∃ p, ClosestAfter l x p ∧ q p = true := by
  rw [List.isEmpty_iff, List.eq_nil_iff_forall_not_mem]
  simp only [fun n => mem_nextOf (input := input) (x := x) (q := q)
    (start_lt_maxEnd (input := input) (fun m hm _ => hwf m hm) n), not_exists]

theorem range_empty {a b : Nat} {q : Mt → Bool} : (rangeOf input l a b q).isEmpty = true ↔
    ¬ ∃ m ∈ l, m.start < b ∧ a < m.stop ∧ q m = true := by
  rw [List.isEmpty_iff, List.eq_nil_iff_forall_not_mem]
  constructor
  · rintro h ⟨m, h1, h2⟩
    exact h m ((mem_rangeOf' (hwf m h1)).2 ⟨h1, h2⟩)
  · intro h m hm
    have := mem_rangeOf.1 hm
    exact h ⟨m, this.1, this.2.2⟩

theorem mem_range {a b : Nat} {q : Mt → Bool} {m : Mt} : m ∈ rangeOf input l a b q ↔
    m ∈ l ∧ m.start < b ∧ a < m.stop ∧ q m = true := by
  constructor
  · intro hm
    have := mem_rangeOf.1 hm
    exact ⟨this.1, this.2.2⟩
  · intro h; exact (mem_rangeOf' (hwf m h.1)).2 h

end

/-! ### dropping -/

theorem key_inj {s : Ms} (h : Sound s) {x y : Mt} (hx : x ∈ s.live) (hy : y ∈ s.live) (hk : y.key s.input = x.key s.input) : y = x := by
  have := h.distinct
  obtain ⟨live, rfl⟩ : ∃ l, s.live = l := ⟨_, rfl⟩
  generalize s.live = l at *
  induction l with
  | nil => simp at hx
  | cons a l ih =>
    simp only [List.map_cons, List.nodup_cons, List.mem_map, not_exists, not_and] at this
    rw [List.mem_cons] at hx hy
    rcases hx with hx | hx <;> rcases hy with hy | hy
    · rw [hx, hy]
    · subst hx; exact absurd hk (this.1 y hy)
    · subst hy; exact absurd hk.symm (this.1 x hx)
    · exact ih hx hy this.2

theorem drops_keys {s : Ms} (h : Sound s) (ms : List Mt) :
    Drops s (dropping s ms) fun x => ∃ y ∈ ms, y.key s.input = x.key s.input where
  input := rfl
  markers := rfl
  order := removeAll_sublist _ _ _
  bad := by
    intro x hx
    show x ∈ removeAll s.input s.live ms ↔ _
    rw [mem_removeAll_nodup h.distinct]
    simp [hx]

theorem drops_keys' {s : Ms} (h : Sound s) {ms : List Mt} {Bad : Mt → Prop}
    (hb : ∀ x ∈ s.live, (∃ y ∈ ms, y.key s.input = x.key s.input) ↔ Bad x) : Drops s (dropping s ms) Bad :=
  ⟨rfl, rfl, removeAll_sublist _ _ _, fun x hx => ((drops_keys h ms).bad x hx).trans (not_congr (hb x hx))⟩

theorem drops_mem {s : Ms} (h : Sound s) {ms : List Mt} (hms : ∀ m ∈ ms, m ∈ s.live) {Bad : Mt → Prop}
    (hb : ∀ x ∈ s.live, x ∈ ms ↔ Bad x) : Drops s (dropping s ms) Bad where
  input := rfl
  markers := rfl
  order := removeAll_sublist _ _ _
  bad := by
    intro x hx
    rw [(drops_keys h ms).bad x hx, ← hb x hx]
    refine not_congr ⟨?_, fun h => ⟨x, h, rfl⟩⟩
    rintro ⟨y, hy, hk⟩
    rwa [← key_inj h hx (hms y hy) hk]

/-- A drop of the matches named `n` that satisfy `q`. -/
theorem drops_filter {s : Ms} (h : Sound s) (q : Mt → Bool) {Bad : Mt → Prop} (hb : ∀ x ∈ s.live, q x = true ↔ Bad x) :
    Drops s (dropping s (s.live.filter q)) Bad :=
  drops_mem h (fun m hm => (List.mem_filter.1 hm).1) fun x hx => by simp [hx, hb x hx]

theorem drops_named {s : Ms} (h : Sound s) (n : Str) (q : Mt → Bool) {Bad : Mt → Prop}
    (hb : ∀ x ∈ s.live, (x.name = some n ∧ q x = true) ↔ Bad x) :
    Drops s (dropping s ((named s.live n).filter q)) Bad :=
  drops_mem h (fun m hm => (mem_named.1 (List.mem_filter.1 hm).1).1) fun x hx => by
    rw [← hb x hx, List.mem_filter, mem_named]; simp [hx]

end Guessit
