import Verif.Model.Regex
import Mathlib.Data.List.Basic

namespace Guessit
namespace Re

variable {s : Str}

theorem mem_eps {i j : Nat} {c c' : Caps} : (j, c') ∈ Re.eps.exec s i c ↔ j = i ∧ c' = c := by
  simp [exec]

theorem mem_chr {p : Char → Bool} {i j : Nat} {c c' : Caps} :
    (j, c') ∈ (Re.chr p).exec s i c ↔ (∃ x, s[i]? = some x ∧ p x = true) ∧ j = i + 1 ∧ c' = c := by
  simp only [exec]
  cases h : s[i]? with
  | none => simp
  | some x =>
    by_cases hp : p x = true
    · simp [hp]
    · simp [hp]

theorem mem_seq {a b : Re} {i j : Nat} {c c' : Caps} :
    (j, c') ∈ (Re.seq a b).exec s i c ↔ ∃ k c1, (k, c1) ∈ a.exec s i c ∧ (j, c') ∈ b.exec s k c1 := by
  simp only [exec, List.mem_flatMap]
  constructor
  · rintro ⟨⟨k, c1⟩, h1, h2⟩; exact ⟨k, c1, h1, h2⟩
  · rintro ⟨k, c1, h1, h2⟩; exact ⟨(k, c1), h1, h2⟩

theorem mem_alt {a b : Re} {i j : Nat} {c c' : Caps} :
    (j, c') ∈ (Re.alt a b).exec s i c ↔ (j, c') ∈ a.exec s i c ∨ (j, c') ∈ b.exec s i c := by
  simp only [exec, List.mem_append]

theorem mem_grp {n : Nat} {r : Re} {i j : Nat} {c c' : Caps} :
    (j, c') ∈ (Re.grp n r).exec s i c ↔ ∃ c1, (j, c1) ∈ r.exec s i c ∧ c' = (n, (i, j)) :: c1 := by
  simp only [exec, List.mem_map]
  constructor
  · rintro ⟨⟨k, c1⟩, h1, h2⟩
    simp only [Prod.mk.injEq] at h2
    obtain ⟨rfl, rfl⟩ := h2
    exact ⟨c1, h1, rfl⟩
  · rintro ⟨c1, h1, rfl⟩; exact ⟨(j, c1), h1, rfl⟩

theorem mem_look {r : Re} {i j : Nat} {c c' : Caps} (h : (j, c') ∈ (Re.look r).exec s i c) :
    j = i ∧ ∃ k, (k, c') ∈ r.exec s i c := by
  simp only [exec] at h
  split at h
  · cases h
  · rename_i x xs hx
    simp only [List.mem_singleton, Prod.mk.injEq] at h
    obtain ⟨rfl, rfl⟩ := h
    exact ⟨rfl, x.1, by rw [hx]; simp⟩

theorem mem_bol {i j : Nat} {c c' : Caps} : (j, c') ∈ Re.bol.exec s i c ↔ i = 0 ∧ j = i ∧ c' = c := by
  simp only [exec]
  split <;> simp_all

theorem mem_eol {i j : Nat} {c c' : Caps} : (j, c') ∈ Re.eol.exec s i c ↔
    (i = s.length ∨ (i + 1 = s.length ∧ s[i]? = some '\n')) ∧ j = i ∧ c' = c := by
  simp only [exec]
  split <;> simp_all

/-! ### repetition of a character class -/

/-- All characters of `[i, j)` exist and satisfy `p`. -/
def AllIn (s : Str) (p : Char → Bool) (i j : Nat) : Prop := ∀ k, i ≤ k → k < j → ∃ x, s[k]? = some x ∧ p x = true

theorem mem_repExec_chr {p : Char → Bool} {f m i j : Nat} {c c' : Caps} :
    (j, c') ∈ repExec (fun i c => (Re.chr p).exec s i c) f m i c ↔
      c' = c ∧ i + m ≤ j ∧ j ≤ i + f ∧ AllIn s p i j := by
  induction f generalizing m i c with
  | zero =>
    simp only [repExec]
    split
    · rename_i h; subst h
      simp only [List.mem_singleton, Prod.mk.injEq]
      constructor
      · rintro ⟨rfl, rfl⟩; exact ⟨rfl, by omega, by omega, fun k h1 h2 => absurd h2 (by omega)⟩
      · rintro ⟨h1, h2, h3, h4⟩; exact ⟨by omega, h1⟩
    · simp only [List.not_mem_nil, false_iff]
      rintro ⟨_, h2, h3, _⟩; omega
  | succ f ih =>
    simp only [repExec, List.mem_append, List.mem_flatMap, List.mem_filter, decide_eq_true_eq]
    constructor
    · rintro (⟨⟨k, c1⟩, ⟨h1, h2⟩, h3⟩ | h)
      · rw [mem_chr] at h1
        obtain ⟨⟨x, hx, hp⟩, rfl, rfl⟩ := h1
        rw [ih] at h3
        obtain ⟨rfl, h4, h5, h6⟩ := h3
        refine ⟨rfl, by omega, by omega, ?_⟩
        intro k hk1 hk2
        by_cases hk : k = i
        · subst hk; exact ⟨x, hx, hp⟩
        · exact h6 k (by omega) hk2
      · split at h
        · simp only [List.mem_singleton, Prod.mk.injEq] at h
          obtain ⟨rfl, rfl⟩ := h
          exact ⟨rfl, by omega, by omega, fun k h1 h2 => absurd h2 (by omega)⟩
        · cases h
    · rintro ⟨rfl, h1, h2, h3⟩
      by_cases hj : j = i
      · right
        rw [if_pos (by omega)]
        simp [hj]
      · left
        refine ⟨(i + 1, c'), ⟨mem_chr.2 ⟨h3 i (by omega) (by omega), rfl, rfl⟩, by simp⟩, ?_⟩
        rw [ih]
        exact ⟨rfl, by omega, by omega, fun k hk1 hk2 => h3 k (by omega) hk2⟩

theorem AllIn.le {p : Char → Bool} {i j : Nat} (h : AllIn s p i j) (hij : i < j) : j ≤ s.length := by
  obtain ⟨x, hx, _⟩ := h (j - 1) (by omega) (by omega)
  have := (List.getElem?_eq_some_iff.1 hx).1
  omega

theorem mem_rep_chr_bounded {p : Char → Bool} {m M i j : Nat} {c c' : Caps} :
    (j, c') ∈ (Re.rep (.chr p) m (some M)).exec s i c ↔ c' = c ∧ i + m ≤ j ∧ j ≤ i + M ∧ AllIn s p i j := by
  simp only [exec, Option.getD_some]
  exact mem_repExec_chr

theorem mem_rep_chr {p : Char → Bool} {m i j : Nat} {c c' : Caps} (hi : i ≤ s.length) :
    (j, c') ∈ (Re.rep (.chr p) m none).exec s i c ↔ c' = c ∧ i + m ≤ j ∧ AllIn s p i j := by
  simp only [exec, Option.getD_none]
  have := @mem_repExec_chr s p (s.length - i) m i j c c'
  simp only [exec] at this
  rw [this]
  constructor
  · rintro ⟨h1, h2, h3, h4⟩; exact ⟨h1, h2, h4⟩
  · rintro ⟨h1, h2, h4⟩
    refine ⟨h1, h2, ?_, h4⟩
    by_cases hij : i < j
    · have := h4.le hij; omega
    · omega

/-- Greedy order: results of a character-class repetition come longest first. -/
theorem repExec_chr_sorted {p : Char → Bool} {f m i : Nat} {c : Caps} :
    (repExec (fun i c => (Re.chr p).exec s i c) f m i c).Pairwise (fun x y => y.1 < x.1) := by
  induction f generalizing m i c with
  | zero => simp only [repExec]; split <;> simp
  | succ f ih =>
    simp only [repExec]
    rw [List.pairwise_append]
    refine ⟨?_, ?_, ?_⟩
    · have hsub : ((Re.chr p).exec s i c).filter (fun r => decide (r.1 ≠ i)) = [] ∨
          ((Re.chr p).exec s i c).filter (fun r => decide (r.1 ≠ i)) = [(i + 1, c)] := by
        simp only [exec]
        cases s[i]? with
        | none => simp
        | some x => by_cases hp : p x = true <;> simp [hp]
      rcases hsub with h | h
      · rw [h]; simp
      · rw [h]; simpa using ih
    · split <;> simp
    · intro x hx y hy
      split at hy
      · simp only [List.mem_singleton] at hy
        subst hy
        obtain ⟨⟨k, c1⟩, h1, h2⟩ := List.mem_flatMap.1 hx
        obtain ⟨xj, xc⟩ := x
        have h1 := (List.mem_filter.1 h1).1
        rw [mem_chr] at h1
        obtain ⟨_, rfl, rfl⟩ := h1
        have := (mem_repExec_chr.1 h2).2.1
        show i < xj
        omega
      · cases hy

theorem head_max {α : Type} {l : List (Nat × α)} (h : l.Pairwise (fun x y => y.1 < x.1)) {x : Nat × α} (hx : l.head? = some x) :
    x ∈ l ∧ ∀ y ∈ l, y.1 ≤ x.1 := by
  cases l with
  | nil => cases hx
  | cons a l =>
    simp only [List.head?_cons, Option.some.injEq] at hx
    subst hx
    obtain ⟨h1, _⟩ := List.pairwise_cons.1 h
    refine ⟨by simp, ?_⟩
    intro y hy
    rcases List.mem_cons.1 hy with rfl | hy
    · exact Nat.le_refl _
    · exact Nat.le_of_lt (h1 y hy)

/-- The first result of a greedy character-class repetition is the longest. -/
theorem rep_chr_head {p : Char → Bool} {m i j : Nat} {c : Caps} (hi : i ≤ s.length) (hm : i + m ≤ j) (hall : AllIn s p i j)
    (hstop : ∀ x, s[j]? = some x → p x = false) : ((Re.rep (.chr p) m none).exec s i c).head? = some (j, c) := by
  have hmem : (j, c) ∈ (Re.rep (.chr p) m none).exec s i c := (mem_rep_chr hi).2 ⟨rfl, hm, hall⟩
  have hsort : ((Re.rep (.chr p) m none).exec s i c).Pairwise (fun x y => y.1 < x.1) := by
    have := @repExec_chr_sorted s p (s.length - i) m i c
    simpa only [exec, Option.getD_none] using this
  cases hh : ((Re.rep (.chr p) m none).exec s i c).head? with
  | none => rw [List.head?_eq_none_iff] at hh; rw [hh] at hmem; cases hmem
  | some x =>
    obtain ⟨k, c'⟩ := x
    obtain ⟨h1, h2⟩ := head_max hsort hh
    obtain ⟨rfl, h3, h4⟩ := (mem_rep_chr hi).1 h1
    have h5 := h2 _ hmem
    simp only at h5
    by_cases hk : k = j
    · rw [hk]
    · obtain ⟨x, hx, hp⟩ := h4 j (by omega) (by omega)
      rw [hstop x hx] at hp; cases hp

theorem head_flatMap {α β : Type} {l : List α} {f : α → List β} {x : α} {y : β} (hx : l.head? = some x)
    (hy : (f x).head? = some y) : (l.flatMap f).head? = some y := by
  cases l with
  | nil => cases hx
  | cons a l =>
    simp only [List.head?_cons, Option.some.injEq] at hx
    subst hx
    rw [List.flatMap_cons, List.head?_append, hy]; rfl

/-! ### search -/

theorem matchAt_mem {r : Re} {i j : Nat} {c : Caps} (h : r.matchAt s i = some (j, c)) : (j, c) ∈ r.exec s i [] :=
  List.mem_of_mem_head? (by unfold matchAt at h; exact h)

theorem matchAt_none {r : Re} {i : Nat} : r.matchAt s i = none ↔ r.exec s i [] = [] := by
  unfold matchAt; exact List.head?_eq_none_iff

theorem searchFrom_some {r : Re} {n i a b : Nat} {c : Caps} (h : r.searchFrom s i n = some (a, b, c)) :
    r.matchAt s a = some (b, c) ∧ i ≤ a ∧ a ≤ i + n ∧ ∀ k, i ≤ k → k < a → r.matchAt s k = none := by
  induction n generalizing i with
  | zero =>
    unfold searchFrom at h
    split at h
    · rename_i j c' hm
      simp only [Option.some.injEq, Prod.mk.injEq] at h
      obtain ⟨rfl, rfl, rfl⟩ := h
      exact ⟨hm, Nat.le_refl _, Nat.le_refl _, fun k h1 h2 => absurd h2 (by omega)⟩
    · cases h
  | succ n ih =>
    unfold searchFrom at h
    split at h
    · rename_i j c' hm
      simp only [Option.some.injEq, Prod.mk.injEq] at h
      obtain ⟨rfl, rfl, rfl⟩ := h
      exact ⟨hm, Nat.le_refl _, by omega, fun k h1 h2 => absurd h2 (by omega)⟩
    · rename_i hm
      obtain ⟨h1, h2, h3, h4⟩ := ih h
      refine ⟨h1, by omega, by omega, ?_⟩
      intro k hk1 hk2
      by_cases hk : k = i
      · subst hk; exact hm
      · exact h4 k (by omega) hk2

theorem searchFrom_none {r : Re} {n i : Nat} (h : r.searchFrom s i n = none) :
    ∀ k, i ≤ k → k ≤ i + n → r.matchAt s k = none := by
  induction n generalizing i with
  | zero =>
    unfold searchFrom at h
    split at h
    · cases h
    · rename_i hm
      intro k h1 h2
      have : k = i := by omega
      subst this; exact hm
  | succ n ih =>
    unfold searchFrom at h
    split at h
    · cases h
    · rename_i hm
      intro k h1 h2
      by_cases hk : k = i
      · subst hk; exact hm
      · exact ih h k (by omega) (by omega)

end Re
end Guessit
