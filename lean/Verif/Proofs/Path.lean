import Verif.Spec.Markers
import Verif.Model.Markers
import Mathlib.Data.List.Basic
import Mathlib.Data.List.Sort

namespace Guessit
open Spec

/-! ### find_all of one character -/

theorem findAllFrom_char (x : Char) (s : Str) (i : Nat) :
    (∀ j, j ∈ findAllFrom [x] i 0 s ↔ i ≤ j ∧ s[j - i]? = some x) ∧ (findAllFrom [x] i 0 s).Pairwise (· < ·) := by
  induction s generalizing i with
  | nil => simp [findAllFrom]
  | cons c s ih =>
    obtain ⟨hm, hp⟩ := ih (i + 1)
    simp only [findAllFrom, List.isPrefixOf, Bool.and_true, beq_iff_eq, List.length_singleton, Nat.sub_self]
    have shift : ∀ j, i + 1 ≤ j → (c :: s)[j - i]? = s[j - (i + 1)]? := by
      intro j hj
      have : j - i = (j - (i + 1)) + 1 := by omega
      rw [this, List.getElem?_cons_succ]
    split
    · rename_i hc
      subst hc
      constructor
      · intro j
        rw [List.mem_cons, hm]
        constructor
        · rintro (rfl | ⟨h1, h2⟩)
          · simp
          · exact ⟨by omega, by rw [shift j h1]; exact h2⟩
        · rintro ⟨h1, h2⟩
          by_cases hj : j = i
          · exact Or.inl hj
          · right; exact ⟨by omega, by rw [← shift j (by omega)]; exact h2⟩
      · refine List.pairwise_cons.2 ⟨?_, hp⟩
        intro j hj; have := ((hm j).1 hj).1; omega
    · rename_i hc
      refine ⟨?_, hp⟩
      intro j
      rw [hm]
      constructor
      · rintro ⟨h1, h2⟩; exact ⟨by omega, by rw [shift j h1]; exact h2⟩
      · rintro ⟨h1, h2⟩
        by_cases hj : j = i
        · subst hj; simp at h2; exact absurd h2.symm hc
        · exact ⟨by omega, by rw [← shift j (by omega)]; exact h2⟩

theorem mem_findAll_char (x : Char) (s : Str) (j : Nat) : j ∈ findAll [x] s ↔ s[j]? = some x := by
  have := (findAllFrom_char x s 0).1 j
  simpa [findAll] using this

theorem findAll_char_nodup (x : Char) (s : Str) : (findAll [x] s).Nodup :=
  (findAllFrom_char x s 0).2.imp (fun h => Nat.ne_of_lt h)

/-! ### sorting -/

theorem sortInsert_perm (x : Int) (l : List Int) : (sortInsert x l).Perm (x :: l) := by
  induction l with
  | nil => exact List.Perm.refl _
  | cons y l ih =>
    simp only [sortInsert]
    split
    · exact List.Perm.refl _
    · exact (List.Perm.cons y ih).trans (List.Perm.swap x y l)

theorem sortInsert_sorted (x : Int) (l : List Int) (h : l.Pairwise (· ≤ ·)) : (sortInsert x l).Pairwise (· ≤ ·) := by
  induction l with
  | nil => simp [sortInsert]
  | cons y l ih =>
    obtain ⟨hy, hl⟩ := List.pairwise_cons.1 h
    simp only [sortInsert]
    split
    · rename_i hxy
      refine List.pairwise_cons.2 ⟨?_, h⟩
      intro z hz
      rcases List.mem_cons.1 hz with rfl | hz
      · omega
      · have := hy z hz; omega
    · rename_i hxy
      refine List.pairwise_cons.2 ⟨?_, ih hl⟩
      intro z hz
      rcases List.mem_cons.1 ((sortInsert_perm x l).mem_iff.1 hz) with rfl | hz
      · omega
      · exact hy z hz

theorem sortInts_spec (l : List Int) : (sortInts l).Perm l ∧ (sortInts l).Pairwise (· ≤ ·) := by
  unfold sortInts
  have gen : ∀ (l acc : List Int), acc.Pairwise (· ≤ ·) →
      (l.foldl (fun acc x => sortInsert x acc) acc).Perm (acc ++ l) ∧
      (l.foldl (fun acc x => sortInsert x acc) acc).Pairwise (· ≤ ·) := by
    intro l
    induction l with
    | nil => intro acc h; simpa using h
    | cons x l ih =>
      intro acc h
      obtain ⟨h1, h2⟩ := ih (sortInsert x acc) (sortInsert_sorted x acc h)
      refine ⟨h1.trans ?_, h2⟩
      refine ((sortInsert_perm x acc).append_right l).trans ?_
      simpa using (List.perm_middle (a := x) (l₁ := acc) (l₂ := l)).symm
  simpa using gen l [] List.Pairwise.nil

/-! ### consecutive -/

theorem mem_consecutive {l : List Int} {a b : Int} (hs : l.Pairwise (· < ·)) :
    (a, b) ∈ consecutive l ↔ (a - 1) ∈ l ∧ b ∈ l ∧ a - 1 < b ∧ ∀ x ∈ l, x ≤ a - 1 ∨ b ≤ x := by
  induction l with
  | nil => simp [consecutive]
  | cons x l ih =>
    cases l with
    | nil =>
      simp only [consecutive, List.not_mem_nil, List.mem_singleton, false_iff]
      rintro ⟨h1, h2, h3, _⟩; omega
    | cons y l =>
      obtain ⟨hx, hyl⟩ := List.pairwise_cons.1 hs
      obtain ⟨hy, hl⟩ := List.pairwise_cons.1 hyl
      have hxy := hx y (by simp)
      simp only [consecutive, List.mem_cons, Prod.mk.injEq]
      have ih' := ih hyl
      simp only [List.mem_cons] at ih'
      rw [ih']
      constructor
      · rintro (⟨rfl, rfl⟩ | ⟨h1, h2, h3, h4⟩)
        · refine ⟨Or.inl (by omega), Or.inr (Or.inl rfl), by omega, ?_⟩
          rintro z (rfl | rfl | hz)
          · omega
          · omega
          · have := hy z hz; omega
        · refine ⟨Or.inr h1, Or.inr h2, h3, ?_⟩
          rintro z (rfl | hz)
          · have : y ≤ a - 1 := by
              rcases h1 with rfl | h1
              · omega
              · exact Int.le_of_lt (hy _ h1)
            omega
          · exact h4 z hz
      · rintro ⟨h1, h2, h3, h4⟩
        rcases h1 with h1 | h1
        · left
          have := h4 y (Or.inr (Or.inl rfl))
          refine ⟨by omega, ?_⟩
          rcases h2 with h2 | rfl | h2
          · omega
          · rfl
          · have := hy b h2; omega
        · right
          have hya : y ≤ a - 1 := by
            rcases h1 with h1 | h1
            · omega
            · exact Int.le_of_lt (hy _ h1)
          refine ⟨h1, ?_, h3, fun z hz => h4 z (Or.inr hz)⟩
          rcases h2 with h2 | h2
          · omega
          · exact h2

theorem consecutive_pairwise {l : List Int} (hs : l.Pairwise (· < ·)) :
    (consecutive l).Pairwise (fun x y => x.2 < y.1) := by
  induction l with
  | nil => simp [consecutive]
  | cons x l ih =>
    cases l with
    | nil => simp [consecutive]
    | cons y l =>
      obtain ⟨hx, hyl⟩ := List.pairwise_cons.1 hs
      simp only [consecutive]
      refine List.pairwise_cons.2 ⟨?_, ih hyl⟩
      rintro ⟨a, b⟩ hab
      have h := (mem_consecutive hyl).1 hab
      rcases List.mem_cons.1 h.1 with h1 | h1
      · show y < a; omega
      · have := (List.pairwise_cons.1 hyl).1 _ h1
        show y < a; omega

/-- The sorted indices of `mark_path`. -/
theorem path_indices (s : Str) :
    let l := sortInts ((findAll c!"/" s).map Int.ofNat ++ (findAll c!"\\" s).map Int.ofNat ++ [(-1 : Int), (s.length : Int)])
    l.Pairwise (· < ·) ∧ ∀ x, x ∈ l ↔ x = -1 ∨ x = s.length ∨ ∃ i : Nat, ∃ c, x = i ∧ s[i]? = some c ∧ IsSlash c := by
  intro l
  obtain ⟨hp, hs⟩ := sortInts_spec ((findAll c!"/" s).map Int.ofNat ++ (findAll c!"\\" s).map Int.ofNat ++ [(-1 : Int), (s.length : Int)])
  have lt1 : ∀ j ∈ findAll c!"/" s, j < s.length := fun j hj => (List.getElem?_eq_some_iff.1 ((mem_findAll_char _ _ _).1 hj)).1
  have lt2 : ∀ j ∈ findAll c!"\\" s, j < s.length := fun j hj => (List.getElem?_eq_some_iff.1 ((mem_findAll_char _ _ _).1 hj)).1
  have hnd : ((findAll c!"/" s).map Int.ofNat ++ (findAll c!"\\" s).map Int.ofNat ++ [(-1 : Int), (s.length : Int)]).Nodup := by
    rw [List.nodup_append', List.nodup_append']
    refine ⟨⟨?_, ?_, ?_⟩, ?_, ?_⟩
    · exact (findAll_char_nodup _ _).map (fun a b h => Int.ofNat.inj h)
    · exact (findAll_char_nodup _ _).map (fun a b h => Int.ofNat.inj h)
    · intro x h1 h2
      obtain ⟨i, hi, rfl⟩ := List.mem_map.1 h1
      obtain ⟨j, hj, he⟩ := List.mem_map.1 h2
      have : j = i := Int.ofNat.inj he
      subst this
      rw [mem_findAll_char] at hi hj
      rw [hi] at hj; simp at hj
    · simp
    · intro x h1 h2
      simp only [List.mem_append, List.mem_map] at h1
      simp only [List.mem_cons, List.not_mem_nil, or_false] at h2
      rcases h1 with ⟨i, hi, rfl⟩ | ⟨i, hi, rfl⟩
      · have := lt1 i hi; rcases h2 with h2 | h2 <;> simp at h2; omega
      · have := lt2 i hi; rcases h2 with h2 | h2 <;> simp at h2; omega
  constructor
  · have hnd' := hp.nodup_iff.2 hnd
    exact (hs.and hnd').imp (fun h => lt_of_le_of_ne h.1 h.2)
  · intro x
    show x ∈ sortInts _ ↔ _
    rw [hp.mem_iff]
    simp only [List.mem_append, List.mem_map, mem_findAll_char, List.mem_cons, List.not_mem_nil, or_false]
    constructor
    · rintro ((⟨i, hi, rfl⟩ | ⟨i, hi, rfl⟩) | rfl | rfl)
      · exact Or.inr (Or.inr ⟨i, _, rfl, hi, Or.inl rfl⟩)
      · exact Or.inr (Or.inr ⟨i, _, rfl, hi, Or.inr rfl⟩)
      · exact Or.inl rfl
      · exact Or.inr (Or.inl rfl)
    · rintro (rfl | rfl | ⟨i, c, rfl, hi, rfl | rfl⟩)
      · exact Or.inr (Or.inl rfl)
      · exact Or.inr (Or.inr rfl)
      · exact Or.inl (Or.inl ⟨i, hi, rfl⟩)
      · exact Or.inl (Or.inr ⟨i, hi, rfl⟩)

end Guessit
