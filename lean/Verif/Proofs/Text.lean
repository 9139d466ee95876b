import Verif.Spec.Text
import Mathlib.Data.List.Basic
import Mathlib.Data.List.Forall2

namespace Guessit
open Spec

theorem isSep_iff {c : Char} : isSep c = true ↔ c ∈ seps := by simp [isSep]

theorem isSep_space : isSep ' ' = true := by decide

/-! ### cleanString -/

theorem cleanString_eq (s : Str) : cleanString s = s.map (fun c => if c ∈ cleanChars then ' ' else c) := by
  unfold cleanString
  have gen : ∀ (cs : Str) (f : Char → Char), cs.foldl (fun acc c => replaceChar c ' ' acc) (s.map f) =
      s.map (fun x => if f x ∈ cs then ' ' else f x) := by
    intro cs
    induction cs with
    | nil => intro f; simp
    | cons c cs ih =>
      intro f
      rw [List.foldl_cons, replaceChar, List.map_map, ih]
      apply List.map_congr_left
      intro x _
      simp only [Function.comp, List.mem_cons]
      by_cases h : f x = c
      · simp [h]
      · simp [h]
  simpa using gen cleanChars id

theorem cleanChars_sep {c : Char} (h : c ∈ cleanChars) : isSep c = true := by
  unfold cleanChars at h
  rw [isSep_iff]; exact (List.mem_filter.1 h).1

theorem sep_cases {c : Char} (h : isSep c = true) : c ∈ cleanChars ∨ c ∈ excludedCleanChars := by
  unfold cleanChars
  by_cases hc : c ∈ excludedCleanChars
  · exact Or.inr hc
  · left; rw [List.mem_filter]; exact ⟨isSep_iff.1 h, by simpa using hc⟩

theorem cleanString_length (s : Str) : (cleanString s).length = s.length := by rw [cleanString_eq]; simp

theorem cleanString_get (s : Str) (i : Nat) :
    (cleanString s)[i]? = (s[i]?).map (fun c => if c ∈ cleanChars then ' ' else c) := by
  rw [cleanString_eq]; simp

/-! ### replaceIndices -/

theorem mem_replace {s : Str} {i : Nat} (h : i ∈ replaceIndices s) :
    i ∈ potentialIndices s ∧ ((2 ≤ i ∧ (i - 2) ∈ potentialIndices s) ∨ (i + 2) ∈ potentialIndices s) := by
  unfold replaceIndices at h
  rw [List.mem_filter] at h
  refine ⟨h.1, ?_⟩
  simpa using h.2

theorem mem_potential {s : Str} {i : Nat} (h : i ∈ potentialIndices s) : AfterSingleChar s i := by
  unfold potentialIndices at h
  rw [List.mem_filter, Bool.and_eq_true] at h
  obtain ⟨_, hb, _⟩ := h
  unfold potentialBefore at hb
  simp only [Bool.and_eq_true, decide_eq_true_eq, Option.any_eq_true, Bool.not_eq_true', isSep_iff] at hb
  obtain ⟨⟨⟨h1, c, hc, hcs⟩, y, hy, hys⟩, x, hx, hxs⟩ := hb
  have e0 : pyAt s (i : Int) = s[i]? := by unfold pyAt; simp
  have e1 : pyAt s ((i : Int) - 1) = s[i - 1]? := by
    unfold pyAt; rw [if_pos (by omega)]; congr 1; omega
  rw [e0] at hc
  rw [e1] at hx
  refine ⟨c, x, hc, hcs, h1, hx, ?_, ?_⟩
  · intro hm; rw [← isSep_iff] at hm; rw [hm] at hxs; cases hxs
  · by_cases hi : i = 1
    · exact Or.inl hi
    · right
      refine ⟨y, ?_, hys⟩
      unfold pyAt at hy
      rw [if_pos (by omega)] at hy
      rw [← hy]; congr 1; omega

theorem Spec.AfterSingleChar.lt {s : Str} {i : Nat} (h : AfterSingleChar s i) : i < s.length := by
  obtain ⟨c, _, hc, _⟩ := h
  exact (List.getElem?_eq_some_iff.1 hc).1

/-- A potential separator followed by another position two places later is followed there by the same separator. -/
theorem mem_potential_after {s : Str} {i : Nat} (h : i ∈ potentialIndices s) (hlt : i + 2 < s.length) :
    s[i + 2]? = s[i]? := by
  unfold potentialIndices at h
  rw [List.mem_filter, Bool.and_eq_true] at h
  obtain ⟨_, _, ha⟩ := h
  unfold potentialAfter at ha
  rw [Bool.or_eq_true, decide_eq_true_eq, Bool.and_eq_true, decide_eq_true_eq] at ha
  rcases ha with ha | ha
  · omega
  · exact ha.1

theorem mem_dots {s : Str} {c : Char} (h : c ∈ dots s) : AcronymSep s c := by
  unfold dots at h
  rw [List.mem_filterMap] at h
  obtain ⟨i, hi, hc⟩ := h
  obtain ⟨h1, h2⟩ := mem_replace hi
  rcases h2 with ⟨h2, h3⟩ | h3
  · refine ⟨i, i - 2, Or.inr (by omega), mem_potential h1, mem_potential h3, hc, ?_⟩
    have hl := (mem_potential h1).lt
    have := mem_potential_after h3 (by omega)
    rw [← this, show i - 2 + 2 = i by omega]; exact hc
  · refine ⟨i, i + 2, Or.inl rfl, mem_potential h1, mem_potential h3, hc, ?_⟩
    rw [mem_potential_after h1 (mem_potential h3).lt]; exact hc

/-! ### restored -/

theorem restored_get (s : Str) (i : Nat) :
    (restored s)[i]? = if i ∈ replaceIndices s then s[i]? else (cleanString s)[i]? := by
  unfold restored
  have gen : ∀ (is : List Nat) (l : Str), l.length = s.length → (∀ j ∈ is, j < s.length) →
      (is.foldl (fun l i => match s[i]? with | some c => l.set i c | none => l) l)[i]? =
        if i ∈ is then s[i]? else l[i]? := by
    intro is
    induction is with
    | nil => intro l _ _; simp
    | cons j is ih =>
      intro l hl hlt
      simp only [List.foldl_cons]
      have hj := hlt j (by simp)
      obtain ⟨c, hc⟩ : ∃ c, s[j]? = some c := ⟨_, List.getElem?_eq_getElem hj⟩
      simp only [hc]
      rw [ih _ (by simpa using hl) (fun k hk => hlt k (by simp [hk]))]
      by_cases hi : i ∈ is
      · simp [hi]
      · simp only [hi, if_false, List.mem_cons, or_false]
        by_cases hij : i = j
        · subst hij; rw [if_pos rfl, hc, List.getElem?_set_self (by omega)]
        · rw [if_neg hij, List.getElem?_set_ne (fun h => hij h.symm)]
  exact gen _ _ (cleanString_length s) (fun j hj => (mem_potential (mem_replace hj).1).lt)

theorem restored_get_mem {s : Str} {c : Char} (h : c ∈ restored s) : isSep c = true →
    c = ' ' ∨ c ∈ excludedCleanChars ∨ c ∈ dots s := by
  intro hs
  obtain ⟨i, hi⟩ := List.mem_iff_getElem?.1 h
  rw [restored_get] at hi
  split at hi
  · rename_i hr
    right; right; unfold dots; rw [List.mem_filterMap]; exact ⟨i, hr, hi⟩
  · rw [cleanString_get] at hi
    cases hx : s[i]? with
    | none => rw [hx] at hi; simp at hi
    | some x =>
      rw [hx] at hi
      simp only [Option.map_some, Option.some.injEq] at hi
      split at hi
      · exact Or.inl hi.symm
      · subst hi
        rename_i hx'
        rcases sep_cases hs with h | h
        · exact absurd h hx'
        · exact Or.inr (Or.inl h)

/-- Position by position, `restored` has the same character, or another separator in place of a separator. -/
theorem restored_forall2 (s : Str) : List.Forall₂ (fun a b => a = b ∨ (isSep a = true ∧ isSep b = true)) (restored s) s := by
  have hlen : (restored s).length = s.length := by
    apply Nat.le_antisymm
    · by_contra h
      have h1 := restored_get s s.length
      rw [List.getElem?_eq_getElem (by omega)] at h1
      split at h1
      · simp at h1
      · rw [cleanString_get] at h1; simp at h1
    · by_contra h
      have h1 := restored_get s (restored s).length
      rw [List.getElem?_eq_none (Nat.le_refl _)] at h1
      have hlt : (restored s).length < s.length := by omega
      split at h1
      · rw [List.getElem?_eq_getElem hlt] at h1; cases h1
      · rw [cleanString_get, List.getElem?_eq_getElem hlt] at h1; cases h1
  rw [List.forall₂_iff_get]
  refine ⟨hlen, fun i h1 h2 => ?_⟩
  have h := restored_get s i
  rw [List.getElem?_eq_getElem h1, cleanString_get, List.getElem?_eq_getElem h2] at h
  simp only [List.get_eq_getElem]
  split at h
  · left; simpa using h
  · simp only [Option.map_some, Option.some.injEq] at h
    rw [h]
    split
    · rename_i hc
      exact Or.inr ⟨isSep_space, cleanChars_sep hc⟩
    · exact Or.inl rfl

theorem filter_forall2 {a b : Str} (h : List.Forall₂ (fun a b => a = b ∨ (isSep a = true ∧ isSep b = true)) a b) :
    wordChars a = wordChars b := by
  unfold wordChars
  induction h with
  | nil => rfl
  | cons h _ ih =>
    rcases h with rfl | ⟨h1, h2⟩
    · rw [List.filter_cons, List.filter_cons, ih]
    · rw [isSep_iff] at h1 h2
      rw [List.filter_cons, List.filter_cons, ih]; simp [h1, h2]

/-! ### strip, collapse -/

theorem wordChars_dropWhile (chars s : Str) (h : ∀ c ∈ chars, c ∈ seps) :
    wordChars (s.dropWhile chars.contains) = wordChars s := by
  induction s with
  | nil => rfl
  | cons c s ih =>
    rw [List.dropWhile_cons]
    split
    · rename_i hc
      rw [ih]
      have : c ∈ seps := h c (by simpa using hc)
      simp [wordChars, this]
    · rfl

theorem wordChars_reverse (s : Str) : wordChars s.reverse = (wordChars s).reverse := by
  unfold wordChars; rw [List.filter_reverse]

theorem wordChars_strip (chars s : Str) (h : ∀ c ∈ chars, c ∈ seps) : wordChars (stripChars chars s) = wordChars s := by
  unfold stripChars
  rw [wordChars_reverse, wordChars_dropWhile _ _ h, wordChars_reverse, List.reverse_reverse, wordChars_dropWhile _ _ h]

theorem space_sep : ' ' ∈ seps := by decide

theorem wordChars_collapse (p : Bool) (s : Str) : wordChars (collapseFrom p s) = wordChars s := by
  induction s generalizing p with
  | nil => rfl
  | cons c s ih =>
    simp only [collapseFrom]
    split
    · rename_i hc
      subst hc
      split
      · rw [ih]; simp [wordChars, space_sep]
      · have := ih true
        simp only [wordChars] at this ⊢
        simp only [List.filter_cons, space_sep, not_true, decide_false, Bool.false_eq_true, if_false, this]
    · have := ih false
      simp only [wordChars] at this ⊢
      simp only [List.filter_cons, this]

theorem collapse_mem {p : Bool} {s : Str} {c : Char} (h : c ∈ collapseFrom p s) : c ∈ s := by
  induction s generalizing p with
  | nil => simp [collapseFrom] at h
  | cons x s ih =>
    simp only [collapseFrom] at h
    split at h
    · rename_i hx; subst hx
      split at h
      · exact List.mem_cons_of_mem _ (ih h)
      · rcases List.mem_cons.1 h with rfl | h
        · simp
        · exact List.mem_cons_of_mem _ (ih h)
    · rcases List.mem_cons.1 h with rfl | h
      · simp
      · exact List.mem_cons_of_mem _ (ih h)

theorem collapse_head (s : Str) : (collapseFrom false s).head? = s.head? := by
  cases s with
  | nil => rfl
  | cons c s => simp only [collapseFrom]; split <;> simp_all

theorem collapse_noDouble (p : Bool) (s : Str) :
    (∀ a b, collapseFrom p s ≠ a ++ ' ' :: ' ' :: b) ∧ (p = true → (collapseFrom p s).head? ≠ some ' ') := by
  induction s generalizing p with
  | nil => simp [collapseFrom]
  | cons c s ih =>
    simp only [collapseFrom]
    split
    · split
      · rename_i hp; subst hp; exact ih true
      · rename_i hp
        refine ⟨?_, fun h => absurd h hp⟩
        intro a b h
        cases a with
        | nil =>
          simp only [List.nil_append, List.cons.injEq, true_and] at h
          exact (ih true).2 rfl (by rw [h]; rfl)
        | cons x a =>
          simp only [List.cons_append, List.cons.injEq] at h
          exact (ih true).1 a b h.2
    · rename_i hc
      refine ⟨?_, fun _ => by simpa using hc⟩
      intro a b h
      cases a with
      | nil => simp only [List.nil_append, List.cons.injEq] at h; exact hc h.1
      | cons x a =>
        simp only [List.cons_append, List.cons.injEq] at h
        exact (ih false).1 a b h.2

/-- The last character survives collapsing: the last of a run of spaces stays a space. -/
theorem collapse_getLast (p : Bool) (s : Str) :
    (collapseFrom p s).getLast? = if s.all (· = ' ') && p then none else s.getLast? := by
  induction s generalizing p with
  | nil => simp [collapseFrom]
  | cons c s ih =>
    simp only [collapseFrom]
    by_cases hc : c = ' '
    · subst hc
      simp only [if_true, List.all_cons, decide_true, Bool.true_and]
      cases p with
      | true =>
        simp only [if_true]
        rw [ih]
        by_cases hs : (s.all fun x => decide (x = ' ')) = true
        · simp [hs]
        · cases s with
          | nil => simp at hs
          | cons x s =>
            simp only [hs, Bool.false_and, Bool.false_eq_true, if_false]
            rw [List.getLast?_cons_cons]
      | false =>
        simp only [Bool.false_eq_true, if_false, Bool.and_false]
        rw [List.getLast?_cons, ih]
        by_cases hs : (s.all fun x => decide (x = ' ')) = true
        · simp only [hs, Bool.true_and, if_true, Option.getD_none]
          cases s with
          | nil => rfl
          | cons x s =>
            rw [List.getLast?_cons_cons, List.getLast?_eq_some_getLast (List.cons_ne_nil _ _)]
            have := List.all_eq_true.1 hs _ (List.getLast_mem (List.cons_ne_nil x s))
            simp only [decide_eq_true_eq] at this
            rw [this]
        · simp only [hs, Bool.false_and, Bool.false_eq_true, if_false]
          rw [List.getLast?_cons]
    · simp only [hc, if_false, List.all_cons, decide_false, Bool.false_and, Bool.false_eq_true]
      rw [List.getLast?_cons, ih, List.getLast?_cons]
      simp

theorem dropWhile_head {p : Char → Bool} {s : Str} {c : Char} (h : (s.dropWhile p).head? = some c) : p c = false := by
  induction s with
  | nil => simp at h
  | cons x s ih =>
    rw [List.dropWhile_cons] at h
    split at h
    · exact ih h
    · rename_i hx
      simp only [List.head?_cons, Option.some.injEq] at h
      subst h; simpa using hx

theorem dropWhile_getLast {p : Char → Bool} (s : Str) :
    (s.dropWhile p).getLast? = none ∨ (s.dropWhile p).getLast? = s.getLast? := by
  induction s with
  | nil => exact Or.inl rfl
  | cons x s ih =>
    rw [List.dropWhile_cons]
    split
    · cases s with
      | nil => exact Or.inl rfl
      | cons y s => rw [List.getLast?_cons_cons]; exact ih
    · exact Or.inr rfl

theorem strip_getLast {chars s : Str} {c : Char} (h : (stripChars chars s).getLast? = some c) : c ∉ chars := by
  unfold stripChars at h
  rw [List.getLast?_reverse] at h
  have := dropWhile_head h
  simpa using this

theorem strip_head {chars s : Str} {c : Char} (h : (stripChars chars s).head? = some c) : c ∉ chars := by
  unfold stripChars at h
  rw [List.head?_reverse] at h
  rcases dropWhile_getLast (p := chars.contains) (s.dropWhile chars.contains).reverse with h1 | h1
  · rw [h1] at h; cases h
  · rw [h1, List.getLast?_reverse] at h
    have := dropWhile_head h
    simpa using this

theorem strip_mem {chars s : Str} {c : Char} (h : c ∈ stripChars chars s) : c ∈ s := by
  unfold stripChars at h
  rw [List.mem_reverse] at h
  have h2 := (List.dropWhile_sublist _).subset h
  rw [List.mem_reverse] at h2
  exact (List.dropWhile_sublist _).subset h2

/-! ### iter_words -/

theorem seps_ascii : ∀ c ∈ seps, c.toNat < 128 := by decide

theorem wordTest (c : Char) : (c.toNat < 128 ∧ isSep c = true) ↔ c ∈ seps := by
  rw [isSep_iff]; exact ⟨fun h => h.2, fun h => ⟨seps_ascii c h, h⟩⟩

theorem get_rest {s rest : Str} {i : Nat} {c : Char} (hr : s.drop i = c :: rest) : s[i]? = some c ∧ s.drop (i + 1) = rest := by
  constructor
  · have := List.getElem?_drop (xs := s) (i := i) (j := 0)
    rw [hr] at this; simpa using this.symm
  · rw [← List.drop_drop, hr]; rfl

theorem iterWordsFrom_spec (s rest : Str) (i ls : Nat) (inside : Bool) (hr : s.drop i = rest) (hi : i ≤ s.length)
    (hls : ls ≤ i) (hin : inside = decide (ls < i)) (hall : ∀ j c, ls ≤ j → j < i → s[j]? = some c → c ∉ seps)
    (hleft : ∀ c, 0 < ls → s[ls - 1]? = some c → ¬ c ∉ seps) :
    (∀ a b w, ((a, b), w) ∈ iterWordsFrom s i ls inside rest ↔
      ls ≤ a ∧ IsRun (fun c => c ∉ seps) s a b ∧ w = textOf s a b) ∧
    (iterWordsFrom s i ls inside rest).Pairwise (fun x y => x.1.2 < y.1.1) := by
  induction rest generalizing i ls inside with
  | nil =>
    have hil : s.length = i := by
      have := congrArg List.length hr; simp at this; omega
    have key : ∀ a b, ls ≤ a → IsRun (fun c => c ∉ seps) s a b → a = ls ∧ b = i ∧ ls < i := by
      intro a b ha hrun
      have hb : b = i := by
        by_contra hne
        have hlt : b < i := by have := hrun.le; omega
        have h1 := hrun.right _ (List.getElem?_eq_getElem (by omega : b < s.length))
        exact h1 (hall b _ (by have := hrun.lt; omega) hlt (List.getElem?_eq_getElem (by omega)))
      refine ⟨?_, hb, by have := hrun.lt; omega⟩
      by_contra hne
      have h1 := hrun.left _ (by omega) (List.getElem?_eq_getElem (by have := hrun.lt; have := hrun.le; omega : a - 1 < s.length))
      exact h1 (hall (a - 1) _ (by omega) (by have := hrun.lt; omega) (List.getElem?_eq_getElem (by have := hrun.lt; have := hrun.le; omega)))
    have mk : ls < i → IsRun (fun c => c ∉ seps) s ls i := fun hlt =>
      ⟨hlt, by omega, fun j c h1 h2 h3 => hall j c h1 h2 h3, hleft,
        fun c hc => by rw [List.getElem?_eq_none (by omega)] at hc; cases hc⟩
    subst hin
    simp only [iterWordsFrom]
    by_cases hlt : ls < i
    · simp only [hlt, decide_true, if_true]
      refine ⟨?_, by simp⟩
      intro a b w
      simp only [List.mem_singleton, Prod.mk.injEq]
      constructor
      · rintro ⟨⟨rfl, rfl⟩, rfl⟩; exact ⟨Nat.le_refl _, mk hlt, rfl⟩
      · rintro ⟨h1, h2, rfl⟩
        obtain ⟨rfl, rfl, _⟩ := key a b h1 h2
        exact ⟨⟨rfl, rfl⟩, rfl⟩
    · simp only [hlt, decide_false, Bool.false_eq_true, if_false]
      refine ⟨?_, by simp⟩
      intro a b w
      simp only [List.not_mem_nil, false_iff]
      rintro ⟨h1, h2, _⟩
      exact hlt (key a b h1 h2).2.2
  | cons c rest ih =>
    obtain ⟨hc, hr'⟩ := get_rest hr
    have hilt : i < s.length := (List.getElem?_eq_some_iff.1 hc).1
    simp only [iterWordsFrom]
    by_cases hsep : c ∈ seps
    · rw [if_pos ((wordTest c).2 hsep)]
      have := ih (i + 1) (i + 1) false hr' hilt (Nat.le_refl _) (by simp)
        (fun j c h1 h2 => absurd h1 (by omega))
        (fun c' _ h => by simp only [Nat.add_sub_cancel] at h; rw [hc] at h; cases h; exact fun h => h hsep)
      obtain ⟨hm, hp⟩ := this
      have nocross : ∀ a b, ls ≤ a → IsRun (fun c => c ∉ seps) s a b → (i + 1 ≤ a) ∨ (a = ls ∧ b = i ∧ ls < i) := by
        intro a b ha hrun
        by_cases hai : i + 1 ≤ a
        · exact Or.inl hai
        · right
          have hbi : b ≤ i := by
            by_contra hb
            exact hrun.all i c (by omega) (by omega) hc hsep
          have hb : b = i := by
            by_contra hne
            have hlt : b < i := by omega
            have h1 := hrun.right _ (List.getElem?_eq_getElem (by omega : b < s.length))
            exact h1 (hall b _ (by have := hrun.lt; omega) hlt (List.getElem?_eq_getElem (by omega)))
          refine ⟨?_, hb, by have := hrun.lt; omega⟩
          by_contra hne
          have h1 := hrun.left _ (by omega) (List.getElem?_eq_getElem (by have := hrun.lt; have := hrun.le; omega : a - 1 < s.length))
          exact h1 (hall (a - 1) _ (by omega) (by have := hrun.lt; omega) (List.getElem?_eq_getElem (by have := hrun.lt; have := hrun.le; omega)))
      subst hin
      by_cases hlt : ls < i
      · simp only [hlt, decide_true, if_true]
        constructor
        · intro a b w
          simp only [List.mem_cons, Prod.mk.injEq, hm]
          constructor
          · rintro (⟨⟨rfl, rfl⟩, rfl⟩ | ⟨h1, h2, rfl⟩)
            · refine ⟨Nat.le_refl _, ⟨hlt, by omega, fun j c h1 h2 h3 => hall j c h1 h2 h3, hleft, ?_⟩, rfl⟩
              intro c' hc'; rw [hc] at hc'; cases hc'; exact fun h => h hsep
            · exact ⟨by omega, h2, rfl⟩
          · rintro ⟨h1, h2, rfl⟩
            rcases nocross a b h1 h2 with h | ⟨rfl, rfl, _⟩
            · exact Or.inr ⟨h, h2, rfl⟩
            · exact Or.inl ⟨⟨rfl, rfl⟩, rfl⟩
        · refine List.pairwise_cons.2 ⟨?_, hp⟩
          rintro ⟨⟨a, b⟩, w⟩ hx
          have := ((hm a b w).1 hx).1
          show i < a
          omega
      · simp only [hlt, decide_false, Bool.false_eq_true, if_false]
        refine ⟨?_, hp⟩
        intro a b w
        rw [hm]
        constructor
        · rintro ⟨h1, h2, rfl⟩; exact ⟨by omega, h2, rfl⟩
        · rintro ⟨h1, h2, rfl⟩
          rcases nocross a b h1 h2 with h | ⟨_, _, h⟩
          · exact ⟨h, h2, rfl⟩
          · exact absurd h hlt
    · rw [if_neg (fun h => hsep ((wordTest c).1 h))]
      apply ih (i + 1) ls true hr' hilt (by omega) (by simp; omega) _ hleft
      intro j c' h1 h2 h3
      by_cases hj : j = i
      · subst hj; rw [hc] at h3; cases h3; exact hsep
      · exact hall j c' h1 (by omega) h3

end Guessit
