import Verif.Proofs.Groups
import Verif.Proofs.Path

/-!
# Properties C23, C24: markers
-/

namespace Guessit
open Spec

/-! ## C23 -/

/-- The `name_only` option is set. -/
def NameOnly (context : Dict) : Prop := truthy ((context.get? (.str c!"name_only")).getD (.bool false)) = true

/-- C23: the path elements are exactly the maximal slash-free stretches. -/
theorem C23_elements (context : Dict) (s : Str) (h : ¬ NameOnly context) (a b : Int) :
    (a, b) ∈ markPath context s ↔ ∃ i j : Nat, a = i ∧ b = j ∧ IsElement s i j := by
  unfold NameOnly at h
  unfold markPath
  rw [if_neg h]
  obtain ⟨hp, hm⟩ := path_indices s
  rw [mem_consecutive hp]
  simp only [hm]
  constructor
  · rintro ⟨h1, h2, h3, h4⟩
    have ha : 0 ≤ a := by
      rcases h1 with h1 | h1 | ⟨i, c, h1, h5, h6⟩ <;> omega
    have hb : b ≤ s.length := by
      rcases h2 with h2 | h2 | ⟨i, c, h2, h5, h6⟩
      · omega
      · omega
      · have := (List.getElem?_eq_some_iff.1 h5).1; omega
    refine ⟨a.toNat, b.toNat, by omega, by omega, ⟨by omega, by omega, ?_, ?_, ?_⟩⟩
    · intro i c hi1 hi2 hc hsl
      have := h4 i (Or.inr (Or.inr ⟨i, c, rfl, hc, hsl⟩))
      omega
    · rcases h1 with h1 | h1 | ⟨i, c, h1, h5, h6⟩
      · left; omega
      · omega
      · right
        refine ⟨c, ?_, h6⟩
        rw [← h5]; congr 1; omega
    · rcases h2 with h2 | h2 | ⟨i, c, h2, h5, h6⟩
      · omega
      · left; omega
      · right
        refine ⟨c, ?_, h6⟩
        rw [← h5]; congr 1; omega
  · rintro ⟨i, j, rfl, rfl, hel⟩
    have h1 := hel.le
    have h2 := hel.inside
    refine ⟨?_, ?_, by omega, ?_⟩
    · rcases hel.left with h | ⟨c, hc, hs⟩
      · left; omega
      · by_cases hi : i = 0
        · left; omega
        · right; right; exact ⟨i - 1, c, by omega, hc, hs⟩
    · rcases hel.right with h | ⟨c, hc, hs⟩
      · right; left; omega
      · right; right; exact ⟨j, c, rfl, hc, hs⟩
    · rintro x (rfl | rfl | ⟨k, c, rfl, hc, hs⟩)
      · left; omega
      · right; omega
      · by_contra hcon
        exact hel.none k c (by omega) (by omega) hc hs

/-- C23: they come in order and are disjoint (at least one slash apart). -/
theorem C23_ordered (context : Dict) (s : Str) : (markPath context s).Pairwise (fun x y => x.2 < y.1) := by
  unfold markPath
  split
  · simp
  · exact consecutive_pairwise (path_indices s).1

/-- C23: every character that is not a slash lies in exactly one element. -/
theorem C23_cover (context : Dict) (s : Str) (h : ¬ NameOnly context) (i : Nat) (c : Char) (hc : s[i]? = some c)
    (hs : ¬ IsSlash c) : ∃! e, e ∈ markPath context s ∧ e.1 ≤ i ∧ (i : Int) < e.2 := by
  have hi := (List.getElem?_eq_some_iff.1 hc).1
  classical
  -- the elements sit between consecutive indices; find the neighbours of `i`
  have hex : ∃ e, e ∈ markPath context s ∧ e.1 ≤ i ∧ (i : Int) < e.2 := by
    -- greatest slash before `i`, least slash after
    have hL : ∃ a, a ≤ i ∧ (a = 0 ∨ ∃ d, s[a - 1]? = some d ∧ IsSlash d) ∧ ∀ k d, a ≤ k → k ≤ i → s[k]? = some d → ¬ IsSlash d := by
      have : ∀ n, n ≤ i → (∃ a, a ≤ n ∧ (a = 0 ∨ ∃ d, s[a - 1]? = some d ∧ IsSlash d) ∧
          ∀ k d, a ≤ k → k < n → s[k]? = some d → ¬ IsSlash d) := by
        intro n
        induction n with
        | zero => intro _; exact ⟨0, Nat.le_refl _, Or.inl rfl, fun k d h1 h2 => absurd h2 (by omega)⟩
        | succ n ih =>
          intro hn
          obtain ⟨a, h1, h2, h3⟩ := ih (by omega)
          by_cases hsl : ∃ d, s[n]? = some d ∧ IsSlash d
          · exact ⟨n + 1, Nat.le_refl _, Or.inr (by simpa using hsl), fun k d h4 h5 => absurd h5 (by omega)⟩
          · refine ⟨a, by omega, h2, ?_⟩
            intro k d h4 h5 h6 h7
            by_cases hk : k = n
            · subst hk; exact hsl ⟨d, h6, h7⟩
            · exact h3 k d h4 (by omega) h6 h7
      obtain ⟨a, h1, h2, h3⟩ := this i (Nat.le_refl _)
      refine ⟨a, h1, h2, ?_⟩
      intro k d h4 h5 h6
      by_cases hk : k = i
      · subst hk; rw [hc] at h6; cases h6; exact hs
      · exact h3 k d h4 (by omega) h6
    have hR : ∃ b, i < b ∧ b ≤ s.length ∧ (b = s.length ∨ ∃ d, s[b]? = some d ∧ IsSlash d) ∧
        ∀ k d, i ≤ k → k < b → s[k]? = some d → ¬ IsSlash d := by
      have : ∀ n b, b + n = s.length → i < b → (∀ k d, i ≤ k → k < b → s[k]? = some d → ¬ IsSlash d) →
          ∃ b, i < b ∧ b ≤ s.length ∧ (b = s.length ∨ ∃ d, s[b]? = some d ∧ IsSlash d) ∧
            ∀ k d, i ≤ k → k < b → s[k]? = some d → ¬ IsSlash d := by
        intro n
        induction n with
        | zero => intro b h1 h2 h3; exact ⟨b, h2, by omega, Or.inl (by omega), h3⟩
        | succ n ih =>
          intro b h1 h2 h3
          by_cases hsl : ∃ d, s[b]? = some d ∧ IsSlash d
          · exact ⟨b, h2, by omega, Or.inr hsl, h3⟩
          · apply ih (b + 1) (by omega) (by omega)
            intro k d h4 h5 h6 h7
            by_cases hk : k = b
            · subst hk; exact hsl ⟨d, h6, h7⟩
            · exact h3 k d h4 (by omega) h6 h7
      apply this (s.length - (i + 1)) (i + 1) (by omega) (by omega)
      intro k d h1 h2 h3
      have : k = i := by omega
      subst this; rw [hc] at h3; cases h3; exact hs
    obtain ⟨a, ha, hal, han⟩ := hL
    obtain ⟨b, hb, hbl, hbr, hbn⟩ := hR
    refine ⟨((a : Int), (b : Int)), (C23_elements context s h _ _).2 ⟨a, b, rfl, rfl, ⟨by omega, hbl, ?_, hal, hbr⟩⟩, by simp; omega, by simp; omega⟩
    intro k d h1 h2 h3
    by_cases hk : k ≤ i
    · exact han k d h1 hk h3
    · exact hbn k d (by omega) h2 h3
  obtain ⟨e, he, h1, h2⟩ := hex
  refine ⟨e, ⟨he, h1, h2⟩, ?_⟩
  rintro e' ⟨he', h1', h2'⟩
  obtain ⟨ea, eb⟩ := e
  obtain ⟨ea', eb'⟩ := e'
  obtain ⟨x, y, rfl, rfl, hel⟩ := (C23_elements context s h _ _).1 he
  obtain ⟨x', y', rfl, rfl, hel'⟩ := (C23_elements context s h _ _).1 he'
  simp only at h1 h2 h1' h2'
  have e1 : x = x' := by
    by_contra hne
    rcases Nat.lt_or_gt_of_ne hne with hlt | hlt
    · rcases hel'.left with h0 | ⟨d, hd, hsd⟩
      · omega
      · exact hel.none (x' - 1) d (by omega) (by omega) hd hsd
    · rcases hel.left with h0 | ⟨d, hd, hsd⟩
      · omega
      · exact hel'.none (x - 1) d (by omega) (by omega) hd hsd
  have e2 : y = y' := by
    by_contra hne
    have := hel.inside
    have := hel'.inside
    rcases Nat.lt_or_gt_of_ne hne with hlt | hlt
    · rcases hel.right with h0 | ⟨d, hd, hsd⟩
      · omega
      · exact hel'.none y d (by omega) (by omega) hd hsd
    · rcases hel'.right with h0 | ⟨d, hd, hsd⟩
      · omega
      · exact hel.none y' d (by omega) (by omega) hd hsd
  rw [e1, e2]

/-- C23: with `name_only` there is exactly one element, the whole input. -/
theorem C23_name_only (context : Dict) (s : Str) (h : NameOnly context) : markPath context s = [((0 : Int), (s.length : Int))] := by
  unfold NameOnly at h; unfold markPath; rw [if_pos h]

example : markPath [] c!"/a/bc\\d" = [(0, 0), (1, 2), (3, 5), (6, 7)] ∧ ¬ NameOnly [] ∧
    NameOnly [(.str c!"name_only", .bool true)] := by
  refine ⟨by decide, by unfold NameOnly; decide, by unfold NameOnly; decide⟩

/-! ## C24 -/

/-- C24: the groups are exactly the stretches made of an opening bracket, well-balanced text and a closing bracket (the
kind of the brackets is ignored, see `C24_counterexample_bracket_kind`). -/
theorem C24_groups_partial (starting ending s : Str) (hdis : ∀ c ∈ starting, c ∉ ending) (a b : Nat) :
    (a, b) ∈ markGroups starting ending s ↔ IsGroup (fun c => c ∈ starting) (fun c => c ∈ ending) s a b :=
  ⟨fun h => markGroups_sound starting ending hdis s _ h, markGroups_complete starting ending hdis s a b⟩

/-- C24: every group starts on an opening bracket, ends just after a closing bracket and lies inside the input. -/
theorem C24_delimited (starting ending s : Str) (hdis : ∀ c ∈ starting, c ∉ ending) (a b : Nat)
    (h : (a, b) ∈ markGroups starting ending s) :
    a + 2 ≤ b ∧ b ≤ s.length ∧ (∃ o ∈ starting, s[a]? = some o) ∧ ∃ c ∈ ending, s[b - 1]? = some c := by
  obtain ⟨pre, o, w, c, post, hs, ha, hb, ho, hc, _⟩ := (C24_groups_partial starting ending s hdis a b).1 h
  subst hs
  refine ⟨by omega, by simp; omega, ⟨o, ho, ?_⟩, ⟨c, hc, ?_⟩⟩
  · rw [List.getElem?_append_right (by omega)]; simp [ha]
  · rw [List.getElem?_append_right (by omega)]
    have : b - 1 - pre.length = w.length + 1 := by omega
    rw [this, List.getElem?_cons_succ, List.getElem?_append_right (Nat.le_refl _)]; simp

/-- C24: no two groups share an end, and of any two the later one either encloses the earlier one or starts after it
ends (any configuration of brackets). -/
theorem C24_well_nested (starting ending s : Str) :
    (markGroups starting ending s).Pairwise (fun x y => x.2 < y.2 ∧ (y.1 < x.1 ∨ x.2 ≤ y.1)) :=
  (groupsFrom_order starting ending s [] 0 List.Pairwise.nil (by simp)).1

/-- C24: a configuration with as many opening as closing brackets is accepted, any other refused. -/
theorem C24_configuration (starting ending : Str) :
    groupsBuilder starting ending = if starting.length = ending.length then .ok (markGroups starting ending)
      else .error .configuration := by
  unfold groupsBuilder; split <;> simp_all

/-- C24, full statement: in addition, both brackets of a group are of the same kind. -/
def SameKind : Prop := ∀ (starting ending s : Str) (a b : Nat), starting.length = ending.length → (∀ c ∈ starting, c ∉ ending) →
    (a, b) ∈ markGroups starting ending s →
    ∃ (k : Nat) (o c : Char), s[a]? = some o ∧ s[b - 1]? = some c ∧ starting[k]? = some o ∧ ending[k]? = some c

/-- The full statement is false of the code: all kinds of brackets share one stack, so `(a]` is a group. -/
theorem C24_counterexample_bracket_kind : ¬ SameKind := by
  intro h
  obtain ⟨k, o, c, h1, h2, h3, h4⟩ := h c!"([{" c!")]}" c!"(a]" 0 3 rfl (by decide) (by decide)
  cases h1
  cases h2
  match k, h3, h4 with
  | 0, _, h4 => simp at h4
  | 1, h3, _ => simp at h3
  | 2, h3, _ => simp at h3
  | n + 3, h3, _ => simp at h3

example : markGroups c!"([{" c!")]}" c!"[ab](c{d})" = [(0, 4), (6, 9), (4, 10)] ∧ ∀ c ∈ c!"([{", c ∉ c!")]}" := by decide

end Guessit
