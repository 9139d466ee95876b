import Verif.Props.EngineTrace

/-! # The numbers that the range rules add are between others -/

namespace Guessit
open Spec

/-- What a range rule leaves: an old match, a copy of an old one with a number between those of two old ones, or a separator. -/
def RangeFills (prop : Str) (input : Str) (l : List Mt) (m : Mt) : Prop := m ∈ l ∨ m.name = some (sepName prop) ∨
  ∃ p ∈ l, ∃ n ∈ l, p.name = some prop ∧ n.name = some prop ∧ ∃ a b j : Int, p.value input = .int a ∧ n.value input = .int b ∧ a < j ∧ j < b ∧
    m = { n with val := some (.int j) }

theorem intValue_some {input : Str} {m : Mt} {k : Int} (h : intValue input m = some k) : m.value input = .int k := by
  unfold intValue at h
  split at h
  · rename_i n hn
    cases h
    exact hn
  · cases h

theorem mem_pyRange {a b k : Int} (h : k ∈ pyRange a b) : a ≤ k ∧ k < b := by
  obtain ⟨i, hi, rfl⟩ := List.mem_map.1 h
  have := List.mem_range.1 hi
  omega

theorem copies_between {input : Str} {p n : Mt} {l : List Mt} (h : copiesBetween input p n = some l) {m : Mt} (hm : m ∈ l) :
    ∃ a b j : Int, p.value input = .int a ∧ n.value input = .int b ∧ a < j ∧ j < b ∧ m = { n with val := some (.int j) } := by
  unfold copiesBetween at h
  split at h
  · rename_i a b ha hb
    cases h
    obtain ⟨k, hk, rfl⟩ := List.mem_map.1 hm
    have := mem_pyRange hk
    exact ⟨a, b, k, intValue_some ha, intValue_some hb, by omega, by omega, rfl⟩
  · cases h

theorem sepStep_fills {rs : List Str} {prop : Str} {s : Ms} {sep : Mt} {r : List Mt × List Mt} (h : sepStep rs prop s sep = some r) :
    ∀ m ∈ r.2, RangeFills prop s.input s.live m := by
  unfold sepStep at h
  split at h
  · rename_i p n hp hn
    have hp' := mem_previous.1 (Guessit.firstTrue_mem hp)
    have hn' := List.mem_filter.1 (Guessit.firstTrue_mem hn)
    have hnl : n ∈ s.live := nextFrom_mem hn'.1
    have hnn : n.name = some prop := of_decide_eq_true hn'.2
    have hpl : p ∈ s.live := hp'.1.1
    have hpn : p.name = some prop := of_decide_eq_true hp'.2
    split at h
    · cases hc : copiesBetween s.input p n with
      | none => rw [hc] at h; cases h
      | some l' =>
        rw [hc] at h
        simp only [Option.map_some, Option.some.injEq] at h
        subst h
        intro m hm
        rcases List.mem_append.1 hm with hm | hm
        · exact Or.inr (Or.inr ⟨p, hpl, n, hnl, hpn, hnn, copies_between hc hm⟩)
        · rw [List.mem_singleton] at hm; subst hm
          exact Or.inl hnl
    · cases h; intro m hm; simp at hm
  · cases h; intro m hm; simp at hm

theorem pairStep_fills {rs : List Str} {prop : Str} {input : Str} {p n : Mt} {r : List Mt × List Mt} {l : List Mt} (hp : p ∈ l ∧ p.name = some prop)
    (hn : n ∈ l ∧ n.name = some prop) (h : pairStep rs prop input p n = some r) : ∀ m ∈ r.2, RangeFills prop input l m := by
  unfold pairStep at h
  split at h
  · cases hc : copiesBetween input p n with
    | none => rw [hc] at h; cases h
    | some l' =>
      rw [hc] at h
      simp only [Option.map_some, Option.some.injEq] at h
      subst h
      intro m hm
      simp only [List.mem_append, List.mem_cons, List.not_mem_nil, or_false] at hm
      rcases hm with hm | hm | hm
      · exact Or.inr (Or.inr ⟨p, hp.1, n, hn.1, hp.2, hn.2, copies_between hc hm⟩)
      · subst hm; exact Or.inr (Or.inl rfl)
      · subst hm; exact Or.inl hn.1
  · cases h
    intro m hm
    simp only [List.mem_singleton] at hm
    subst hm
    exact Or.inl hn.1

theorem pairLoop_fills {rs : List Str} {prop : Str} {canStart : Mt → Bool} {input : Str} {l : List Mt} : ∀ (todo : List Mt) (p : Option Mt)
    (r : List Mt × List Mt), (∀ n ∈ todo, n ∈ l ∧ n.name = some prop) → (∀ x, p = some x → x ∈ l ∧ x.name = some prop) →
    pairLoop rs prop canStart input p todo = some r → ∀ m ∈ r.2, RangeFills prop input l m := by
  intro todo
  induction todo with
  | nil => intro p r _ _ h m hm; cases p <;> (rw [pairLoop] at h; cases h; simp at hm)
  | cons n rest ih =>
    intro p r hl hp h
    have hrest : ∀ x ∈ rest, x ∈ l ∧ x.name = some prop := fun x hx => hl x (by simp [hx])
    have hn := hl n (by simp)
    cases p with
    | none =>
      rw [pairLoop] at h
      refine ih _ r hrest (fun x hx => ?_) h
      split at hx
      · cases hx; exact hn
      · cases hx
    | some p =>
      rw [pairLoop] at h
      split at h
      · rename_i a b ha hb
        cases h
        intro m hm
        rcases List.mem_append.1 hm with hm | hm
        · exact pairStep_fills (hp p rfl) hn ha m hm
        · refine ih _ b hrest (fun x hx => ?_) hb m hm
          split at hx
          · cases hx; exact hn
          · cases hx
      · cases h

/-- What a range rule leaves. -/
theorem separatorRange_fills {rs : List Str} {prop : Str} {canStart : Mt → Bool} {s s' : Ms}
    (h : separatorRange rs prop canStart s = some s') : ∀ m ∈ s'.live, RangeFills prop s.input s.live m := by
  unfold separatorRange at h
  split at h
  · rename_i a b ha hb
    cases h
    intro m hm
    rcases mem_appendAll hm with hm | hm
    · exact Or.inl (removeAll_subset hm)
    · rcases List.mem_append.1 hm with hm | hm
      · obtain ⟨x, r', hr, hm'⟩ := collect_adds ha m hm
        exact sepStep_fills hr m hm'
      · exact pairLoop_fills _ _ b (fun n hn => mem_named.1 ((sortBy_perm _ _).mem_iff.1 hn)) (fun x hx => by cases hx) hb m hm
  · cases h

/-- `SeasonYear`: seasons that are valid years, under their other name. -/
theorem seasonYear_years {s s' : Ms} (h : seasonYear s = .ok s') : ∀ m ∈ s'.live, m ∈ s.live ∨
    ∃ x ∈ s.live, x.name = some c!"season" ∧ m = { x with name := some c!"year" } ∧ ∃ k, x.value s.input = .int k ∧ validYear k = true := by
  unfold seasonYear at h
  split at h
  · split at h
    · cases h
    · rename_i ys hys
      cases h
      have key : ∀ (l : List Mt) (ys : List Mt), seasonYears s.input l = .ok ys → ∀ m ∈ ys, ∃ x ∈ l, m = { x with name := some c!"year" } ∧
          ∃ k, x.value s.input = .int k ∧ validYear k = true := by
        intro l
        induction l with
        | nil => intro ys h m hm; rw [seasonYears] at h; cases h; simp at hm
        | cons x l ih =>
          intro ys h m hm
          rw [seasonYears] at h
          split at h
          · cases h
          · rename_i b hb
            split at h
            · cases h
            · rename_i rest hrest
              cases h
              have hin : ∀ m ∈ rest, ∃ z ∈ x :: l, m = { z with name := some c!"year" } ∧ ∃ k, z.value s.input = .int k ∧ validYear k = true := by
                intro m hm
                obtain ⟨z, hz, hh⟩ := ih rest hrest m hm
                exact ⟨z, by simp [hz], hh⟩
              split at hm
              · rename_i hbt
                rcases List.mem_cons.1 hm with rfl | hm
                · refine ⟨x, by simp, rfl, ?_⟩
                  cases hv : x.value s.input with
                  | int k =>
                    rw [hv] at hb
                    cases hb
                    exact ⟨k, rfl, hbt⟩
                  | str _ => rw [hv] at hb; cases hb
                  | obj _ => rw [hv] at hb; cases hb
                · exact hin m hm
              · exact hin m hm
      intro m hm
      rcases mem_appendAll hm with hm | hm
      · exact Or.inl hm
      · obtain ⟨x, hx, rfl, hk⟩ := key _ _ hys m hm
        have := mem_named.1 hx
        exact Or.inr ⟨x, this.1, this.2, rfl, hk⟩
  · cases h
    exact fun m hm => Or.inl hm

end Guessit
