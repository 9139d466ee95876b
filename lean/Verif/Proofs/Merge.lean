import Verif.Model.Options
import Verif.Spec.Options
import Verif.Proofs.Dict

/-! Lemmas about `merge_options`. -/

namespace Guessit
open Spec

/-- Effect of one `merge_option_value` on the option it names. -/
def keyMerge (old : Option PyVal) (new : Option PyVal) : Except PyErr (Option PyVal) :=
  match new with
  | none => .ok old
  | some .none => .ok old
  | some v =>
    match old with
    | some (.list l) => match pyIter v with
      | .error e => .error e
      | .ok vals => .ok (some (.list (appendNew l vals)))
    | some (.dict d) => match mergeInto d v with
      | .error e => .error e
      | .ok d' => .ok (some (.dict d'))
    | _ => .ok (some v)

theorem keyMerge_list {l : List PyVal} {u : PyVal} (hu : u ≠ .none) : keyMerge (some (.list l)) (some u) =
    (match pyIter u with | .error e => .error e | .ok vals => .ok (some (.list (appendNew l vals)))) := by
  cases u <;> first | exact absurd rfl hu | rfl

theorem keyMerge_dict {d : Dict} {u : PyVal} (hu : u ≠ .none) : keyMerge (some (.dict d)) (some u) =
    (match mergeInto d u with | .error e => .error e | .ok m => .ok (some (.dict m))) := by
  cases u <;> first | exact absurd rfl hu | rfl

theorem keyMerge_none {u : PyVal} (hu : u ≠ .none) : keyMerge none (some u) = .ok (some u) := by
  cases u <;> first | exact absurd rfl hu | rfl

theorem keyMerge_scalar {v u : PyVal} (hv : Scalar v) (hu : u ≠ .none) : keyMerge (some v) (some u) = .ok (some u) := by
  cases v <;> simp only [Scalar] at hv <;> cases u <;> first | exact absurd rfl hu | rfl

theorem keyMerge_silent {o n : Option PyVal} (h : Silent n) : keyMerge o n = .ok o := by
  rcases h with rfl | rfl <;> rfl

theorem mergeValue_get {m m' : Dict} {k : Key} {v : PyVal} (h : mergeValue m (k, v) = .ok m') :
    (k = kPristine → m' = m) ∧ (k ≠ kPristine → keyMerge (m.get? k) (some v) = .ok (m'.get? k)) ∧
    (∀ k', k' ≠ k → m'.get? k' = m.get? k') := by
  cases v with
  | none => simp only [mergeValue] at h; cases h; simp [keyMerge]
  | _ =>
    all_goals
      simp only [mergeValue] at h
      split at h
      · cases h; rename_i hk; simp [hk]
      · rename_i hk
        refine ⟨fun x => absurd x hk, fun _ => ?_, ?_⟩
        · unfold keyMerge
          repeat' split at h
          all_goals first
            | (cases h; done)
            | (cases h; simp_all)
        · intro k' hk'
          repeat' split at h
          all_goals first
            | (cases h; done)
            | (cases h; simp [hk'])

theorem mergeValue_wf {m m' : Dict} {k : Key} {v : PyVal} (h : mergeValue m (k, v) = .ok m') (hm : m.WF) : m'.WF := by
  cases v with
  | none => simp only [mergeValue] at h; cases h; exact hm
  | _ =>
    all_goals
      simp only [mergeValue] at h
      repeat' split at h
      all_goals first
        | (cases h; done)
        | (cases h; exact hm)
        | (cases h; exact Dict.set_wf hm _ _)

theorem mergeItems_get {items : List (Key × PyVal)} : ∀ {m m' : Dict}, mergeItems m items = .ok m' →
    (items.map Prod.fst).Nodup →
    m'.get? kPristine = m.get? kPristine ∧
    ∀ k, k ≠ kPristine → keyMerge (m.get? k) (Dict.get? items k) = .ok (m'.get? k) := by
  induction items with
  | nil => intro m m' h _; simp only [mergeItems] at h; cases h; simp [keyMerge]
  | cons e items ih =>
    intro m m' h hn
    obtain ⟨k₁, v₁⟩ := e
    simp only [mergeItems] at h
    split at h
    · cases h
    · rename_i m₁ h₁
      simp only [List.map_cons, List.nodup_cons] at hn
      obtain ⟨ih1, ih2⟩ := ih h hn.2
      obtain ⟨a, b, c⟩ := mergeValue_get h₁
      refine ⟨?_, ?_⟩
      · rw [ih1]
        by_cases hk : k₁ = kPristine
        · rw [a hk]
        · exact c _ (fun h => hk h.symm)
      · intro k hk
        rw [Dict.get?_cons]
        have := ih2 k hk
        by_cases hkk : k = k₁
        · subst hkk
          rw [if_pos rfl, b hk]
          rw [Dict.get?_none_iff.2 hn.1] at this
          simp only [keyMerge] at this
          exact this
        · rw [if_neg hkk, ← c k hkk]; exact this

theorem mergeItems_wf {items : List (Key × PyVal)} : ∀ {m m' : Dict}, mergeItems m items = .ok m' → m.WF → m'.WF := by
  induction items with
  | nil => intro m m' h hm; simp only [mergeItems] at h; cases h; exact hm
  | cons e items ih =>
    intro m m' h hm
    obtain ⟨k₁, v₁⟩ := e
    simp only [mergeItems] at h
    split at h
    · cases h
    · rename_i m₁ h₁
      exact ih h (mergeValue_wf h₁ hm)

theorem resetKeys_get {ps : List PyVal} : ∀ {m m' : Dict}, resetKeys m ps = .ok m' →
    ∀ k, (k.toVal ∈ ps → m'.get? k = none) ∧
      (k.toVal ∉ ps → m'.get? k = m.get? k) := by
  induction ps with
  | nil => intro m m' h k; simp only [resetKeys] at h; cases h; simp
  | cons p ps ih =>
    intro m m' h k
    simp only [resetKeys] at h
    split at h
    · cases h
    · rename_i k₁ hk₁
      have := ih h k
      have hp : p = k₁.toVal := by
        cases p <;> simp [pristineKey] at hk₁ <;> subst hk₁ <;> rfl
      by_cases hkk : k = k₁
      · subst hkk
        refine ⟨fun _ => ?_, fun hn => ?_⟩
        · by_cases hm : k.toVal ∈ ps
          · exact this.1 hm
          · rw [this.2 hm]; simp
        · exact absurd (List.mem_cons.2 (Or.inl hp.symm)) hn
      · have hne : k.toVal ≠ p := by
          rw [hp]; cases k <;> cases k₁ <;> simp_all [Key.toVal]
        have e : (m.del k₁).get? k = m.get? k := by simp [hkk]
        rw [e] at this
        refine ⟨fun hm => this.1 ?_, fun hn => this.2 ?_⟩
        · exact (List.mem_cons.1 hm).resolve_left hne
        · exact fun hm => hn (List.mem_cons_of_mem _ hm)
    · rename_i hk₁
      have := ih h k
      have hne : k.toVal ≠ p := by
        cases p <;> simp [pristineKey] at hk₁ <;> cases k <;> simp [Key.toVal]
      refine ⟨fun hm => this.1 ?_, fun hn => this.2 ?_⟩
      · exact (List.mem_cons.1 hm).resolve_left hne
      · exact fun hm => hn (List.mem_cons_of_mem _ hm)

theorem resetKeys_wf {ps : List PyVal} : ∀ {m m' : Dict}, resetKeys m ps = .ok m' → m.WF → m'.WF := by
  induction ps with
  | nil => intro m m' h hm; simp only [resetKeys] at h; cases h; exact hm
  | cons p ps ih =>
    intro m m' h hm
    simp only [resetKeys] at h
    split at h
    · cases h
    · exact ih h (Dict.del_wf hm _)
    · exact ih h hm

theorem applyPristine_get {m base : Dict} {p : PyVal} (h : applyPristine m p = .ok base) (k : Key) :
    (Resets p k → base.get? k = none) ∧ (¬ Resets p k → base.get? k = m.get? k) := by
  cases p with
  | none => simp [applyPristine, truthy] at h; simp [Resets, h]
  | bool b => cases b <;> simp [applyPristine, truthy] at h <;> subst h <;> simp [Resets]
  | int n =>
    simp only [applyPristine] at h
    split at h
    · simp [pyIter] at h
    · cases h; simp [Resets]
  | other n => simp [applyPristine, truthy, pyIter] at h
  | bytes b =>
    simp only [applyPristine, pyIter] at h
    split at h
    · have := (resetKeys_get h k).2 (by cases k <;> simp [Key.toVal])
      simp [Resets, this]
    · cases h; simp [Resets]
  | str s =>
    simp only [applyPristine, pyIter] at h
    split at h
    · have := resetKeys_get h k
      refine ⟨fun hr => this.1 ?_, fun hr => this.2 ?_⟩
      · simp only [Resets] at hr; obtain ⟨c, hc, rfl⟩ := hr; simpa [Key.toVal] using hc
      · intro hm; apply hr
        cases k with
        | str t => simp [Key.toVal] at hm; obtain ⟨c, hc, rfl⟩ := hm; exact ⟨c, hc, rfl⟩
        | bytes b => simp [Key.toVal] at hm
    · cases h
      refine ⟨fun hr => ?_, fun _ => rfl⟩
      simp only [Resets] at hr; obtain ⟨c, hc, rfl⟩ := hr
      rename_i ht; simp [truthy] at ht; subst ht; simp at hc
  | list ps =>
    simp only [applyPristine, pyIter] at h
    split at h
    · exact resetKeys_get h k
    · cases h; rename_i ht; simp [truthy] at ht; subst ht; simp [Resets]
  | dict d =>
    simp only [applyPristine, pyIter] at h
    split at h
    · have := resetKeys_get h k
      refine ⟨fun hr => this.1 ?_, fun hr => this.2 ?_⟩
      · simp only [Resets] at hr
        obtain ⟨e, he, rfl⟩ := List.mem_map.1 hr
        exact List.mem_map.2 ⟨e, he, rfl⟩
      · intro hm; apply hr
        obtain ⟨e, he, hee⟩ := List.mem_map.1 hm
        refine List.mem_map.2 ⟨e, he, ?_⟩
        cases h1 : e.1 <;> cases k <;> simp_all [Key.toVal]
    · cases h; rename_i ht; simp [truthy] at ht; subst ht; simp [Resets]

theorem applyPristine_wf {m base : Dict} {p : PyVal} (h : applyPristine m p = .ok base) (hm : m.WF) : base.WF := by
  unfold applyPristine at h
  split at h
  · cases h; simp [Dict.WF]
  · split at h
    · split at h
      · cases h
      · exact resetKeys_wf h hm
    · cases h; exact hm

theorem mergeInto_wf {m m' : Dict} {v : PyVal} (h : mergeInto m v = .ok m') (hm : m.WF) : m'.WF := by
  unfold mergeInto at h
  split at h
  · split at h
    · cases h
    · rename_i hb; exact mergeItems_wf h (applyPristine_wf hb hm)
  · split at h
    · cases h
    · cases h; exact hm

/-- The whole effect of merging one dictionary onto an accumulated one. -/
theorem mergeInto_get {m m' b : Dict} (h : mergeInto m (.dict b) = .ok m') (hb : b.WF) :
    (Resets (b.getD kPristine) kPristine → m'.get? kPristine = none) ∧
    (¬ Resets (b.getD kPristine) kPristine → m'.get? kPristine = m.get? kPristine) ∧
    ∀ k, k ≠ kPristine →
      (Resets (b.getD kPristine) k → keyMerge none (b.get? k) = .ok (m'.get? k)) ∧
      (¬ Resets (b.getD kPristine) k → keyMerge (m.get? k) (b.get? k) = .ok (m'.get? k)) := by
  simp only [mergeInto] at h
  split at h
  · cases h
  · rename_i base hbase
    obtain ⟨h1, h2⟩ := mergeItems_get h hb
    have hp := applyPristine_get hbase kPristine
    refine ⟨fun hr => ?_, fun hr => ?_, fun k hk => ⟨fun hr => ?_, fun hr => ?_⟩⟩
    · rw [h1, hp.1 hr]
    · rw [h1, hp.2 hr]
    · rw [← h2 k hk, (applyPristine_get hbase k).1 hr]
    · rw [← h2 k hk, (applyPristine_get hbase k).2 hr]

theorem appendNew_accumulates (vals : List PyVal) : ∀ l, Accumulates l vals (appendNew l vals) := by
  induction vals with
  | nil => intro l; exact ⟨⟨[], by simp [appendNew]⟩, by simp⟩
  | cons v vs ih =>
    intro l
    by_cases hv : v = .none
    · subst hv
      obtain ⟨⟨added, h1, h2, h3, h4⟩, h5⟩ := ih l
      simp only [appendNew]
      refine ⟨⟨added, h1, h2.cons _, h3, h4⟩, ?_⟩
      intro w hw hne
      rcases List.mem_cons.1 hw with rfl | hw
      · exact absurd rfl hne
      · exact h5 w hw hne
    · have e : appendNew l (v :: vs) = if pyIn v l then appendNew l vs else appendNew (l ++ [v]) vs := by
        cases v <;> simp_all [appendNew]
      rw [e]
      split
      · rename_i hin
        obtain ⟨⟨added, h1, h2, h3, h4⟩, h5⟩ := ih l
        refine ⟨⟨added, h1, h2.cons _, h3, h4⟩, ?_⟩
        intro w hw hne
        rcases List.mem_cons.1 hw with rfl | hw
        · right
          simp only [pyIn, List.any_eq_true] at hin
          obtain ⟨y, hy, hyy⟩ := hin
          exact ⟨y, by rw [h1]; exact List.mem_append_left _ hy, hyy⟩
        · exact h5 w hw hne
      · rename_i hin
        obtain ⟨⟨added, h1, h2, h3, h4⟩, h5⟩ := ih (l ++ [v])
        refine ⟨⟨v :: added, by rw [h1]; simp, h2.cons_cons _, ?_, ?_⟩, ?_⟩
        · simp [h3]; exact fun h => hv h.symm
        · intro p x s hpx y hy
          cases p with
          | nil =>
            simp at hpx; obtain ⟨rfl, rfl⟩ := hpx
            simp [pyIn] at hin hy
            exact hin y hy
          | cons p0 p =>
            simp at hpx; obtain ⟨rfl, hpx⟩ := hpx
            apply h4 p x s hpx
            simpa using hy
        · intro w hw hne
          rcases List.mem_cons.1 hw with rfl | hw
          · left; rw [h1]; simp
          · exact h5 w hw hne

theorem mergeRest_append (m : Dict) (xs ys : List PyVal) :
    mergeRest m (xs ++ ys) = (match mergeRest m xs with | .error e => .error e | .ok m' => mergeRest m' ys) := by
  induction xs generalizing m with
  | nil => simp [mergeRest]
  | cons x xs ih =>
    simp only [List.cons_append, mergeRest]
    cases mergeInto m x <;> simp [ih]

end Guessit
