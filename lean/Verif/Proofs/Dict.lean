import Verif.Py

/-! Lemmas about insertion-ordered dictionaries. -/

namespace Guessit

theorem lookup_none_iff {d : Dict} {k : Key} : List.lookup k d = none ↔ k ∉ d.map Prod.fst := by
  induction d with
  | nil => simp
  | cons e d ih =>
    obtain ⟨k', v'⟩ := e
    by_cases h : k = k' <;> simp [List.lookup, h]
    · have : (k == k') = false := by simpa using h
      simp [this, ih]

theorem Dict.get?_none_iff {d : Dict} {k : Key} : d.get? k = none ↔ k ∉ d.map Prod.fst := lookup_none_iff

@[simp] theorem Dict.get?_nil (k : Key) : Dict.get? [] k = none := rfl

theorem Dict.get?_cons (d : Dict) (k' : Key) (v' : PyVal) (k : Key) :
    Dict.get? ((k', v') :: d) k = if k = k' then some v' else Dict.get? d k := by
  by_cases h : k = k'
  · simp [Dict.get?, List.lookup, h]
  · have : (k == k') = false := by simpa using h
    simp [Dict.get?, List.lookup, h, this]

@[simp] theorem Dict.get?_set (d : Dict) (k k' : Key) (v : PyVal) :
    (d.set k v).get? k' = if k' = k then some v else d.get? k' := by
  induction d with
  | nil => simp [Dict.set, Dict.get?_cons]
  | cons e d ih =>
    obtain ⟨k₁, v₁⟩ := e
    by_cases h : k₁ = k
    · subst h; simp only [Dict.set, if_true, Dict.get?_cons]; split <;> simp_all
    · simp only [Dict.set, if_neg h, Dict.get?_cons, ih]
      by_cases h1 : k' = k₁
      · subst h1; simp [h]
      · simp [h1]

@[simp] theorem Dict.get?_del (d : Dict) (k k' : Key) :
    (d.del k).get? k' = if k' = k then none else d.get? k' := by
  induction d with
  | nil => simp [Dict.del]
  | cons e d ih =>
    obtain ⟨k₁, v₁⟩ := e
    unfold Dict.del at *
    by_cases h : k₁ = k
    · subst h; simp only [List.filter, ne_eq, not_true_eq_false, decide_false, Dict.get?_cons, ih]
      split <;> simp_all
    · simp only [List.filter, ne_eq, h, not_false_eq_true, decide_true, Dict.get?_cons, ih]
      by_cases h1 : k' = k₁
      · subst h1; simp [h]
      · simp [h1]

theorem Dict.set_keys (d : Dict) (k : Key) (v : PyVal) :
    (d.set k v).map Prod.fst = if k ∈ d.map Prod.fst then d.map Prod.fst else d.map Prod.fst ++ [k] := by
  induction d with
  | nil => simp [Dict.set]
  | cons e d ih =>
    obtain ⟨k₁, v₁⟩ := e
    by_cases h : k₁ = k
    · subst h; simp [Dict.set]
    · have h' : k ≠ k₁ := fun x => h x.symm
      simp only [Dict.set, if_neg h, List.map_cons, ih, List.mem_cons, h', false_or]
      split <;> simp

theorem Dict.set_wf {d : Dict} (h : d.WF) (k : Key) (v : PyVal) : (d.set k v).WF := by
  unfold Dict.WF at *
  rw [Dict.set_keys]
  split
  · exact h
  · rename_i hk
    rw [List.nodup_append]
    refine ⟨h, by simp, ?_⟩
    intro a ha b hb
    simp at hb; subst hb
    intro hab; subst hab; exact hk ha

theorem Dict.del_wf {d : Dict} (h : d.WF) (k : Key) : (d.del k).WF := by
  unfold Dict.WF Dict.del at *
  exact List.Nodup.sublist (List.Sublist.map _ List.filter_sublist) h

theorem Dict.mem_of_get? {d : Dict} {k : Key} {v : PyVal} (h : d.get? k = some v) : (k, v) ∈ d := by
  induction d with
  | nil => simp at h
  | cons e d ih =>
    obtain ⟨k₁, v₁⟩ := e
    rw [Dict.get?_cons] at h
    split at h
    · rename_i hk; subst hk; simp_all
    · exact List.mem_cons_of_mem _ (ih h)

theorem Dict.get?_of_mem {d : Dict} (hd : d.WF) {k : Key} {v : PyVal} (h : (k, v) ∈ d) : d.get? k = some v := by
  induction d with
  | nil => simp at h
  | cons e d ih =>
    obtain ⟨k₁, v₁⟩ := e
    unfold Dict.WF at hd
    simp only [List.map_cons, List.nodup_cons] at hd
    rw [Dict.get?_cons]
    rcases List.mem_cons.1 h with h | h
    · cases h; simp
    · have : k ∈ d.map Prod.fst := List.mem_map.2 ⟨_, h, rfl⟩
      have hk : k ≠ k₁ := by intro hk; subst hk; exact hd.1 this
      rw [if_neg hk]; exact ih hd.2 h

theorem Dict.get?_isSome_iff {d : Dict} {k : Key} : (d.get? k).isSome ↔ k ∈ d.map Prod.fst := by
  have := @Dict.get?_none_iff d k
  cases h : d.get? k <;> simp_all

/-- A dictionary with distinct keys is determined, up to order, by its lookups; with the same key order it is equal. -/
theorem Dict.ext_of_keys {d e : Dict} (hk : d.map Prod.fst = e.map Prod.fst) (hd : d.WF)
    (h : ∀ k, d.get? k = e.get? k) : d = e := by
  induction d generalizing e with
  | nil => cases e <;> simp_all
  | cons a d ih =>
    cases e with
    | nil => simp at hk
    | cons b e =>
      obtain ⟨k₁, v₁⟩ := a; obtain ⟨k₂, v₂⟩ := b
      simp only [List.map_cons, List.cons.injEq] at hk
      obtain ⟨hk1, hk2⟩ := hk
      subst hk1
      have h1 := h k₁
      simp [Dict.get?_cons] at h1; subst h1
      unfold Dict.WF at hd
      simp only [List.map_cons, List.nodup_cons] at hd
      congr 1
      apply ih hk2 hd.2
      intro k
      by_cases hkk : k = k₁
      · subst hkk
        rw [Dict.get?_none_iff.2 hd.1, Dict.get?_none_iff.2 (hk2 ▸ hd.1)]
      · have := h k; simpa [Dict.get?_cons, hkk] using this

end Guessit
