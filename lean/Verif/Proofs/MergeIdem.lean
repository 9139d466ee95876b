import Verif.Proofs.Merge
import Verif.Proofs.PyEq

/-! Merging a merged dictionary a second time (lemmas for C06). -/

namespace Guessit
open Spec

theorem noPristineDict_iff {d : Dict} : NoPristineDict d ↔ ∀ e ∈ d, NoPristine e.2 := by
  induction d with
  | nil => simp [NoPristineDict]
  | cons e d ih => obtain ⟨k, v⟩ := e; simp [NoPristineDict, NoPristinePair, ih]

theorem appendNew_append (l xs ys : List PyVal) : appendNew l (xs ++ ys) = appendNew (appendNew l xs) ys := by
  induction xs generalizing l with
  | nil => rfl
  | cons x xs ih => cases x <;> simp only [List.cons_append, appendNew, ih] <;> split <;> rfl

theorem appendNew_old (l xs : List PyVal) (h : ∀ x ∈ xs, pyIn x l = true) : appendNew l xs = l := by
  induction xs with
  | nil => rfl
  | cons x xs ih =>
    have h1 := h x (by simp)
    have h2 := ih (fun y hy => h y (by simp [hy]))
    cases x <;> simp [appendNew, h1, h2]

theorem appendNew_fresh (added : List PyVal) : ∀ l, (.none ∉ added) →
    (∀ p x s, added = p ++ x :: s → ∀ y ∈ l ++ p, pyEq x y = false) → appendNew l added = l ++ added := by
  induction added with
  | nil => intro l _ _; simp [appendNew]
  | cons x xs ih =>
    intro l hn h
    have hx : pyIn x l = false := by
      simp only [pyIn, List.any_eq_false]
      intro y hy
      rw [h [] x xs rfl y (by simpa using hy)]; simp
    have e : appendNew l (x :: xs) = appendNew (l ++ [x]) xs := by
      cases x <;> simp_all [appendNew]
    rw [e, ih (l ++ [x])]
    · simp
    · exact fun hm => hn (by simp [hm])
    · intro p y s hp z hz
      apply h (x :: p) y s (by simp [hp])
      simpa using hz

/-- `w` is the result of merging something onto `v`. -/
inductive ExtVal : PyVal → PyVal → Prop
  | scalar {v w} : Scalar v → (w = v ∨ w ≠ .none) → ExtVal v w
  | list {l added} : Real (.list l) → (.none ∉ added) →
      (∀ p x s, added = p ++ x :: s → ∀ y ∈ l ++ p, pyEq x y = false) → ExtVal (.list l) (.list (l ++ added))
  | dict {d m extra : Dict} (f : Key → PyVal) : (m.map Prod.fst).Nodup → kPristine ∉ m.map Prod.fst →
      m.map Prod.fst = d.map Prod.fst ++ extra.map Prod.fst →
      (∀ k ∈ extra.map Prod.fst, m.get? k ≠ some .none) →
      (∀ k v, d.get? k = some v → m.get? k = some (f k)) →
      (∀ k v, d.get? k = some v → ExtVal v (f k)) → ExtVal (.dict d) (.dict m)

theorem extVal_refl : ∀ v, Real v → NoPristine v → ExtVal v v := by
  apply PyVal.ind
  · intro v hs _ _; exact .scalar hs (.inl rfl)
  · intro xs _ hr _
    have := ExtVal.list (l := xs) (added := []) hr (by simp) (by simp)
    simpa using this
  · intro d ih hr hp
    simp only [Real, realDict_iff] at hr
    simp only [NoPristine, noPristineDict_iff] at hp
    refine ExtVal.dict (extra := []) (fun k => (d.get? k).getD .none) hr.1 hp.1 (by simp) (by simp) ?_ ?_
    · intro k v h; simp [h]
    · intro k v h
      have hm := Dict.mem_of_get? h
      simp only [h, Option.getD_some]
      exact ih _ hm (hr.2 _ hm) (hp.2 _ hm)

theorem mergeValue_ok {m : Dict} {k : Key} {v : PyVal} {r : Option PyVal}
    (h : keyMerge (m.get? k) (some v) = .ok r) : ∃ m', mergeValue m (k, v) = .ok m' := by
  cases v <;> simp only [mergeValue] <;> (try exact ⟨_, rfl⟩)
  all_goals
    simp only [keyMerge] at h
    split
    · exact ⟨_, rfl⟩
    · split
      · rename_i l hl; rw [hl] at h
        split
        · rename_i e he; simp [he] at h
        · exact ⟨_, rfl⟩
      · rename_i l hl; rw [hl] at h
        split
        · rename_i e he; simp [he] at h
        · exact ⟨_, rfl⟩
      · exact ⟨_, rfl⟩

open Classical in
theorem mergeValue_keys {m m' : Dict} {k : Key} {v : PyVal} (h : mergeValue m (k, v) = .ok m') :
    m'.map Prod.fst = if v ≠ .none ∧ k ≠ kPristine ∧ k ∉ m.map Prod.fst then m.map Prod.fst ++ [k]
      else m.map Prod.fst := by
  have key : ∀ w, (m.set k w).map Prod.fst = if k ∉ m.map Prod.fst then m.map Prod.fst ++ [k] else m.map Prod.fst := by
    intro w; rw [Dict.set_keys]; by_cases hk : k ∈ m.map Prod.fst
    · rw [if_pos hk, if_neg (not_not.2 hk)]
    · rw [if_neg hk, if_pos hk]
  cases v with
  | none => simp only [mergeValue] at h; cases h; simp
  | _ =>
    all_goals
      simp only [mergeValue] at h
      split at h
      · cases h; rename_i hk; simp [hk]
      · rename_i hk
        have : ∃ w, m' = m.set k w := by
          repeat' split at h
          all_goals first
            | (cases h; done)
            | (cases h; exact ⟨_, rfl⟩)
        obtain ⟨w, rfl⟩ := this
        rw [key]
        by_cases hkk : k ∉ m.map Prod.fst
        · rw [if_pos hkk, if_pos ⟨by simp, hk, hkk⟩]
        · rw [if_neg hkk, if_neg (fun h => hkk h.2.2)]

theorem mergeItems_ok {items : List (Key × PyVal)} : ∀ {m : Dict}, (items.map Prod.fst).Nodup →
    (∀ e ∈ items, ∃ r, keyMerge (m.get? e.1) (some e.2) = .ok r) → ∃ m', mergeItems m items = .ok m' := by
  induction items with
  | nil => intro m _ _; exact ⟨m, rfl⟩
  | cons e items ih =>
    intro m hn h
    obtain ⟨k, v⟩ := e
    obtain ⟨r, hr⟩ := h _ List.mem_cons_self
    obtain ⟨m₁, h₁⟩ := mergeValue_ok hr
    simp only [List.map_cons, List.nodup_cons] at hn
    have := ih (m := m₁) hn.2 (by
      intro e he
      have hne : e.1 ≠ k := by
        intro hek; exact hn.1 (hek ▸ List.mem_map.2 ⟨e, he, rfl⟩)
      rw [(mergeValue_get h₁).2.2 _ hne]
      exact h _ (List.mem_cons_of_mem _ he))
    simp only [mergeItems, h₁]
    exact this

theorem mergeItems_keys {items : List (Key × PyVal)} : ∀ {m m' : Dict}, mergeItems m items = .ok m' →
    (items.map Prod.fst).Nodup →
    m'.map Prod.fst = m.map Prod.fst ++
      (items.filter (fun e => (match e.2 with | .none => false | _ => true) && decide (e.1 ≠ kPristine) && decide (e.1 ∉ m.map Prod.fst))).map
        Prod.fst := by
  induction items with
  | nil => intro m m' h _; simp only [mergeItems] at h; cases h; simp
  | cons e items ih =>
    intro m m' h hn
    obtain ⟨k, v⟩ := e
    simp only [mergeItems] at h
    split at h
    · cases h
    · rename_i m₁ h₁
      simp only [List.map_cons, List.nodup_cons] at hn
      have h2 := ih h hn.2
      have h3 := mergeValue_keys h₁
      have hcongr : ∀ e ∈ items, (decide (e.1 ∉ m₁.map Prod.fst)) = (decide (e.1 ∉ m.map Prod.fst)) := by
        intro e he
        have hne : e.1 ≠ k := by
          intro hek; exact hn.1 (hek ▸ List.mem_map.2 ⟨e, he, rfl⟩)
        rw [h3]; split <;> simp [hne]
      rw [h2, List.filter_congr (q := fun e => (match e.2 with | .none => false | _ => true) && decide (e.1 ≠ kPristine) && decide (e.1 ∉ m.map Prod.fst))
        (by intro e he; rw [hcongr e he]), h3]
      by_cases hc : v ≠ .none ∧ k ≠ kPristine ∧ k ∉ m.map Prod.fst
      · rw [if_pos hc]
        rw [List.filter_cons_of_pos (by obtain ⟨a, b, c⟩ := hc; cases v <;> simp_all)]
        simp
      · rw [if_neg hc]
        rw [List.filter_cons_of_neg (by
          intro hx
          simp only [Bool.and_eq_true, decide_eq_true_eq] at hx
          exact hc ⟨by rintro rfl; simp at hx, hx.1.2, hx.2⟩)]

theorem applyPristine_none (m : Dict) : applyPristine m .none = .ok m := by simp [applyPristine, truthy]

theorem getD_pristine_none {d : Dict} (h : kPristine ∉ d.map Prod.fst) : Dict.getD d kPristine = .none := by
  unfold Dict.getD; rw [Dict.get?_none_iff.2 h]; rfl

theorem keyMerge_ext : ∀ v w, ExtVal v w →
    keyMerge (some v) (some w) = .ok (some w) ∧ ∀ d m, v = .dict d → w = .dict m → mergeInto d (.dict m) = .ok m := by
  intro v w h
  induction h with
  | @scalar v w hs hw =>
    refine ⟨?_, by rintro d m rfl rfl; simp [Scalar] at hs⟩
    rcases hw with rfl | hw
    · cases w <;> simp_all [keyMerge, Scalar]
    · cases w <;> cases v <;> simp_all [keyMerge, Scalar]
  | @list l added hr hn hp =>
    refine ⟨?_, by rintro d m h; cases h⟩
    have h1 : appendNew l l = l := by
      apply appendNew_old
      intro x hx
      simp only [pyIn, List.any_eq_true]
      simp only [Real, realList_iff] at hr
      exact ⟨x, hx, pyEq_refl x (hr x hx)⟩
    simp only [keyMerge, pyIter, appendNew_append, h1, appendNew_fresh added l hn hp]
  | @dict d m extra f hnd hnp hkeys hextra hget hext ih =>
    have main : mergeInto d (.dict m) = .ok m := by
      simp only [mergeInto, getD_pristine_none hnp, applyPristine_none]
      have hmget : ∀ e ∈ m, m.get? e.1 = some e.2 := fun e he => Dict.get?_of_mem hnd he
      obtain ⟨m', hm'⟩ := mergeItems_ok (items := m) (m := d) hnd (by
        intro e he
        cases hd : d.get? e.1 with
        | none => cases e.2 <;> exact ⟨_, rfl⟩
        | some v =>
          have h1 := hget _ _ hd
          rw [hmget e he] at h1
          have := (ih _ _ hd).1
          rw [show e.2 = f e.1 from by simpa using h1]
          exact ⟨_, this⟩)
      rw [hm']
      congr 1
      have hk1 := mergeItems_keys hm' hnd
      have hget' := mergeItems_get hm' hnd
      have hkeq : m'.map Prod.fst = m.map Prod.fst := by
        rw [hk1, hkeys]
        congr 1
        -- the entries of `m` outside `d` are exactly the extra ones, in order
        have hsplit : m = m.take d.length ++ m.drop d.length := (List.take_append_drop _ _).symm
        have ht : (m.take d.length).map Prod.fst = d.map Prod.fst := by
          rw [List.map_take, hkeys]; rw [List.take_left' (by simp)]
        have hdp : (m.drop d.length).map Prod.fst = extra.map Prod.fst := by
          rw [List.map_drop, hkeys]; rw [List.drop_left' (by simp)]
        rw [← hdp]
        conv_lhs => rw [hsplit]
        rw [List.filter_append, List.filter_eq_nil_iff.2, List.nil_append, List.filter_eq_self.2]
        · intro e he
          have hem : e ∈ m := List.mem_of_mem_drop he
          have hek : e.1 ∈ extra.map Prod.fst := hdp ▸ List.mem_map.2 ⟨e, he, rfl⟩
          have hx := hextra _ hek
          rw [hmget e hem] at hx
          have hnk : e.1 ∉ d.map Prod.fst := by
            rw [hkeys, List.nodup_append] at hnd
            intro h'; exact hnd.2.2 _ h' _ hek rfl
          have hpk : e.1 ≠ kPristine := by
            intro h'; exact hnp (h' ▸ List.mem_map.2 ⟨e, hem, rfl⟩)
          simp only [Bool.and_eq_true, decide_eq_true_eq]
          refine ⟨⟨?_, hpk⟩, hnk⟩
          revert hx; cases e.2 <;> simp
        · intro e he
          have : e.1 ∈ d.map Prod.fst := ht ▸ List.mem_map.2 ⟨e, he, rfl⟩
          simp [this]
      apply Dict.ext_of_keys hkeq (by unfold Dict.WF; rw [hkeq]; exact hnd)
      intro k
      by_cases hk : k = kPristine
      · subst hk
        rw [Dict.get?_none_iff.2 hnp, Dict.get?_none_iff.2 (hkeq ▸ hnp)]
      · have h1 := hget'.2 k hk
        cases hd : d.get? k with
        | none =>
          rw [hd] at h1
          cases hmk : m.get? k with
          | none =>
            exact Dict.get?_none_iff.2 (hkeq ▸ Dict.get?_none_iff.1 hmk)
          | some w =>
            have hkm : k ∈ m.map Prod.fst := Dict.get?_isSome_iff.1 (by rw [hmk]; rfl)
            rw [hkeys] at hkm
            have hke : k ∈ extra.map Prod.fst :=
              (List.mem_append.1 hkm).resolve_left (Dict.get?_none_iff.1 hd)
            have hx := hextra k hke
            rw [hmk] at hx h1
            rw [keyMerge_none (by rintro rfl; exact hx rfl)] at h1
            injection h1 with h1; exact h1.symm
        | some v =>
          rw [hd, hget _ _ hd, (ih _ _ hd).1] at h1
          rw [hget _ _ hd]
          injection h1 with h1; exact h1.symm
    refine ⟨?_, by rintro d' m' h1 h2; cases h1; cases h2; exact main⟩
    simp only [keyMerge, main]

/-- The result of a merge extends its first argument. -/
theorem extVal_merge : ∀ v, Real v → NoPristine v → ∀ d m, Real (.dict d) → NoPristine (.dict d) →
    mergeInto d v = .ok m → ExtVal (.dict d) (.dict m) := by
  have base : ∀ v, (∀ items, v ≠ .dict items) → ∀ d m : Dict, Real (.dict d) → NoPristine (.dict d) →
      mergeInto d v = .ok m → ExtVal (.dict d) (.dict m) := by
    intro v hv d m hr hp h
    have : m = d := by
      unfold mergeInto at h
      split at h
      · exact absurd rfl (hv _)
      · split at h
        · cases h
        · cases h; rfl
    subst this; exact extVal_refl _ hr hp
  apply PyVal.ind
  · intro v hs _ _ d m
    apply base; rintro items rfl; simp [Scalar] at hs
  · intro xs _ _ _ d m
    apply base; simp
  · intro items ih hri hpi d m hr hp h
    simp only [Real, realDict_iff] at hri hr
    have hrd : Real (.dict d) := by simp only [Real, realDict_iff]; exact hr
    simp only [NoPristine, noPristineDict_iff] at hpi hp
    have hpik : kPristine ∉ items.map Prod.fst := hpi.1
    have hpd : kPristine ∉ d.map Prod.fst := hp.1
    simp only [mergeInto, getD_pristine_none hpik, applyPristine_none] at h
    have hk := mergeItems_keys h hri.1
    have hg := mergeItems_get h hri.1
    have hwf := mergeItems_wf h hr.1
    refine ExtVal.dict (extra := items.filter _) (fun k => (m.get? k).getD .none) hwf ?_ hk ?_ ?_ ?_
    · rw [← Dict.get?_none_iff, hg.1]; exact Dict.get?_none_iff.2 hpd
    · intro k hkk
      obtain ⟨e, he, rfl⟩ := List.mem_map.1 hkk
      obtain ⟨he1, he2⟩ := List.mem_filter.1 he
      simp only [Bool.and_eq_true, decide_eq_true_eq] at he2
      have := hg.2 _ he2.1.2
      rw [Dict.get?_none_iff.2 he2.2, Dict.get?_of_mem hri.1 he1] at this
      have hne : e.2 ≠ .none := by intro h'; rw [h'] at he2; simp at he2
      rw [keyMerge_none hne] at this
      injection this with this
      rw [← this]; simpa using hne
    · intro k v hkv
      have : k ∈ m.map Prod.fst := by
        rw [hk]; exact List.mem_append_left _ (Dict.get?_isSome_iff.1 (by rw [hkv]; rfl))
      have := Dict.get?_isSome_iff.2 this
      cases hmk : m.get? k <;> simp_all
    · intro k v hkv
      have hkne : k ≠ kPristine := by
        rintro rfl; rw [Dict.get?_none_iff.2 hpd] at hkv; cases hkv
      have h1 := hg.2 k hkne
      have hdm := Dict.mem_of_get? hkv
      have hrv := hr.2 _ hdm
      have hpv := hp.2 _ hdm
      rw [hkv] at h1
      cases hi : Dict.get? items k with
      | none =>
        rw [hi] at h1; simp only [keyMerge] at h1
        have h1 : m.get? k = some v := by simpa using h1.symm
        rw [h1]; exact extVal_refl _ hrv hpv
      | some u =>
        rw [hi] at h1
        by_cases hu : u = .none
        · subst hu
          simp only [keyMerge] at h1
          have h1 : m.get? k = some v := by simpa using h1.symm
          rw [h1]; exact extVal_refl _ hrv hpv
        · have hum := Dict.mem_of_get? hi
          have hru := hri.2 _ hum
          have hpu := hpi.2 _ hum
          by_cases hs : Scalar v
          · refine ExtVal.scalar hs (.inr ?_)
            have : m.get? k = some u := by
              rw [keyMerge_scalar hs hu] at h1
              injection h1 with h1; exact h1.symm
            rw [this]; exact hu
          · cases v with
            | list l =>
              have : ∃ vals, m.get? k = some (.list (appendNew l vals)) := by
                rw [keyMerge_list hu] at h1
                cases hpi' : pyIter u with
                | error e => rw [hpi'] at h1; cases h1
                | ok vals =>
                  rw [hpi'] at h1
                  injection h1 with h1
                  exact ⟨vals, h1.symm⟩
              obtain ⟨vals, hv⟩ := this
              obtain ⟨⟨added, e1, e2, e3, e4⟩, _⟩ := appendNew_accumulates vals l
              rw [hv, Option.getD_some, e1]
              exact ExtVal.list hrv e3 e4
            | dict d₁ =>
              have : ∃ m₁, mergeInto d₁ u = .ok m₁ ∧ m.get? k = some (.dict m₁) := by
                rw [keyMerge_dict hu] at h1
                cases hpi' : mergeInto d₁ u with
                | error e => rw [hpi'] at h1; cases h1
                | ok m₁ =>
                  rw [hpi'] at h1
                  injection h1 with h1
                  exact ⟨m₁, rfl, h1.symm⟩
              obtain ⟨m₁, hm₁, hv⟩ := this
              rw [hv, Option.getD_some]
              exact ih _ hum hru hpu d₁ m₁ hrv hpv hm₁
            | _ => exact absurd trivial hs

theorem mergeInto_idem {d m : Dict} {v : PyVal} (hd : Real (.dict d)) (hpd : NoPristine (.dict d)) (hv : Real v)
    (hpv : NoPristine v) (h : mergeInto d v = .ok m) : mergeInto d (.dict m) = .ok m :=
  (keyMerge_ext _ _ (extVal_merge v hv hpv d m hd hpd h)).2 d m rfl rfl

end Guessit
