import Verif.Spec.Schedule
import Verif.Proofs.Matches

/-! Lemmas about the scheduler of rules. -/

namespace Guessit

open Spec

variable {κ : Type} [DecidableEq κ]

/-! ### The effective rules -/

theorem extendSafe_cons (acc : List (Decl κ)) (r : Decl κ) (rs : List (Decl κ)) :
    extendSafe acc (r :: rs) = extendSafe (if acc.any fun x => decide (x.cls = r.cls) then acc else acc ++ [r]) rs := rfl

theorem extendSafe_append (acc xs ys : List (Decl κ)) : extendSafe acc (xs ++ ys) = extendSafe (extendSafe acc xs) ys := by
  unfold extendSafe; rw [List.foldl_append]

theorem effectiveRules_eq (plugs : List (Plug κ)) (context : Dict) :
    effectiveRules plugs context = extendSafe [] (Registered plugs context) := by
  have gen : ∀ acc, plugs.foldl (fun acc p => if p.off context then acc else extendSafe acc p.rules) acc =
      extendSafe acc (Registered plugs context) := by
    induction plugs with
    | nil => intro acc; rfl
    | cons p ps ih =>
      intro acc
      rw [List.foldl_cons, ih]
      unfold Registered
      by_cases h : p.off context = true
      · rw [if_pos h, List.filter_cons_of_neg (by simp [h])]
      · rw [if_neg h, List.filter_cons_of_pos (by simp [h]), List.flatMap_cons, extendSafe_append]
  exact gen []

theorem any_cls {l : List (Decl κ)} {r : Decl κ} : (l.any fun x => decide (x.cls = r.cls)) = true ↔ r.cls ∈ l.map Decl.cls := by
  simp

theorem extendSafe_nodup : ∀ (rs acc : List (Decl κ)), OnePerClass acc → OnePerClass (extendSafe acc rs)
  | [], _, h => h
  | r :: rs, acc, h => by
    rw [extendSafe_cons]
    by_cases hr : (acc.any fun x => decide (x.cls = r.cls)) = true
    · rw [if_pos hr]; exact extendSafe_nodup rs acc h
    · rw [if_neg hr]
      refine extendSafe_nodup rs _ ?_
      unfold OnePerClass at h ⊢
      rw [any_cls] at hr
      rw [List.map_append, List.nodup_append]
      refine ⟨h, by simp, ?_⟩
      rintro a ha b hb rfl
      simp only [List.map_cons, List.map_nil, List.mem_singleton] at hb
      subst hb
      exact hr ha

theorem effectiveRules_nodup (plugs : List (Plug κ)) (context : Dict) : OnePerClass (effectiveRules plugs context) := by
  rw [effectiveRules_eq]; exact extendSafe_nodup _ _ (by simp [OnePerClass])

theorem extendSafe_sublist : ∀ (rs acc : List (Decl κ)), (extendSafe acc rs).Sublist (acc ++ rs)
  | [], acc => by rw [List.append_nil]; exact List.Sublist.refl _
  | r :: rs, acc => by
    rw [extendSafe_cons]
    split
    · exact (extendSafe_sublist rs acc).trans (List.Sublist.append (List.Sublist.refl _) (List.sublist_cons_self _ _))
    · have := extendSafe_sublist rs (acc ++ [r])
      rwa [List.append_assoc] at this

/-- Membership: what was there, or a first instance among the new ones. -/
theorem mem_extendSafe : ∀ {rs acc : List (Decl κ)} {r : Decl κ}, r ∈ extendSafe acc rs ↔
    r ∈ acc ∨ ∃ xs ys, rs = xs ++ r :: ys ∧ (∀ x ∈ xs, x.cls ≠ r.cls) ∧ ∀ x ∈ acc, x.cls ≠ r.cls
  | [], acc, r => by
    constructor
    · intro h; exact Or.inl h
    · rintro (h | ⟨xs, ys, h, _⟩)
      · exact h
      · exact absurd h (by cases xs <;> simp)
  | x :: rs, acc, r => by
    rw [extendSafe_cons]
    by_cases hx : (acc.any fun y => decide (y.cls = x.cls)) = true
    · rw [if_pos hx, mem_extendSafe]
      rw [any_cls, List.mem_map] at hx
      obtain ⟨y, hy, hyx⟩ := hx
      constructor
      · rintro (h | ⟨xs, ys, rfl, h1, h2⟩)
        · exact Or.inl h
        · refine Or.inr ⟨x :: xs, ys, rfl, ?_, h2⟩
          intro z hz
          rcases List.mem_cons.1 hz with rfl | hz
          · rw [← hyx]; exact h2 y hy
          · exact h1 z hz
      · rintro (h | ⟨xs, ys, h, h1, h2⟩)
        · exact Or.inl h
        · cases xs with
          | nil => rw [List.nil_append, List.cons.injEq] at h; exact absurd (by rw [hyx, h.1]) (h2 y hy)
          | cons z zs =>
            rw [List.cons_append, List.cons.injEq] at h
            exact Or.inr ⟨zs, ys, h.2, fun w hw => h1 w (List.mem_cons_of_mem _ hw), h2⟩
    · rw [if_neg hx, mem_extendSafe]
      rw [any_cls] at hx
      constructor
      · rintro (h | ⟨xs, ys, rfl, h1, h2⟩)
        · rcases List.mem_append.1 h with h | h
          · exact Or.inl h
          · rw [List.mem_singleton] at h; subst h
            exact Or.inr ⟨[], rs, rfl, nofun, fun y hy he => hx (List.mem_map.2 ⟨y, hy, he⟩)⟩
        · refine Or.inr ⟨x :: xs, ys, rfl, ?_, fun y hy => h2 y (List.mem_append_left _ hy)⟩
          intro z hz
          rcases List.mem_cons.1 hz with rfl | hz
          · exact h2 z (by simp)
          · exact h1 z hz
      · rintro (h | ⟨xs, ys, h, h1, h2⟩)
        · exact Or.inl (List.mem_append_left _ h)
        · cases xs with
          | nil => rw [List.nil_append, List.cons.injEq] at h; rw [h.1]; exact Or.inl (by simp)
          | cons z zs =>
            rw [List.cons_append, List.cons.injEq] at h
            refine Or.inr ⟨zs, ys, h.2, fun w hw => h1 w (List.mem_cons_of_mem _ hw), ?_⟩
            intro w hw
            rcases List.mem_append.1 hw with hw | hw
            · exact h2 w hw
            · rw [List.mem_singleton] at hw; subst hw
              rw [h.1]; exact h1 z (by simp)

theorem mem_effectiveRules {plugs : List (Plug κ)} {context : Dict} {r : Decl κ} :
    r ∈ effectiveRules plugs context ↔ FirstOfClass (Registered plugs context) r := by
  rw [effectiveRules_eq, mem_extendSafe]
  constructor
  · rintro (h | ⟨xs, ys, h, h1, _⟩)
    · cases h
    · exact ⟨xs, ys, h, h1⟩
  · rintro ⟨xs, ys, h, h1⟩
    exact Or.inr ⟨xs, ys, h, h1, nofun⟩

/-! ### Distinct classes -/

theorem Spec.OnePerClass.inj {rs : List (Decl κ)} (h : OnePerClass rs) {a b : Decl κ} (ha : a ∈ rs) (hb : b ∈ rs) (e : a.cls = b.cls) :
    a = b := by
  unfold OnePerClass at h
  induction rs with
  | nil => cases ha
  | cons r rs ih =>
    rw [List.map_cons, List.nodup_cons] at h
    rcases List.mem_cons.1 ha with har | har
    · rcases List.mem_cons.1 hb with hbr | hbr
      · rw [har, hbr]
      · exact absurd (List.mem_map.2 ⟨b, hbr, by rw [← e, har]⟩) h.1
    · rcases List.mem_cons.1 hb with hbr | hbr
      · exact absurd (List.mem_map.2 ⟨a, har, by rw [e, hbr]⟩) h.1
      · exact ih h.2 har hbr

theorem Spec.OnePerClass.nodup {rs : List (Decl κ)} (h : OnePerClass rs) : rs.Nodup := by
  unfold OnePerClass at h
  rw [List.nodup_iff_pairwise_ne, List.pairwise_map] at h
  exact h.imp fun h e => h (by rw [e])

theorem Spec.OnePerClass.perm {rs rs' : List (Decl κ)} (p : rs.Perm rs') (h : OnePerClass rs) : OnePerClass rs' :=
  (p.map Decl.cls).nodup_iff.1 h

theorem Spec.OnePerClass.sublist {rs rs' : List (Decl κ)} (p : rs.Sublist rs') (h : OnePerClass rs') : OnePerClass rs :=
  (p.map Decl.cls).nodup h

theorem hasDuplicate_false {rs : List (Decl κ)} : hasDuplicate rs = false ↔ OnePerClass rs := by
  unfold OnePerClass
  induction rs with
  | nil => simp [hasDuplicate]
  | cons r rs ih => simp only [hasDuplicate, Bool.or_eq_false_iff, ih, List.map_cons, List.nodup_cons, List.any_eq_false,
      decide_eq_true_eq, List.mem_map, not_exists, not_and]

/-! ### The layers -/

theorem mem_readyOf {data : List (Decl κ × List κ)} {r : Decl κ} : r ∈ readyOf data ↔ (r, []) ∈ data := by
  unfold readyOf
  rw [List.mem_map]
  constructor
  · rintro ⟨⟨a, d⟩, h, rfl⟩
    rw [List.mem_filter] at h
    have : d = [] := by simpa using h.2
    subst this; exact h.1
  · intro h; exact ⟨_, List.mem_filter.2 ⟨h, rfl⟩, rfl⟩

/-- The dependencies of the items are items, each item is there once. -/
structure Closed (data : List (Decl κ × List κ)) : Prop where
  one : OnePerClass (data.map Prod.fst)
  dep : ∀ x ∈ data, ∀ d ∈ x.2, ∃ y ∈ data, y.1.cls = d

theorem Closed.inj {data : List (Decl κ × List κ)} (h : Closed data) {x y : Decl κ × List κ} (hx : x ∈ data) (hy : y ∈ data)
    (e : x.1.cls = y.1.cls) : x = y := by
  have := h.one
  unfold OnePerClass at this
  rw [List.map_map] at this
  clear h
  induction data with
  | nil => cases hx
  | cons r rs ih =>
    rw [List.map_cons, List.nodup_cons] at this
    rcases List.mem_cons.1 hx with rfl | ha
    · rcases List.mem_cons.1 hy with rfl | hb
      · rfl
      · exact absurd (List.mem_map.2 ⟨y, hb, e.symm⟩) this.1
    · rcases List.mem_cons.1 hy with rfl | hb
      · exact absurd (List.mem_map.2 ⟨x, ha, e⟩) this.1
      · exact ih ha hb this.2

theorem mem_dropReady {data : List (Decl κ × List κ)} {o : List (Decl κ)} {x : Decl κ × List κ} : x ∈ dropReady o data ↔
    ∃ y ∈ data, y.1 ∉ o ∧ x = (y.1, y.2.filter fun d => !o.any fun z => decide (z.cls = d)) := by
  unfold dropReady
  rw [List.mem_map]
  constructor
  · rintro ⟨y, hy, rfl⟩
    rw [List.mem_filter] at hy
    exact ⟨y, hy.1, by simpa using hy.2, rfl⟩
  · rintro ⟨y, hy, hyo, rfl⟩
    exact ⟨y, List.mem_filter.2 ⟨hy, by simpa using hyo⟩, rfl⟩

theorem dropReady_fst (data : List (Decl κ × List κ)) (o : List (Decl κ)) :
    (dropReady o data).map Prod.fst = (data.map Prod.fst).filter fun r => decide (r ∉ o) := by
  unfold dropReady
  rw [List.map_map, List.filter_map]
  rfl

theorem Closed.drop {data : List (Decl κ × List κ)} (h : Closed data) : Closed (dropReady (readyOf data) data) where
  one := by rw [dropReady_fst]; exact h.one.sublist List.filter_sublist
  dep := by
    intro x hx d hd
    obtain ⟨y, hy, _, rfl⟩ := mem_dropReady.1 hx
    simp only [List.mem_filter, Bool.not_eq_true', List.any_eq_false, decide_eq_true_eq] at hd
    obtain ⟨z, hz, rfl⟩ := h.dep y hy d hd.1
    refine ⟨(z.1, _), mem_dropReady.2 ⟨z, hz, ?_, rfl⟩, rfl⟩
    intro hr
    exact hd.2 _ hr rfl

theorem perm_ready {data : List (Decl κ × List κ)} (h : Closed data) :
    (readyOf data ++ (dropReady (readyOf data) data).map Prod.fst).Perm (data.map Prod.fst) := by
  have hn := h.one.nodup
  have hr : (readyOf data).Nodup := by
    unfold readyOf
    exact List.Sublist.nodup (List.Sublist.map _ List.filter_sublist) hn
  rw [List.perm_ext_iff_of_nodup]
  · intro r
    rw [dropReady_fst, List.mem_append, List.mem_filter]
    constructor
    · rintro (h1 | h1)
      · exact List.mem_map.2 ⟨_, mem_readyOf.1 h1, rfl⟩
      · exact h1.1
    · intro h1
      by_cases hc : r ∈ readyOf data
      · exact Or.inl hc
      · exact Or.inr ⟨h1, by simpa using hc⟩
  · rw [dropReady_fst, List.nodup_append]
    refine ⟨hr, hn.filter _, ?_⟩
    rintro a ha b hb rfl
    rw [List.mem_filter] at hb
    simp [ha] at hb
  · exact hn

/-- What the loop leaves behind: nothing, or items each of which waits for another one left behind. -/
theorem layers_spec : ∀ {n : Nat} {data : List (Decl κ × List κ)}, Closed data → data.length ≤ n →
    ∃ left, ((layers n data).1.flatten ++ left).Perm (data.map Prod.fst) ∧ ((layers n data).2 = false ↔ left = []) ∧
      ∀ a ∈ left, ∃ x ∈ data, x.1 = a ∧ ∃ d ∈ x.2, ∃ b ∈ left, b.cls = d
  | 0, data, _, hl => by
    have : data = [] := List.eq_nil_of_length_eq_zero (by omega)
    subst this
    exact ⟨[], by simp [layers], by simp [layers], nofun⟩
  | n + 1, data, h, hl => by
    unfold layers
    by_cases hr : (readyOf data).isEmpty = true
    · rw [if_pos hr]
      have hr' : readyOf data = [] := by simpa using hr
      refine ⟨data.map Prod.fst, by simp, by simp, ?_⟩
      intro a ha
      obtain ⟨x, hx, rfl⟩ := List.mem_map.1 ha
      refine ⟨x, hx, rfl, ?_⟩
      obtain ⟨x1, x2⟩ := x
      cases x2 with
      | nil =>
        have := mem_readyOf.2 hx
        rw [hr'] at this; cases this
      | cons d ds =>
        obtain ⟨y, hy, hd⟩ := h.dep _ hx d (by simp)
        exact ⟨d, by simp, y.1, List.mem_map.2 ⟨y, hy, rfl⟩, hd⟩
    · rw [if_neg hr]
      have hp := perm_ready h
      have hlen : (dropReady (readyOf data) data).length ≤ n := by
        have h1 := hp.length_eq
        rw [List.length_append, List.length_map, List.length_map] at h1
        have : 0 < (readyOf data).length := by
          rw [List.length_pos_iff]; simpa using hr
        omega
      obtain ⟨left, p1, p2, p3⟩ := layers_spec h.drop hlen
      refine ⟨left, ?_, p2, ?_⟩
      · rw [List.flatten_cons, List.append_assoc]
        exact (p1.append_left _).trans hp
      · intro a ha
        obtain ⟨x, hx, rfl, d, hd, b, hb⟩ := p3 a ha
        obtain ⟨y, hy, _, rfl⟩ := mem_dropReady.1 hx
        exact ⟨y, hy, rfl, d, (List.mem_filter.1 hd).1, b, hb⟩

/-- An item comes in a later layer than the items it depends on. -/
theorem layers_dep : ∀ {n : Nat} {data : List (Decl κ × List κ)} {x : Decl κ × List κ} {d : κ}, Closed data → x ∈ data → d ∈ x.2 →
    x.1 ∈ (layers n data).1.flatten →
    ∃ pre layer post, (layers n data).1 = pre ++ layer :: post ∧ x.1 ∈ layer ∧ ∃ b ∈ pre.flatten, b.cls = d
  | 0, data, x, d, _, _, _, hin => by simp [layers] at hin
  | n + 1, data, x, d, h, hx, hd, hin => by
    unfold layers at hin ⊢
    by_cases hr : (readyOf data).isEmpty = true
    · rw [if_pos hr] at hin; simp at hin
    · rw [if_neg hr] at hin ⊢
      have hnot : x.1 ∉ readyOf data := by
        intro hc
        have := h.inj hx (mem_readyOf.1 hc) rfl
        rw [this] at hd; cases hd
      rw [List.flatten_cons, List.mem_append] at hin
      replace hin := hin.resolve_left hnot
      by_cases hdr : ∃ b ∈ readyOf data, b.cls = d
      · obtain ⟨b, hb, hbd⟩ := hdr
        rw [List.mem_flatten] at hin
        obtain ⟨L, hL, hxL⟩ := hin
        obtain ⟨pre, post, e⟩ := List.append_of_mem hL
        refine ⟨readyOf data :: pre, L, post, by rw [e]; rfl, hxL, b, ?_, hbd⟩
        rw [List.flatten_cons]; exact List.mem_append_left _ hb
      · obtain ⟨pre, L, post, e, hxL, b, hb, hbd⟩ := layers_dep (x := (x.1, x.2.filter fun d => !(readyOf data).any fun z => decide (z.cls = d)))
          (d := d) h.drop (mem_dropReady.2 ⟨x, hx, hnot, rfl⟩) (by
            rw [List.mem_filter]
            refine ⟨hd, ?_⟩
            rw [Bool.not_eq_true', List.any_eq_false]
            intro b hb hc
            exact hdr ⟨b, hb, by simpa using hc⟩) hin
        refine ⟨readyOf data :: pre, L, post, by rw [e]; rfl, hxL, b, ?_, hbd⟩
        rw [List.flatten_cons]; exact List.mem_append_right _ hb

theorem closed_graph {g : List (Decl κ)} (h : OnePerClass g) : Closed (ruleGraph g) where
  one := by
    have : (ruleGraph g).map Prod.fst = g := by unfold ruleGraph; rw [List.map_map]; exact List.map_id' g
    rw [this]; exact h
  dep := by
    intro x hx d hd
    obtain ⟨r, hr, rfl⟩ := List.mem_map.1 hx
    simp only [List.mem_filter, Bool.and_eq_true, decide_eq_true_eq, List.any_eq_true] at hd
    obtain ⟨_, _, y, hy, e⟩ := hd
    exact ⟨_, List.mem_map.2 ⟨y, hy, rfl⟩, e⟩

theorem ruleGraph_fst (g : List (Decl κ)) : (ruleGraph g).map Prod.fst = g := by
  unfold ruleGraph; rw [List.map_map]; exact List.map_id' g

theorem mem_ruleGraph_deps {g : List (Decl κ)} {a b : Decl κ} (hb : b ∈ g) (h : DependsOn a b) :
    b.cls ∈ a.deps.filter fun d => decide (d ≠ a.cls) && g.any fun x => decide (x.cls = d) := by
  rw [List.mem_filter]
  refine ⟨h.1, ?_⟩
  rw [Bool.and_eq_true, decide_eq_true_eq, List.any_eq_true]
  exact ⟨h.2, b, hb, by simp⟩

/-! ### One priority -/

/-- `shuffle` enumerates a set in some order. -/
def Shuffles (shuffle : List (Decl κ) → List (Decl κ)) : Prop := ∀ l, (shuffle l).Perm l

theorem sortLayer_perm {shuffle : List (Decl κ) → List (Decl κ)} (hs : Shuffles shuffle) (all l : List (Decl κ)) :
    (sortLayer shuffle all l).Perm l := (sortBy_perm _ _).trans (hs l)

theorem flatten_map_perm {f : List (Decl κ) → List (Decl κ)} (hf : ∀ l, (f l).Perm l) : ∀ ls : List (List (Decl κ)),
    (ls.map f).flatten.Perm ls.flatten
  | [] => .refl _
  | l :: ls => by
    rw [List.map_cons, List.flatten_cons, List.flatten_cons]
    exact (hf l).append (flatten_map_perm hf ls)

theorem runsBefore_of_mem {l1 l2 : List (Decl κ)} {a b : Decl κ} (ha : a ∈ l1) (hb : b ∈ l2) : RunsBefore (l1 ++ l2) a b := by
  obtain ⟨x, y, rfl⟩ := List.append_of_mem ha
  obtain ⟨z, w, rfl⟩ := List.append_of_mem hb
  exact ⟨x, y ++ z, w, by simp⟩

theorem Spec.RunsBefore.append_right {l : List (Decl κ)} {a b : Decl κ} (h : RunsBefore l a b) (r : List (Decl κ)) : RunsBefore (l ++ r) a b := by
  obtain ⟨x, y, z, rfl⟩ := h
  exact ⟨x, y, z ++ r, by simp⟩

theorem Spec.RunsBefore.append_left {l : List (Decl κ)} {a b : Decl κ} (h : RunsBefore l a b) (r : List (Decl κ)) : RunsBefore (r ++ l) a b := by
  obtain ⟨x, y, z, rfl⟩ := h
  exact ⟨r ++ x, y, z, by simp⟩

theorem runGroup_eq {shuffle : List (Decl κ) → List (Decl κ)} {all g : List (Decl κ)} (h : OnePerClass g) : runGroup shuffle all g =
    (((layers g.length (ruleGraph g)).1.map (sortLayer shuffle all)).flatten,
      if (layers g.length (ruleGraph g)).2 then some .cyclic else none) := by
  unfold runGroup
  rw [hasDuplicate_false.2 h]
  rfl

theorem runGroup_spec {shuffle : List (Decl κ) → List (Decl κ)} (hs : Shuffles shuffle) {all g : List (Decl κ)} (h : OnePerClass g) :
    ∃ left, ((runGroup shuffle all g).1 ++ left).Perm g ∧ ((runGroup shuffle all g).2 = none ↔ left = []) ∧
      ((runGroup shuffle all g).2 = none ∨ (runGroup shuffle all g).2 = some .cyclic) ∧
      ∀ a ∈ left, ∃ b ∈ left, DependsOn a b := by
  rw [runGroup_eq h]
  obtain ⟨left, p1, p2, p3⟩ := layers_spec (n := g.length) (closed_graph h) (by unfold ruleGraph; rw [List.length_map]; exact Nat.le_refl _)
  refine ⟨left, ?_, ?_, ?_, ?_⟩
  · rw [ruleGraph_fst] at p1
    exact ((flatten_map_perm (sortLayer_perm hs all) _).append_right _).trans p1
  · rw [← p2]
    cases (layers g.length (ruleGraph g)).2 <;> simp
  · cases (layers g.length (ruleGraph g)).2 <;> simp
  · intro a ha
    obtain ⟨x, hx, rfl, d, hd, b, hb, hbd⟩ := p3 a ha
    refine ⟨b, hb, ?_⟩
    obtain ⟨r, hr, rfl⟩ := List.mem_map.1 hx
    simp only [List.mem_filter, Bool.and_eq_true, decide_eq_true_eq, List.any_eq_true] at hd
    rw [← hbd] at hd
    exact ⟨hd.1, hd.2.1⟩

theorem runGroup_dep {shuffle : List (Decl κ) → List (Decl κ)} (hs : Shuffles shuffle) {all g : List (Decl κ)} (h : OnePerClass g)
    {a b : Decl κ} (ha : a ∈ (runGroup shuffle all g).1) (hb : b ∈ g) (hd : DependsOn a b) : RunsBefore (runGroup shuffle all g).1 b a := by
  rw [runGroup_eq h] at ha ⊢
  simp only at ha ⊢
  have hag : a ∈ g := by
    obtain ⟨left, p1, _⟩ := layers_spec (n := g.length) (closed_graph h) (by unfold ruleGraph; rw [List.length_map]; exact Nat.le_refl _)
    have := (flatten_map_perm (sortLayer_perm hs all) _).mem_iff.1 ha
    rw [ruleGraph_fst] at p1
    exact p1.mem_iff.1 (List.mem_append_left _ this)
  obtain ⟨pre, L, post, e, haL, b', hb', hbc⟩ := layers_dep (n := g.length) (closed_graph h)
    (x := (a, a.deps.filter fun d => decide (d ≠ a.cls) && g.any fun x => decide (x.cls = d))) (d := b.cls)
    (List.mem_map.2 ⟨a, hag, rfl⟩) (mem_ruleGraph_deps hb hd) ((flatten_map_perm (sortLayer_perm hs all) _).mem_iff.1 ha)
  have hbg : b' ∈ g := by
    obtain ⟨left, p1, _⟩ := layers_spec (n := g.length) (closed_graph h) (by unfold ruleGraph; rw [List.length_map]; exact Nat.le_refl _)
    rw [ruleGraph_fst] at p1
    refine p1.mem_iff.1 (List.mem_append_left _ ?_)
    rw [e, List.flatten_append]
    exact List.mem_append_left _ hb'
  have := h.inj hbg hb hbc
  subst this
  rw [e, List.map_append, List.flatten_append, List.map_cons, List.flatten_cons]
  refine runsBefore_of_mem ((flatten_map_perm (sortLayer_perm hs all) _).mem_iff.2 hb') ?_
  exact List.mem_append_left _ ((sortLayer_perm hs all L).mem_iff.2 haL)

/-! ### The groups -/

theorem joinGroup_flatten (r : Decl κ) (gs : List (List (Decl κ))) : (joinGroup r gs).flatten = r :: gs.flatten := by
  unfold joinGroup
  split
  · split <;> simp
  · simp

theorem groupRules_flatten : ∀ rs : List (Decl κ), (groupRules rs).flatten = rs
  | [] => rfl
  | r :: rs => by rw [groupRules, joinGroup_flatten, groupRules_flatten rs]

/-- The groups are not empty, each has one priority, and the priorities go down. -/
structure Descending (gs : List (List (Decl κ))) : Prop where
  ne : ∀ g ∈ gs, g ≠ []
  level : ∀ g ∈ gs, ∀ a ∈ g, ∀ b ∈ g, a.priority = b.priority
  down : gs.Pairwise fun g g' => ∀ a ∈ g, ∀ b ∈ g', b.priority < a.priority

theorem groupRules_descending : ∀ {rs : List (Decl κ)}, rs.Pairwise (fun a b => b.priority ≤ a.priority) → Descending (groupRules rs)
  | [], _ => ⟨nofun, nofun, .nil⟩
  | r :: rs, h => by
    rw [List.pairwise_cons] at h
    have ih := groupRules_descending h.2
    have hle : ∀ g ∈ groupRules rs, ∀ b ∈ g, b.priority ≤ r.priority := by
      intro g hg b hb
      apply h.1
      rw [← groupRules_flatten rs]
      exact List.mem_flatten.2 ⟨g, hg, hb⟩
    rw [groupRules]
    generalize groupRules rs = gs at ih hle
    unfold joinGroup
    split
    · rename_i x xs gs
      have hd := ih.down
      rw [List.pairwise_cons] at hd
      split
      · rename_i hp
        refine ⟨?_, ?_, ?_⟩
        · intro g hg
          rcases List.mem_cons.1 hg with rfl | hg
          · simp
          · exact ih.ne g (List.mem_cons_of_mem _ hg)
        · intro g hg a ha b hb
          rcases List.mem_cons.1 hg with rfl | hg
          · have key : ∀ c ∈ r :: x :: xs, c.priority = x.priority := by
              intro c hc
              rcases List.mem_cons.1 hc with rfl | hc
              · exact hp
              · exact ih.level _ (by simp) c hc x (by simp)
            rw [key a ha, key b hb]
          · exact ih.level g (List.mem_cons_of_mem _ hg) a ha b hb
        · rw [List.pairwise_cons]
          refine ⟨?_, hd.2⟩
          intro g hg a ha b hb
          rcases List.mem_cons.1 ha with rfl | ha
          · rw [hp]; exact hd.1 g hg x (by simp) b hb
          · exact hd.1 g hg a ha b hb
      · rename_i hp
        refine ⟨?_, ?_, ?_⟩
        · intro g hg
          rcases List.mem_cons.1 hg with rfl | hg
          · simp
          · exact ih.ne g hg
        · intro g hg a ha b hb
          rcases List.mem_cons.1 hg with rfl | hg
          · simp only [List.mem_singleton] at ha hb; rw [ha, hb]
          · exact ih.level g hg a ha b hb
        · rw [List.pairwise_cons]
          refine ⟨?_, ih.down⟩
          intro g hg a ha b hb
          simp only [List.mem_singleton] at ha
          subst ha
          have hx : x.priority < a.priority := by
            have := hle (x :: xs) (by simp) x (by simp)
            omega
          rcases List.mem_cons.1 hg with rfl | hg
          · rw [ih.level _ (by simp) b hb x (by simp)]; exact hx
          · have := hd.1 g hg x (by simp) b hb; omega
    · rename_i hne
      cases gs with
      | nil =>
        refine ⟨by simp, ?_, by simp⟩
        intro g hg a ha b hb
        simp only [List.mem_singleton] at hg
        subst hg
        simp only [List.mem_singleton] at ha hb; rw [ha, hb]
      | cons g gs =>
        cases g with
        | nil => exact absurd rfl (ih.ne [] (by simp))
        | cons x xs => exact absurd rfl (hne x xs gs)

theorem byPriority_weak : StrictWeak fun a b : Decl κ => decide (b.priority < a.priority) where
  asymm := by intro a b h; simp only [decide_eq_true_eq] at h; simp; omega
  trans := by intro a b c h1 h2; simp only [decide_eq_false_iff_not] at h1 h2 ⊢; omega

theorem byPriority_sorted (rs : List (Decl κ)) : (byPriority rs).Pairwise fun a b => b.priority ≤ a.priority := by
  refine (sortBy_sorted byPriority_weak rs).imp ?_
  intro a b h
  simp only [decide_eq_false_iff_not] at h
  omega

theorem runGroups_spec {shuffle : List (Decl κ) → List (Decl κ)} (hs : Shuffles shuffle) {all : List (Decl κ)} :
    ∀ {gs : List (List (Decl κ))}, Descending gs → OnePerClass gs.flatten →
    ∃ left, ((runGroups shuffle all gs).1 ++ left).Perm gs.flatten ∧
      ((runGroups shuffle all gs).2 = none → left = []) ∧
      ((runGroups shuffle all gs).2 = none ∨ (runGroups shuffle all gs).2 = some .cyclic ∧ ∃ stuck, Deadlock gs.flatten stuck) ∧
      (runGroups shuffle all gs).1.Pairwise (fun a b => b.priority ≤ a.priority) ∧
      ∀ a ∈ (runGroups shuffle all gs).1, ∀ b ∈ gs.flatten, (a.priority < b.priority ∨ a.priority = b.priority ∧ DependsOn a b) →
        RunsBefore (runGroups shuffle all gs).1 b a
  | [], _, _ => ⟨[], by simp [runGroups], by simp, by simp [runGroups], by simp [runGroups], by simp [runGroups]⟩
  | g :: gs, hd, h1 => by
    have hdn := hd.down
    rw [List.pairwise_cons] at hdn
    have hd' : Descending gs := ⟨fun x hx => hd.ne x (List.mem_cons_of_mem _ hx), fun x hx => hd.level x (List.mem_cons_of_mem _ hx), hdn.2⟩
    rw [List.flatten_cons] at h1
    have hg1 : OnePerClass g := h1.sublist (List.sublist_append_left _ _)
    have hgs1 : OnePerClass gs.flatten := h1.sublist (List.sublist_append_right _ _)
    obtain ⟨left, p1, p2, p3, p4⟩ := runGroup_spec hs (all := all) hg1
    have hmem : ∀ a ∈ (runGroup shuffle all g).1, a ∈ g := fun a ha => p1.mem_iff.1 (List.mem_append_left _ ha)
    have hsame : (runGroup shuffle all g).1.Pairwise (fun a b => b.priority ≤ a.priority) := by
      refine List.Pairwise.imp_of_mem (R := fun _ _ => True) ?_ (List.pairwise_of_forall fun _ _ => trivial)
      intro a b ha hb _
      rw [hd.level g (by simp) a (hmem a ha) b (hmem b hb)]
      exact Int.le_refl _
    have hlow : ∀ b ∈ gs.flatten, ∀ a ∈ g, b.priority < a.priority := by
      intro b hb a ha
      obtain ⟨g', hg', hb'⟩ := List.mem_flatten.1 hb
      exact hdn.1 g' hg' a ha b hb'
    have hdepg : ∀ a ∈ (runGroup shuffle all g).1, ∀ b ∈ (g :: gs).flatten,
        (a.priority < b.priority ∨ a.priority = b.priority ∧ DependsOn a b) → RunsBefore (runGroup shuffle all g).1 b a := by
      intro a ha b hb hab
      rw [List.flatten_cons, List.mem_append] at hb
      rcases hb with hb | hb
      · have := hd.level g (by simp) a (hmem a ha) b hb
        rcases hab with hab | hab
        · omega
        · exact runGroup_dep hs hg1 ha hb hab.2
      · have := hlow b hb a (hmem a ha)
        rcases hab with hab | hab <;> omega
    unfold runGroups
    rcases p3 with hn | hc
    · rw [hn]
      have hl : left = [] := p2.1 hn
      subst hl
      rw [List.append_nil] at p1
      obtain ⟨left', q1, q2, q3, q4, q5⟩ := runGroups_spec hs (all := all) hd' hgs1
      refine ⟨left', ?_, q2, ?_, ?_, ?_⟩
      · simp only [List.flatten_cons, List.append_assoc]
        exact p1.append q1
      · rcases q3 with q3 | ⟨q3, stuck, hst⟩
        · exact Or.inl q3
        · exact Or.inr ⟨q3, stuck, hst.some, fun a ha => by rw [List.flatten_cons]; exact List.mem_append_right _ (hst.among a ha), hst.level, hst.wait⟩
      · rw [List.pairwise_append]
        refine ⟨hsame, q4, ?_⟩
        intro a ha b hb
        exact Int.le_of_lt (hlow b (q1.mem_iff.1 (List.mem_append_left _ hb)) a (hmem a ha))
      · intro a ha b hb hab
        rcases List.mem_append.1 ha with ha | ha
        · exact (hdepg a ha b hb hab).append_right _
        · rw [List.flatten_cons, List.mem_append] at hb
          rcases hb with hb | hb
          · exact runsBefore_of_mem (p1.mem_iff.2 hb) ha
          · exact (q5 a ha b hb hab).append_left _
    · rw [hc]
      refine ⟨left ++ gs.flatten, ?_, nofun, ?_, hsame, hdepg⟩
      · rw [List.flatten_cons, ← List.append_assoc]
        exact p1.append_right _
      · refine Or.inr ⟨rfl, left, ?_, ?_, ?_, p4⟩
        · intro hl
          rw [p2.2 hl] at hc; cases hc
        · intro a ha
          rw [List.flatten_cons]
          exact List.mem_append_left _ (p1.mem_iff.1 (List.mem_append_right _ ha))
        · intro a ha b hb
          exact hd.level g (by simp) a (p1.mem_iff.1 (List.mem_append_right _ ha)) b (p1.mem_iff.1 (List.mem_append_right _ hb))

theorem Spec.Deadlock.perm {rs rs' stuck : List (Decl κ)} (p : rs.Perm rs') (h : Deadlock rs stuck) : Deadlock rs' stuck :=
  ⟨h.some, fun a ha => p.mem_iff.1 (h.among a ha), h.level, h.wait⟩

theorem schedule_spec {shuffle : List (Decl κ) → List (Decl κ)} (hs : Shuffles shuffle) {rs : List (Decl κ)} (h : OnePerClass rs) :
    ∃ left, ((schedule shuffle rs).1 ++ left).Perm rs ∧
      ((schedule shuffle rs).2 = none → left = []) ∧
      ((schedule shuffle rs).2 = none ∨ (schedule shuffle rs).2 = some .cyclic ∧ ∃ stuck, Deadlock rs stuck) ∧
      (schedule shuffle rs).1.Pairwise (fun a b => b.priority ≤ a.priority) ∧
      ∀ a ∈ (schedule shuffle rs).1, ∀ b ∈ rs, (a.priority < b.priority ∨ a.priority = b.priority ∧ DependsOn a b) →
        RunsBefore (schedule shuffle rs).1 b a := by
  have hp : (groupRules (byPriority rs)).flatten.Perm rs := by rw [groupRules_flatten]; exact sortBy_perm _ _
  obtain ⟨left, q1, q2, q3, q4, q5⟩ := runGroups_spec hs (all := rs) (groupRules_descending (byPriority_sorted rs)) (h.perm hp.symm)
  refine ⟨left, q1.trans hp, q2, ?_, q4, ?_⟩
  · rcases q3 with q3 | ⟨q3, stuck, hst⟩
    · exact Or.inl q3
    · exact Or.inr ⟨q3, stuck, hst.perm hp⟩
  · intro a ha b hb hab
    exact q5 a ha b (hp.mem_iff.2 hb) hab

/-- What does not run waits for something of its priority that does not run, or has a lower priority than such a rule. -/
theorem runGroups_left {shuffle : List (Decl κ) → List (Decl κ)} (hs : Shuffles shuffle) {all : List (Decl κ)} :
    ∀ {gs : List (List (Decl κ))}, Descending gs → OnePerClass gs.flatten → ∀ a ∈ gs.flatten, a ∉ (runGroups shuffle all gs).1 →
    ∃ b ∈ gs.flatten, b ∉ (runGroups shuffle all gs).1 ∧ (a.priority < b.priority ∨ a.priority = b.priority ∧ DependsOn a b)
  | [], _, _, a, ha, _ => by simp at ha
  | g :: gs, hd, h1, a, ha, hna => by
    have hdn := hd.down
    rw [List.pairwise_cons] at hdn
    have hd' : Descending gs := ⟨fun x hx => hd.ne x (List.mem_cons_of_mem _ hx), fun x hx => hd.level x (List.mem_cons_of_mem _ hx), hdn.2⟩
    rw [List.flatten_cons] at h1 ha
    have hg1 : OnePerClass g := h1.sublist (List.sublist_append_left _ _)
    have hgs1 : OnePerClass gs.flatten := h1.sublist (List.sublist_append_right _ _)
    obtain ⟨left, p1, p2, p3, p4⟩ := runGroup_spec hs (all := all) hg1
    have hnd := p1.nodup_iff.2 hg1.nodup
    rw [List.nodup_append] at hnd
    have hleft : ∀ b ∈ left, b ∉ (runGroup shuffle all g).1 := fun b hb hc => hnd.2.2 b hc b hb rfl
    have hlow : ∀ b ∈ gs.flatten, ∀ a ∈ g, b.priority < a.priority := by
      intro b hb a ha
      obtain ⟨g', hg', hb'⟩ := List.mem_flatten.1 hb
      exact hdn.1 g' hg' a ha b hb'
    unfold runGroups at hna ⊢
    rcases p3 with hn | hc
    · rw [hn] at hna ⊢
      have hl : left = [] := p2.1 hn
      subst hl
      rw [List.append_nil] at p1
      simp only [List.mem_append, not_or] at hna ⊢
      have ha' : a ∈ gs.flatten := by
        rcases List.mem_append.1 ha with ha | ha
        · exact absurd (p1.mem_iff.2 ha) hna.1
        · exact ha
      obtain ⟨b, hb, hbn, hab⟩ := runGroups_left hs hd' hgs1 a ha' hna.2
      refine ⟨b, by rw [List.flatten_cons]; exact List.mem_append_right _ hb, ⟨?_, hbn⟩, hab⟩
      intro hbg
      have := hlow b hb b (p1.mem_iff.1 hbg)
      omega
    · rw [hc] at hna ⊢
      have hmem : ∀ b ∈ left, b ∈ g := fun b hb => p1.mem_iff.1 (List.mem_append_right _ hb)
      rcases List.mem_append.1 ha with ha | ha
      · have hal : a ∈ left := (List.mem_append.1 (p1.mem_iff.2 ha)).resolve_left hna
        obtain ⟨b, hb, hdep⟩ := p4 a hal
        refine ⟨b, by rw [List.flatten_cons]; exact List.mem_append_left _ (hmem b hb), hleft b hb, Or.inr ⟨hd.level g (by simp) a ha b (hmem b hb), hdep⟩⟩
      · have hne : left ≠ [] := by
          intro hl; rw [p2.2 hl] at hc; cases hc
        obtain ⟨b, hb⟩ := List.exists_mem_of_ne_nil _ hne
        exact ⟨b, by rw [List.flatten_cons]; exact List.mem_append_left _ (hmem b hb), hleft b hb, Or.inl (hlow a ha b (hmem b hb))⟩

theorem Descending.same {gs : List (List (Decl κ))} (h : Descending gs) {g g' : List (Decl κ)} (hg : g ∈ gs) (hg' : g' ∈ gs) {a b : Decl κ}
    (ha : a ∈ g) (hb : b ∈ g') (e : a.priority = b.priority) : g = g' := by
  have hd := h.down
  clear h
  induction gs with
  | nil => cases hg
  | cons x xs ih =>
    rw [List.pairwise_cons] at hd
    rcases List.mem_cons.1 hg with h1 | h1 <;> rcases List.mem_cons.1 hg' with h2 | h2
    · rw [h1, h2]
    · subst h1; have := hd.1 _ h2 a ha b hb; omega
    · subst h2; have := hd.1 _ h1 b hb a ha; omega
    · exact ih h1 h2 hd.2

/-- The turns of one priority are consecutive. -/
theorem runGroups_part {shuffle : List (Decl κ) → List (Decl κ)} (hs : Shuffles shuffle) {all : List (Decl κ)} :
    ∀ {gs : List (List (Decl κ))}, Descending gs → OnePerClass gs.flatten → ∀ {b : Decl κ}, b ∈ (runGroups shuffle all gs).1 →
    ∃ g ∈ gs, b ∈ g ∧ ∃ x y, (runGroups shuffle all gs).1 = x ++ (runGroup shuffle all g).1 ++ y
  | [], _, _, b, hb => by simp [runGroups] at hb
  | g :: gs, hd, h1, b, hb => by
    have hdn := hd.down
    rw [List.pairwise_cons] at hdn
    have hd' : Descending gs := ⟨fun x hx => hd.ne x (List.mem_cons_of_mem _ hx), fun x hx => hd.level x (List.mem_cons_of_mem _ hx), hdn.2⟩
    rw [List.flatten_cons] at h1
    have hg1 : OnePerClass g := h1.sublist (List.sublist_append_left _ _)
    have hgs1 : OnePerClass gs.flatten := h1.sublist (List.sublist_append_right _ _)
    obtain ⟨left, p1, _⟩ := runGroup_spec hs (all := all) hg1
    have hmem : ∀ a ∈ (runGroup shuffle all g).1, a ∈ g := fun a ha => p1.mem_iff.1 (List.mem_append_left _ ha)
    unfold runGroups at hb ⊢
    cases he : (runGroup shuffle all g).2 with
    | some e =>
      rw [he] at hb
      exact ⟨g, by simp, hmem b hb, [], [], by simp⟩
    | none =>
      rw [he] at hb
      rcases List.mem_append.1 hb with hb | hb
      · exact ⟨g, by simp, hmem b hb, [], (runGroups shuffle all gs).1, rfl⟩
      · obtain ⟨g', hg', hbg', x, y, e⟩ := runGroups_part hs hd' hgs1 hb
        refine ⟨g', List.mem_cons_of_mem _ hg', hbg', (runGroup shuffle all g).1 ++ x, y, ?_⟩
        simp only [e, List.append_assoc]

theorem runGroups_in {shuffle : List (Decl κ) → List (Decl κ)} (hs : Shuffles shuffle) {all : List (Decl κ)} :
    ∀ {gs : List (List (Decl κ))}, Descending gs → OnePerClass gs.flatten → ∀ {b : Decl κ}, b ∈ (runGroups shuffle all gs).1 →
    ∀ {g : List (Decl κ)}, g ∈ gs → b ∈ g → b ∈ (runGroup shuffle all g).1
  | [], _, _, b, hb => by simp [runGroups] at hb
  | g0 :: gs, hd, h1, b, hb => by
    rename_i g
    intro hg hbg
    have hdn := hd.down
    rw [List.pairwise_cons] at hdn
    have hd' : Descending gs := ⟨fun x hx => hd.ne x (List.mem_cons_of_mem _ hx), fun x hx => hd.level x (List.mem_cons_of_mem _ hx), hdn.2⟩
    have h1' := h1
    rw [List.flatten_cons] at h1'
    have hg1 : OnePerClass g0 := h1'.sublist (List.sublist_append_left _ _)
    have hgs1 : OnePerClass gs.flatten := h1'.sublist (List.sublist_append_right _ _)
    obtain ⟨left, p1, _⟩ := runGroup_spec hs (all := all) hg1
    have hmem : ∀ a ∈ (runGroup shuffle all g0).1, a ∈ g0 := fun a ha => p1.mem_iff.1 (List.mem_append_left _ ha)
    unfold runGroups at hb
    have first : b ∈ (runGroup shuffle all g0).1 → b ∈ (runGroup shuffle all g).1 := by
      intro hb
      rw [hd.same hg (List.mem_cons_self ..) hbg (hmem b hb) rfl]; exact hb
    cases he : (runGroup shuffle all g0).2 with
    | some e => rw [he] at hb; exact first hb
    | none =>
      rw [he] at hb
      rcases List.mem_append.1 hb with hb | hb
      · exact first hb
      · obtain ⟨g', hg', hbg', _⟩ := runGroups_part hs hd' hgs1 hb
        have := hd.same hg (List.mem_cons_of_mem _ hg') hbg hbg' rfl
        subst this
        exact runGroups_in hs hd' hgs1 hb hg' hbg'

theorem sorted_before {lt : Decl κ → Decl κ → Bool} (hw : StrictWeak lt) {l : List (Decl κ)} {a b : Decl κ}
    (ha : a ∈ l) (hb : b ∈ l) (h : lt a b = true) : RunsBefore (sortBy lt l) a b := by
  have hs := sortBy_sorted hw l
  have ha' := (sortBy_perm lt l).mem_iff.2 ha
  have hb' := (sortBy_perm lt l).mem_iff.2 hb
  generalize sortBy lt l = m at hs ha' hb'
  obtain ⟨x, y, rfl⟩ := List.append_of_mem ha'
  have hne : a ≠ b := by
    rintro rfl
    rw [hw.asymm _ _ h] at h; cases h
  rcases List.mem_append.1 hb' with hb' | hb'
  · rw [List.pairwise_append] at hs
    have := hs.2.2 b hb' a (by simp)
    rw [this] at h; cases h
  · rcases List.mem_cons.1 hb' with hb' | hb'
    · exact absurd hb'.symm hne
    · obtain ⟨z, w, rfl⟩ := List.append_of_mem hb'
      exact ⟨x, z, w, rfl⟩

theorem ruleIndex_lt {all : List (Decl κ)} (h : OnePerClass all) {a b : Decl κ} (hab : RunsBefore all a b) : ruleIndex all a < ruleIndex all b := by
  obtain ⟨x, y, z, rfl⟩ := hab
  unfold OnePerClass at h
  simp only [List.map_append, List.map_cons, List.nodup_append, List.nodup_cons, List.mem_append, List.mem_cons] at h
  obtain ⟨_, ⟨h1, h2, h3, h4⟩, h5⟩ := h
  have ea : ruleIndex (x ++ a :: (y ++ b :: z)) a ≤ x.length := by
    unfold ruleIndex
    rw [List.findIdx_append]
    have : List.findIdx (fun w => decide (w.cls = a.cls)) (a :: (y ++ b :: z)) = 0 := by simp [List.findIdx_cons]
    rw [this]
    split
    · have := List.findIdx_le_length (xs := x) (p := fun w => decide (w.cls = a.cls)); omega
    · omega
  have eb : x.length < ruleIndex (x ++ a :: (y ++ b :: z)) b := by
    unfold ruleIndex
    have hx : List.findIdx (fun w => decide (w.cls = b.cls)) x = x.length := by
      rw [List.findIdx_eq_length]
      intro w hw
      simp only [decide_eq_false_iff_not]
      exact h5 w.cls (List.mem_map.2 ⟨w, hw, rfl⟩) b.cls (Or.inr (Or.inr (Or.inl rfl)))
    have hab : decide (a.cls = b.cls) = false := by
      simp only [decide_eq_false_iff_not]
      exact fun e => h1 (Or.inr (Or.inl e))
    rw [List.findIdx_append, hx, if_neg (by omega), List.findIdx_cons, hab]
    simp only [cond_false]
    omega
  omega

/-- Within a priority: a rule that waits for nothing comes before those that wait, and before those registered later. -/
theorem runGroup_free {shuffle : List (Decl κ) → List (Decl κ)} (hs : Shuffles shuffle) {all g : List (Decl κ)} (h : OnePerClass all)
    (hg : OnePerClass g) (hin : ∀ z ∈ g, z ∈ all) {a b : Decl κ} (ha : a ∈ g) (hb : b ∈ (runGroup shuffle all g).1)
    (hfree : ∀ d ∈ g, ¬ DependsOn a d) (hab : (∃ d ∈ g, DependsOn b d) ∨ RunsBefore all a b) :
    RunsBefore (runGroup shuffle all g).1 a b := by
  have hready : ∀ c ∈ g, c ∈ readyOf (ruleGraph g) ↔ ∀ d ∈ g, ¬ DependsOn c d := by
    intro c hc
    rw [mem_readyOf]
    constructor
    · intro hm d hd hdep
      have := (closed_graph hg).inj hm (List.mem_map.2 ⟨c, hc, rfl⟩) rfl
      have hd' := mem_ruleGraph_deps hd hdep
      rw [Prod.mk.injEq] at this
      rw [← this.2] at hd'; cases hd'
    · intro hn
      refine List.mem_map.2 ⟨c, hc, ?_⟩
      rw [Prod.mk.injEq]
      refine ⟨rfl, ?_⟩
      rw [List.filter_eq_nil_iff]
      intro d hd hc'
      simp only [Bool.and_eq_true, decide_eq_true_eq, List.any_eq_true] at hc'
      obtain ⟨h1, y, hy, rfl⟩ := hc'
      exact hn y hy ⟨hd, h1⟩
  have har := (hready a ha).2 hfree
  rw [runGroup_eq hg] at hb ⊢
  simp only at hb ⊢
  have hlen : ∃ n, g.length = n + 1 := by
    cases g with
    | nil => cases ha
    | cons c g => exact ⟨g.length, rfl⟩
  obtain ⟨n, hn⟩ := hlen
  rw [hn] at hb ⊢
  have hne : ¬ (readyOf (ruleGraph g)).isEmpty = true := by
    intro hc
    rw [List.isEmpty_iff] at hc
    rw [hc] at har; cases har
  unfold layers at hb ⊢
  rw [if_neg hne] at hb ⊢
  simp only [List.map_cons, List.flatten_cons] at hb ⊢
  have ha1 : a ∈ sortLayer shuffle all (readyOf (ruleGraph g)) := (sortLayer_perm hs all _).mem_iff.2 har
  rcases List.mem_append.1 hb with hb1 | hb1
  · have hbr := (sortLayer_perm hs all _).mem_iff.1 hb1
    have hbg : b ∈ g := by
      rw [← ruleGraph_fst g]; exact List.mem_map.2 ⟨_, mem_readyOf.1 hbr, rfl⟩
    rcases hab with ⟨d, hd, hdep⟩ | hab
    · exact absurd hdep ((hready b hbg).1 hbr d hd)
    · refine RunsBefore.append_right ?_ _
      unfold sortLayer
      refine sorted_before ?_ ((hs _).mem_iff.2 har) ((hs _).mem_iff.2 hbr) ?_
      · exact {
          asymm := by intro a b h; simp only [decide_eq_true_eq] at h; simp; omega
          trans := by intro a b c h1 h2; simp only [decide_eq_false_iff_not] at h1 h2 ⊢; omega }
      · simp only [decide_eq_true_eq]
        exact ruleIndex_lt h hab
  · exact runsBefore_of_mem ha1 hb1

/-! ### The order of a set does not matter -/

theorem ruleIndex_inj {all : List (Decl κ)} {a b : Decl κ} (ha : a ∈ all) (e : ruleIndex all a = ruleIndex all b) : a.cls = b.cls := by
  unfold ruleIndex at e
  have h1 : all.findIdx (fun x => decide (x.cls = a.cls)) < all.length := List.findIdx_lt_length_of_exists ⟨a, ha, by simp⟩
  have h2 : all.findIdx (fun x => decide (x.cls = b.cls)) < all.length := by rw [← e]; exact h1
  have g1 := List.findIdx_getElem (w := h1)
  have g2 := List.findIdx_getElem (w := h2)
  simp only [decide_eq_true_eq] at g1 g2
  rw [← g1, ← g2]
  congr 1
  simp only [e]

theorem sortLayer_shuffle {shuffle : List (Decl κ) → List (Decl κ)} (hs : Shuffles shuffle) {all l : List (Decl κ)} (h : OnePerClass all)
    (hl : ∀ a ∈ l, a ∈ all) : sortLayer shuffle all l = sortLayer id all l := by
  have hw : StrictWeak fun a b : Decl κ => decide (ruleIndex all a < ruleIndex all b) := {
    asymm := by intro a b h; simp only [decide_eq_true_eq] at h; simp; omega
    trans := by intro a b c h1 h2; simp only [decide_eq_false_iff_not] at h1 h2 ⊢; omega }
  have hp : (sortLayer shuffle all l).Perm (sortLayer id all l) :=
    (sortLayer_perm hs all l).trans (sortLayer_perm (shuffle := id) (fun l => .refl l) all l).symm
  refine List.Perm.eq_of_pairwise ?_ (sortBy_sorted hw (shuffle l)) (sortBy_sorted hw (id l)) hp
  intro a b ha hb h1 h2
  simp only [decide_eq_false_iff_not] at h1 h2
  have ha' : a ∈ all := hl a ((sortLayer_perm hs all l).mem_iff.1 ha)
  have hb' : b ∈ all := hl b ((sortLayer_perm (shuffle := id) (fun l => .refl l) all l).mem_iff.1 hb)
  exact h.inj ha' hb' (ruleIndex_inj ha' (by omega))

theorem layers_mem : ∀ {n : Nat} {data : List (Decl κ × List κ)} {l : List (Decl κ)} {a : Decl κ}, l ∈ (layers n data).1 → a ∈ l →
    a ∈ data.map Prod.fst
  | 0, data, l, a, hl, _ => by simp [layers] at hl
  | n + 1, data, l, a, hl, ha => by
    unfold layers at hl
    by_cases hr : (readyOf data).isEmpty = true
    · rw [if_pos hr] at hl; simp at hl
    · rw [if_neg hr] at hl
      rcases List.mem_cons.1 hl with rfl | hl
      · exact List.mem_map.2 ⟨_, mem_readyOf.1 ha, rfl⟩
      · have := layers_mem hl ha
        rw [dropReady_fst, List.mem_filter] at this
        exact this.1

theorem runGroups_shuffle {shuffle : List (Decl κ) → List (Decl κ)} (hs : Shuffles shuffle) {all : List (Decl κ)} (h : OnePerClass all) :
    ∀ {gs : List (List (Decl κ))}, (∀ a ∈ gs.flatten, a ∈ all) → runGroups shuffle all gs = runGroups id all gs
  | [], _ => rfl
  | g :: gs, hm => by
    have hg : runGroup shuffle all g = runGroup id all g := by
      unfold runGroup
      split
      · rfl
      · congr 2
        apply List.map_congr_left
        intro l hl
        apply sortLayer_shuffle hs h
        intro a ha
        apply hm
        have := layers_mem hl ha
        rw [ruleGraph_fst] at this
        rw [List.flatten_cons]; exact List.mem_append_left _ this
    unfold runGroups
    rw [hg, runGroups_shuffle hs h (gs := gs) (fun a ha => hm a (by rw [List.flatten_cons]; exact List.mem_append_right _ ha))]

end Guessit
