import Verif.Props.ProgramNamesOther

/-! # The families of a program run: identities, and what is reported -/

namespace Guessit
open Spec

theorem kidsFrom_ids (r : Mt) : ∀ (bs : List Bud) (n : Nat), (kidsFrom r n bs).map Mt.id = List.range' n bs.length
  | [], _ => rfl
  | b :: bs, n => by
    rw [kidsFrom, List.map_cons, kidsFrom_ids r bs (n + 1)]
    rfl

theorem mem_kids_zip {r : Mt} : ∀ {bs : List Bud} {n : Nat} {x : Mt × Bud}, x ∈ (kidsFrom r n bs).zip bs → x.2 ∈ bs ∧ ∃ i, x.1 = x.2.under r i
  | [], _, _, h => by simp [kidsFrom] at h
  | b :: bs, n, x, h => by
    rw [kidsFrom, List.zip_cons_cons, List.mem_cons] at h
    rcases h with rfl | h
    · exact ⟨List.mem_cons_self, n, rfl⟩
    · obtain ⟨h1, h2⟩ := mem_kids_zip h
      exact ⟨List.mem_cons_of_mem _ h1, h2⟩

theorem kidsFrom_length (r : Mt) : ∀ (bs : List Bud) (n : Nat), (kidsFrom r n bs).length = bs.length
  | [], _ => rfl
  | b :: bs, n => by rw [kidsFrom, List.length_cons, kidsFrom_length r bs (n + 1), List.length_cons]

theorem mem_kidsFrom {r : Mt} {bs : List Bud} {n : Nat} {m : Mt} (h : m ∈ kidsFrom r n bs) : ∃ b ∈ bs, ∃ i, m = b.under r i := by
  have : m ∈ ((kidsFrom r n bs).zip bs).map Prod.fst := by rw [List.map_fst_zip (by rw [kidsFrom_length])]; exact h
  obtain ⟨x, hx, rfl⟩ := List.mem_map.1 this
  obtain ⟨h1, h2⟩ := mem_kids_zip hx
  exact ⟨x.2, h1, h2⟩

theorem grow_ids (F : Family) (d n : Nat) : (F.grow d n).all.map Mt.id = List.range' n (1 + F.real.length) := by
  rw [Nat.add_comm, Grown.all, List.map_cons, List.range'_succ]
  congr 1
  exact kidsFrom_ids _ _ _

theorem grow_live_sub (F : Family) (d n : Nat) : (F.grow d n).live.Sublist (F.grow d n).all := by
  have h1 : (((kidsFrom (F.root.alone n) (n + 1) F.real).zip F.real).filter fun x => x.2.live).map Prod.fst |>.Sublist
      (kidsFrom (F.root.alone n) (n + 1) F.real) := by
    have := (List.filter_sublist (l := (kidsFrom (F.root.alone n) (n + 1) F.real).zip F.real) (p := fun x => x.2.live)).map Prod.fst
    rwa [List.map_fst_zip (by rw [kidsFrom_length])] at this
  simp only [Family.grow, Grown.all]
  split
  · exact h1.cons_cons _
  · exact h1.cons _

theorem mem_grow_live {F : Family} {d n : Nat} {m : Mt} (h : m ∈ (F.grow d n).live) :
    (m = F.root.alone n ∧ F.root.live = true) ∨ ∃ b ∈ F.kids, b.start < b.stop ∧ b.live = true ∧ ∃ i, m = b.under (F.root.alone n) i := by
  simp only [Family.grow, List.mem_append] at h
  rcases h with h | h
  · split at h
    · exact Or.inl ⟨List.mem_singleton.1 h, ‹_›⟩
    · cases h
  · obtain ⟨x, hx, rfl⟩ := List.mem_map.1 h
    obtain ⟨hx, hl⟩ := List.mem_filter.1 hx
    obtain ⟨h1, h2⟩ := mem_kids_zip hx
    obtain ⟨h1, h3⟩ := List.mem_filter.1 h1
    exact Or.inr ⟨x.2, h1, of_decide_eq_true h3, hl, h2⟩

theorem mem_grow_all {F : Family} {d n : Nat} {m : Mt} (h : m ∈ (F.grow d n).all) :
    m = F.root.alone n ∨ ∃ b ∈ F.kids, b.start < b.stop ∧ ∃ i, m = b.under (F.root.alone n) i := by
  rcases List.mem_cons.1 h with h | h
  · exact Or.inl h
  · obtain ⟨b, hb, hi⟩ := mem_kidsFrom h
    obtain ⟨h1, h3⟩ := List.mem_filter.1 hb
    exact Or.inr ⟨b, h1, of_decide_eq_true h3, hi⟩

theorem mem_growFrom : ∀ {fs : List (Nat × Family)} {n : Nat} {G : Grown}, G ∈ growFrom n fs →
    ∃ x ∈ fs, x.2.root.start < x.2.root.stop ∧ ∃ i, G = x.2.grow x.1 i
  | [], _, _, h => by simp [growFrom] at h
  | (d, F) :: fs, n, G, h => by
    rw [growFrom] at h
    split at h
    · rcases List.mem_cons.1 h with rfl | h
      · exact ⟨(d, F), List.mem_cons_self, ‹_›, n, rfl⟩
      · obtain ⟨x, hx, h⟩ := mem_growFrom h
        exact ⟨x, List.mem_cons_of_mem _ hx, h⟩
    · obtain ⟨x, hx, h⟩ := mem_growFrom h
      exact ⟨x, List.mem_cons_of_mem _ hx, h⟩

/-- The identities are those from `n` on, once each. -/
theorem growFrom_ids : ∀ (fs : List (Nat × Family)) (n : Nat), ∃ k, ((growFrom n fs).flatMap Grown.all).map Mt.id = List.range' n k
  | [], _ => ⟨0, rfl⟩
  | (d, F) :: fs, n => by
    rw [growFrom]
    split
    · obtain ⟨k, hk⟩ := growFrom_ids fs (n + 1 + F.real.length)
      refine ⟨1 + F.real.length + k, ?_⟩
      rw [List.flatMap_cons, List.map_append, hk, grow_ids, Nat.add_assoc n]
      exact List.range'_append_1
    · exact growFrom_ids fs n

theorem growFrom_nodup (n : Nat) (fs : List (Nat × Family)) : (((growFrom n fs).flatMap Grown.all).map Mt.id).Nodup := by
  obtain ⟨k, hk⟩ := growFrom_ids fs n
  rw [hk]
  exact List.nodup_range'

theorem flatMap_sub {f h : Grown → List Mt} : ∀ {gs : List Grown}, (∀ g ∈ gs, (f g).Sublist (h g)) → (gs.flatMap f).Sublist (gs.flatMap h)
  | [], _ => List.Sublist.refl _
  | g :: gs, hs => by
    rw [List.flatMap_cons, List.flatMap_cons]
    exact (hs g List.mem_cons_self).append (flatMap_sub fun x hx => hs x (List.mem_cons_of_mem _ hx))

theorem reported_sub (n : Nat) (fs : List (Nat × Family)) : (reportedBy (growFrom n fs)).Sublist ((growFrom n fs).flatMap Grown.all) := by
  refine flatMap_sub fun G hG => ?_
  obtain ⟨x, _, _, i, rfl⟩ := mem_growFrom hG
  exact grow_live_sub _ _ _

theorem reported_ids (n : Nat) (fs : List (Nat × Family)) : ((reportedBy (growFrom n fs)).map Mt.id).Nodup :=
  (growFrom_nodup n fs).sublist ((reported_sub n fs).map _)

/-- Two families that share an identity are one. -/
theorem same_family {gs : List Grown} (hn : ((gs.flatMap Grown.all).map Mt.id).Nodup) : ∀ {a b : Grown}, a ∈ gs → b ∈ gs →
    ∀ {x y : Mt}, x ∈ a.all → y ∈ b.all → x.id = y.id → a = b := by
  induction gs with
  | nil => intro a b ha; cases ha
  | cons g gs ih =>
    intro a b ha hb x y hx hy hxy
    rw [List.flatMap_cons, List.map_append, List.nodup_append] at hn
    obtain ⟨_, h2, h3⟩ := hn
    rcases List.mem_cons.1 ha with ha' | ha' <;> rcases List.mem_cons.1 hb with hb' | hb'
    · rw [ha', hb']
    · rw [ha'] at hx
      exact absurd hxy (h3 _ (List.mem_map_of_mem hx) _ (List.mem_map_of_mem (List.mem_flatMap.2 ⟨b, hb', hy⟩)))
    · rw [hb'] at hy
      exact absurd hxy.symm (h3 _ (List.mem_map_of_mem hy) _ (List.mem_map_of_mem (List.mem_flatMap.2 ⟨a, ha', hx⟩)))
    · exact ih h2 ha' hb' hx hy hxy

/-! ## The declarations -/

theorem mem_familiesOf {g : Dict} {s : Str} : ∀ {ds : List Declared} {n : Nat} {fs : List (Nat × Family)}, familiesOf g s n ds = .ok fs →
    ∀ x ∈ fs, ∃ d ∈ ds, passes g d.needs = true ∧ d.wanted g = true ∧ ∃ l, d.found g s = .ok l ∧ x.2 ∈ l
  | [], _, _, h, x, hx => by
    rw [familiesOf] at h
    cases h
    cases hx
  | d :: ds, n, fs, h, x, hx => by
    rw [familiesOf] at h
    split at h
    · rename_i hc
      rw [Bool.and_eq_true] at hc
      split at h
      · cases h
      · rename_i l hl
        split at h
        · cases h
        · rename_i rest hr
          cases h
          rcases List.mem_append.1 hx with hx | hx
          · obtain ⟨f, hf, rfl⟩ := List.mem_map.1 hx
            exact ⟨d, List.mem_cons_self, hc.1, hc.2, l, hl, hf⟩
          · obtain ⟨d', hd, h⟩ := mem_familiesOf hr x hx
            exact ⟨d', List.mem_cons_of_mem _ hd, h⟩
    · obtain ⟨d', hd, h⟩ := mem_familiesOf h x hx
      exact ⟨d', List.mem_cons_of_mem _ hd, h⟩

/-- The families of a run, and what they come from. -/
theorem grownOf_spec {O : Outside} {g : Dict} {s : Str} {gs : List Grown} (h : grownOf O g s = .ok gs) :
    ∃ fs, gs = growFrom firstIdentity fs ∧ ∀ x ∈ fs, ∃ d ∈ allDeclared O, passes g d.needs = true ∧ d.wanted g = true ∧ ∃ l, d.found g s = .ok l ∧ x.2 ∈ l := by
  unfold grownOf at h
  split at h
  · cases h
  · rename_i fs hf
    cases h
    exact ⟨fs, rfl, mem_familiesOf hf⟩

theorem grown_lawful {O : Outside} {g : Dict} {s : Str} {gs : List Grown} (h : grownOf O g s = .ok gs) : ∀ G ∈ gs,
    ∃ F d n, F.root.start < F.root.stop ∧ G = F.grow d n ∧ Lawful g s F := by
  obtain ⟨fs, rfl, hfs⟩ := grownOf_spec h
  intro G hG
  obtain ⟨x, hx, hlt, i, rfl⟩ := mem_growFrom hG
  obtain ⟨d, hd, h1, h2, l, hl, hF⟩ := hfs x hx
  exact ⟨x.2, x.1, i, hlt, rfl, all_lawful O d hd g s h1 h2 l hl x.2 hF⟩

/-- Every match that a program reports before the rules comes from a declaration that is not disabled, under a name the declaration has. -/
theorem grown_gives {O : Outside} {g : Dict} {s : Str} {gs : List Grown} (h : grownOf O g s = .ok gs) : PatternsGive g s (reportedBy gs) := by
  intro m hm
  obtain ⟨G, hG, hm⟩ := List.mem_flatMap.1 hm
  obtain ⟨F, d, n, hlt, rfl, hF⟩ := grown_lawful h G hG
  rcases mem_grow_live hm with ⟨rfl, hl⟩ | ⟨b, hb, _, hl, i, rfl⟩
  · exact hF.gives _ List.mem_cons_self hl
  · exact hF.gives b (List.mem_cons_of_mem _ hb) hl

theorem grown_nodup {O : Outside} {g : Dict} {s : Str} {gs : List Grown} (h : grownOf O g s = .ok gs) : ((gs.flatMap Grown.all).map Mt.id).Nodup := by
  obtain ⟨fs, rfl, _⟩ := grownOf_spec h
  exact growFrom_nodup _ _

theorem grown_ids {O : Outside} {g : Dict} {s : Str} {gs : List Grown} (h : grownOf O g s = .ok gs) : ((reportedBy gs).map Mt.id).Nodup := by
  obtain ⟨fs, rfl, _⟩ := grownOf_spec h
  exact reported_ids _ _

theorem grown_raw {O : Outside} {g : Dict} {s : Str} {gs : List Grown} (h : grownOf O g s = .ok gs) :
    ∀ m ∈ reportedBy gs, m.rawStart = none ∧ m.rawStop = none ∧ m.start < m.stop := by
  intro m hm
  obtain ⟨G, hG, hm⟩ := List.mem_flatMap.1 hm
  obtain ⟨F, d, n, hlt, rfl, hF⟩ := grown_lawful h G hG
  rcases mem_grow_live hm with ⟨rfl, hl⟩ | ⟨b, hb, hs, hl, i, rfl⟩
  · exact ⟨rfl, rfl, hlt⟩
  · exact ⟨rfl, rfl, hs⟩

/-! ## Relatives -/

theorem familyOf_spec {gs : List Grown} {m : Mt} {G : Grown} (h : familyOf gs m = some G) : G ∈ gs ∧ (∃ x ∈ G.all, x.id = m.id) ∧
    (m.isOneOf rigidNames = true → ∃ x ∈ G.all, x.name = m.name) := by
  have h1 := List.mem_of_find?_eq_some h
  have h2 := List.find?_some h
  rw [Bool.and_eq_true, Bool.or_eq_true, List.any_eq_true] at h2
  obtain ⟨⟨x, hx, hid⟩, h3⟩ := h2
  refine ⟨h1, ⟨x, hx, of_decide_eq_true hid⟩, fun hr => ?_⟩
  rcases h3 with h3 | h3
  · rw [hr] at h3; cases h3
  · obtain ⟨y, hy, hn⟩ := List.any_eq_true.1 h3
    exact ⟨y, hy, of_decide_eq_true hn⟩

theorem mem_offspring {s : Ms} {G : Grown} {k c : Mt} (h : c ∈ offspring s G k) : c = k ∨
    ∃ x ∈ s.live, x.id = k.id ∧ x.start < x.stop ∧ c = { x with tags := k.tags } := by
  unfold offspring at h
  split at h
  · exact Or.inl (List.mem_singleton.1 h)
  · obtain ⟨x, hx, rfl⟩ := List.mem_map.1 h
    obtain ⟨h1, h2⟩ := List.mem_filter.1 hx
    simp only [Bool.and_eq_true, decide_eq_true_eq] at h2
    exact Or.inr ⟨x, h1, h2.1.1, h2.1.2, rfl⟩

theorem mem_adopted {gs : List Grown} {s : Ms} {G : Grown} {c : Mt} (h : c ∈ adopted gs s G) :
    ∃ x ∈ s.live, x.start < x.stop ∧ c = { x with tags := G.root.tags } := by
  obtain ⟨x, hx, rfl⟩ := List.mem_map.1 h
  obtain ⟨h1, h2⟩ := List.mem_filter.1 hx
  simp only [Bool.and_eq_true, decide_eq_true_eq] at h2
  exact ⟨x, h1, h2.1.2, rfl⟩

/-- What the children of a match are: children of its family, some of them as they are now. -/
theorem mem_children {gs : List Grown} {s : Ms} {m c : Mt} (h : c ∈ (kinOf gs s).children m) :
    ∃ G, familyOf gs m = some G ∧ ((∃ k ∈ G.kids, c = k ∨ ∃ x ∈ s.live, x.id = k.id ∧ x.start < x.stop ∧ c = { x with tags := k.tags }) ∨
      ∃ x ∈ s.live, x.start < x.stop ∧ c = { x with tags := G.root.tags }) := by
  simp only [kinOf] at h
  split at h
  · rename_i G hG
    refine ⟨G, hG, ?_⟩
    split at h
    · rcases List.mem_append.1 h with h | h
      · obtain ⟨k, hk, h⟩ := List.mem_flatMap.1 h
        exact Or.inl ⟨k, hk, mem_offspring h⟩
      · exact Or.inr (mem_adopted h)
    · cases h
  · cases h

theorem nowadays_id (s : Ms) (m : Mt) : (nowadays s m).id = m.id := by
  unfold nowadays
  split
  · rename_i x hx
    have := List.find?_some hx
    exact of_decide_eq_true this
  · rfl

theorem rigid_of {m : Mt} {n : Str} (h : m.name = some n) (hn : n ∈ rigidNames) : m.isOneOf rigidNames = true := by
  simp only [Mt.isOneOf, h]
  simpa using hn

theorem family_strong {O : Outside} {g : Dict} {s : Str} {gs : List Grown} (h : grownOf O g s = .ok gs) {m : Mt} {n : Str} (hm : m.name = some n)
    (hn : n ∈ rigidNames) {G : Grown} (hG : familyOf gs m = some G) : ∀ x ∈ G.all, ¬ Weak x := by
  obtain ⟨h1, _, h3⟩ := familyOf_spec hG
  obtain ⟨x, hx, hxn⟩ := h3 (rigid_of hm hn)
  obtain ⟨F, d, i, _, rfl, hF⟩ := grown_lawful h G h1
  have hs : ∀ b ∈ F.root :: F.kids, c!"weak-episode" ∉ b.tags := by
    refine hF.strong ?_
    rcases mem_grow_all hx with rfl | ⟨b, hb, _, j, rfl⟩
    · exact ⟨F.root, List.mem_cons_self, n, hn, hxn.trans hm⟩
    · exact ⟨b, List.mem_cons_of_mem _ hb, n, hn, hxn.trans hm⟩
  intro y hy
  rcases mem_grow_all hy with rfl | ⟨b, hb, _, j, rfl⟩
  · exact hs _ List.mem_cons_self
  · exact hs b (List.mem_cons_of_mem _ hb)

theorem child_strong {s : Ms} {G : Grown} (hG : ∀ x ∈ G.all, ¬ Weak x) {c : Mt}
    (h : (∃ k ∈ G.kids, c = k ∨ ∃ x ∈ s.live, x.id = k.id ∧ x.start < x.stop ∧ c = { x with tags := k.tags }) ∨
      ∃ x ∈ s.live, x.start < x.stop ∧ c = { x with tags := G.root.tags }) : ¬ Weak c := by
  rcases h with ⟨k, hk, rfl | ⟨x, _, _, _, rfl⟩⟩ | ⟨x, _, _, rfl⟩
  · exact hG _ (List.mem_cons_of_mem _ hk)
  · exact hG k (List.mem_cons_of_mem _ hk)
  · exact hG G.root List.mem_cons_self

/-- The environment of a program run is natural, if Python's lowering is. -/
theorem program_natural {O : Outside} {base : RuleEnv} (hl : ∀ t, base.uni.lower t = [] ↔ t = []) {g : Dict} {s : Str} {gs : List Grown}
    (h : grownOf O g s = .ok gs) : Natural (ruleEnvOf O base gs s) := by
  refine ⟨hl, fun st m c _ hm hc => ?_, fun st m c _ hm hc => ?_⟩
  · obtain ⟨G, hG, hc⟩ := mem_children hc
    exact child_strong (family_strong h hm (by decide) hG) hc
  · obtain ⟨G, hG, hc⟩ := mem_children hc
    refine child_strong ?_ hc
    obtain ⟨h1, ⟨x, hx, hid⟩, _⟩ := familyOf_spec hG
    simp only [ruleEnvOf, kinOf] at hG hid
    split at hG
    · rename_i G' hG'
      obtain ⟨h1', ⟨x', hx', hid'⟩, _⟩ := familyOf_spec hG'
      split at hG
      · exact family_strong h hm (by decide) hG
      · rw [hG'] at hid
        simp only at hid
        rw [if_neg ‹_›, nowadays_id] at hid
        have : G = G' := same_family (grown_nodup h) h1 h1' hx List.mem_cons_self hid
        subst this
        exact family_strong h hm (by decide) hG'
    · exact family_strong h hm (by decide) hG

end Guessit
