import Verif.Proofs.HeapApi

/-! # `merge_options` on arbitrary objects modifies none of them -/

namespace Guessit

open Spec

theorem closed_iff_good {h : Heap} : Closed h ↔ GoodH 0 h :=
  ⟨fun hc => ⟨Nat.zero_le _, fun a o ho b hb => ⟨hc a o ho _ hb b rfl, fun _ => Nat.zero_le _⟩⟩, GoodH.closed⟩

/-- While the object at `m` is being filled from the heap `h0`: the objects of `h0` are as they were, and `m` is a new
dictionary that contains no list of `h0`. -/
structure Filling (h0 : Heap) (m : Nat) (h : Heap) : Prop where
  closed : Closed h
  len : h0.length ≤ h.length
  old : ∀ a : Nat, a < h0.length → h[a]? = h0[a]?
  fresh : h0.length ≤ m
  items : ∃ kvs, h[m]? = some (.dict kvs) ∧ ∀ v ∈ kvs.map Prod.snd, ∀ a, v = .ref a → a < h0.length → ∃ d, h0[a]? = some (.dict d)

/-- A value that may be stored in the dictionary being filled. -/
def Storable (h0 h : Heap) (v : HVal) : Prop := ∀ a, v = .ref a → a < h.length ∧ (a < h0.length → ∃ d, h0[a]? = some (.dict d))

/-- What the recursive call guarantees. -/
def MergeFrame (merge : List HVal → HM HVal) : Prop := ∀ x y h, Closed h → Known h x → Known h y →
  Closed (merge [x, y] h).1 ∧ h.length ≤ (merge [x, y] h).1.length ∧ (∀ a : Nat, a < h.length → (merge [x, y] h).1[a]? = h[a]?) ∧
    ∀ v, (merge [x, y] h).2 = .ok v → ∃ a, v = .ref a ∧ h.length ≤ a ∧ a < (merge [x, y] h).1.length

theorem lt_length_of_some {h : Heap} {a : Nat} {o : HObj} (e : h[a]? = some o) : a < h.length := by
  apply Nat.lt_of_not_le; intro hle; rw [List.getElem?_eq_none hle] at e; cases e

theorem write_closed {h : Heap} {a : Nat} {o : HObj} (hc : Closed h) (ho : ∀ v ∈ o.vals, Known h v) : Closed (h.set a o) := by
  intro c o' ho' v hv b hb
  rw [List.length_set]
  rw [List.getElem?_set] at ho'
  split at ho'
  · split at ho'
    · cases ho'; exact ho v hv b hb
    · cases ho'
  · exact hc c o' ho' v hv b hb

theorem alloc_closed {h : Heap} {o : HObj} (hc : Closed h) (ho : ∀ v ∈ o.vals, Known h v) : Closed (h ++ [o]) := by
  intro c o' ho' v hv b hb
  rw [List.length_append, List.length_singleton]
  rw [List.getElem?_append] at ho'
  split at ho'
  · have := hc c o' ho' v hv b hb; omega
  · have : o' = o := by simpa using List.mem_of_getElem? ho'
    subst this
    have := ho v hv b hb; omega

theorem setKeyH_filling {h0 h : Heap} {m : Nat} {k : Key} {v : HVal} (hf : Filling h0 m h) (hv : Storable h0 h v) :
    Filling h0 m (setKeyH m k v h).1 := by
  obtain ⟨kvs, e, hk⟩ := hf.items
  have : (setKeyH m k v h).1 = h.set m (.dict (hset kvs k v)) := by
    simp only [setKeyH, HM.bind, HM.items, e, HM.write]
  rw [this]
  have hm := lt_length_of_some e
  have hall : ∀ w ∈ (hset kvs k v).map Prod.snd, Storable h0 h w := hset_vals _ kvs k v
    (fun w hw a ea => ⟨hf.closed m _ e w hw a ea, hk w hw a ea⟩) hv
  refine ⟨write_closed hf.closed fun w hw a ea => (hall w hw a ea).1, by rw [List.length_set]; exact hf.len, ?_, hf.fresh, ?_⟩
  · intro a ha
    have := hf.fresh
    rw [List.getElem?_set_ne (by omega)]; exact hf.old a ha
  · exact ⟨_, by rw [List.getElem?_set_self hm], fun w hw a ea => (hall w hw a ea).2⟩

theorem alloc_filling {h0 h : Heap} {m : Nat} {o : HObj} (hf : Filling h0 m h) (ho : ∀ v ∈ o.vals, Known h v) :
    Filling h0 m (h ++ [o]) := by
  obtain ⟨kvs, e, hk⟩ := hf.items
  have hl := hf.len
  refine ⟨alloc_closed hf.closed ho, by simp; omega, fun a ha => ?_, hf.fresh, kvs, ?_, hk⟩
  · rw [List.getElem?_append_left (by omega)]; exact hf.old a ha
  · rw [List.getElem?_append_left (lt_length_of_some e)]; exact e

theorem plainH_filling {h0 h : Heap} {m : Nat} {k : Key} {v : HVal} (hf : Filling h0 m h) (hv : Known h v) :
    Filling h0 m (plainH m k v h).1 := by
  cases v with
  | atom p => exact setKeyH_filling hf fun a e => by cases e
  | ref b =>
    have hb := hv b rfl
    cases ho : h[b]? with
    | none => rw [List.getElem?_eq_none_iff] at ho; omega
    | some o => cases o with
      | dict kvs =>
        have : plainH m k (.ref b) h = setKeyH m k (.ref b) h := by simp only [plainH, ho]
        rw [this]
        refine setKeyH_filling hf fun a e => ?_
        cases e
        exact ⟨hb, fun hlt => ⟨kvs, by rw [← hf.old b hlt]; exact ho⟩⟩
      | list vs =>
        have : plainH m k (.ref b) h = setKeyH m k (.ref h.length) (h ++ [.list vs]) := by
          simp only [plainH, ho, HM.bind, HM.alloc]
        rw [this]
        refine setKeyH_filling (alloc_filling hf fun w hw => hf.closed b _ ho w hw) fun a e => ?_
        cases e
        have := hf.len
        exact ⟨by simp, fun hlt => by omega⟩

theorem appendNewH_filling {eq : Heap → HVal → HVal → Except PyErr Bool} {h0 h : Heap} {m l : Nat} {val : HVal}
    (hf : Filling h0 m h) (hl : h0.length ≤ l) (hv : Known h val) :
    Filling h0 m (appendNewH eq l val h).1 ∧ (appendNewH eq l val h).1.length = h.length := by
  cases ho : h[l]? with
  | none => simp only [appendNewH, ho]; exact ⟨hf, trivial⟩
  | some o => cases o with
    | dict kvs => simp only [appendNewH, ho]; exact ⟨hf, trivial⟩
    | list vs =>
      obtain ⟨kvs, e, hk⟩ := hf.items
      have hne : l ≠ m := by rintro rfl; rw [ho] at e; cases e
      have hw : Filling h0 m (h.set l (.list (vs ++ [val]))) := by
        refine ⟨write_closed hf.closed fun w hw => ?_, by rw [List.length_set]; exact hf.len, ?_, hf.fresh, kvs, ?_, hk⟩
        · simp only [HObj.vals, List.mem_append, List.mem_singleton] at hw
          rcases hw with hw | hw
          · exact hf.closed l _ ho w hw
          · rw [hw]; exact hv
        · intro a ha; rw [List.getElem?_set_ne (by omega)]; exact hf.old a ha
        · rw [List.getElem?_set_ne hne]; exact e
      simp only [appendNewH, ho]
      split
      · exact ⟨hf, rfl⟩
      · exact ⟨hf, rfl⟩
      · split
        · exact ⟨hf, rfl⟩
        · exact ⟨hw, by simp [HM.write]⟩

theorem forM_filling {α : Type} {h0 : Heap} {m : Nat} {f : α → HM Unit} : ∀ (xs : List α) (h : Heap), Filling h0 m h →
    (∀ x ∈ xs, ∀ h', h.length ≤ h'.length → Filling h0 m h' → Filling h0 m (f x h').1 ∧ h'.length ≤ (f x h').1.length) →
    Filling h0 m (HM.forM f xs h).1 ∧ h.length ≤ (HM.forM f xs h).1.length := by
  intro xs
  induction xs with
  | nil => intro h hf _; exact ⟨hf, Nat.le_refl _⟩
  | cons x xs ih =>
    intro h hf hx
    obtain ⟨h1, h2⟩ := hx x (by simp) h (Nat.le_refl _) hf
    unfold HM.forM HM.bind
    rcases e : f x h with ⟨h', r⟩
    rw [e] at h1 h2
    cases r with
    | error err => exact ⟨h1, h2⟩
    | ok u =>
      obtain ⟨k1, k2⟩ := ih h' h1 fun y hy h'' hl => hx y (by simp [hy]) h'' (Nat.le_trans h2 hl)
      exact ⟨k1, Nat.le_trans h2 k2⟩

/-- The computation keeps the dictionary being filled. -/
def Keeps (h0 : Heap) (m : Nat) (x : HM Unit) (h : Heap) : Prop := Filling h0 m (x h).1

theorem Keeps.congr {h0 : Heap} {m : Nat} {x y : HM Unit} {h : Heap} (e : x h = y h) (hy : Keeps h0 m y h) : Keeps h0 m x h := by
  unfold Keeps; rw [e]; exact hy

theorem mergeSomeH_filling {eq : Heap → HVal → HVal → Except PyErr Bool} {merge : List HVal → HM HVal} (hm : MergeFrame merge)
    {h0 h : Heap} {m : Nat} {k : Key} {v : HVal} (hf : Filling h0 m h) (hv : Known h v) :
    Keeps h0 m (mergeSomeH eq merge m k v) h := by
  obtain ⟨kvs, e, hk⟩ := hf.items
  unfold mergeSomeH
  refine Keeps.congr (y := (fun kvs => _ : List (Key × HVal) → HM Unit) kvs) (by simp only [HM.bind, HM.items, e]; rfl) ?_
  dsimp only
  split
  · rename_i a ha
    have hmem := List.mem_map_of_mem (f := Prod.snd) (mem_of_lookupH k _ kvs ha)
    have hka : Known h (.ref a) := hf.closed m _ e _ hmem
    cases ho : h[a]? with
    | none => exact Keeps.congr (by simp only [ho]) (plainH_filling (k := k) hf hv)
    | some o => cases o with
      | list us =>
        have hla : h0.length ≤ a := by
          apply Nat.le_of_not_lt; intro hlt
          obtain ⟨d, hd⟩ := hk _ hmem a rfl hlt
          rw [hf.old a hlt, hd] at ho; cases ho
        cases hi : iterH h v with
        | error err =>
          unfold Keeps
          simp only [ho, hi]; exact hf
        | ok vals =>
          refine Keeps.congr (y := HM.forM (appendNewH eq a) vals) (by simp only [ho, hi]) ?_
          refine (forM_filling vals h hf fun x hx h' hl hf' => ?_).1
          have hxk : Known h' x := fun b eb => Nat.lt_of_lt_of_le
            ((iterH_vals (closed_iff_good.1 hf.closed) (fun b eb => ⟨Nat.zero_le _, hv b eb⟩) hi x hx) b eb).2 hl
          obtain ⟨q1, q2⟩ := appendNewH_filling (eq := eq) hf' hla hxk
          exact ⟨q1, by omega⟩
      | dict us =>
        refine Keeps.congr (y := HM.bind (merge [.ref a, v]) (setKeyH m k)) (by simp only [ho]; rfl) ?_
        obtain ⟨m1, m2, m3, m4⟩ := hm (.ref a) v h hf.closed hka hv
        unfold Keeps HM.bind
        rcases em : merge [.ref a, v] h with ⟨h1, r1⟩
        rw [em] at m1 m2 m3 m4
        dsimp only at m1 m2 m3 m4
        have hl := hf.len
        have hf1 : Filling h0 m h1 := ⟨m1, by omega, fun b hb => (m3 b (by omega)).trans (hf.old b hb), hf.fresh, kvs,
          (m3 m (lt_length_of_some e)).trans e, hk⟩
        cases r1 with
        | error err => exact hf1
        | ok w =>
          refine setKeyH_filling hf1 fun b eb => ?_
          obtain ⟨b', eb', hb'⟩ := m4 w rfl
          rw [eb'] at eb; cases eb
          exact ⟨hb'.2, fun hlt => by omega⟩
  · exact plainH_filling (k := k) hf hv

theorem mergeValueH_filling {eq : Heap → HVal → HVal → Except PyErr Bool} {merge : List HVal → HM HVal} (hm : MergeFrame merge)
    {h0 h : Heap} {m : Nat} {e : Key × HVal} (hf : Filling h0 m h) (hv : Known h e.2) :
    Keeps h0 m (mergeValueH eq merge m e) h := by
  unfold mergeValueH
  split
  · exact hf
  · split
    · exact hf
    · exact mergeSomeH_filling hm hf hv

theorem resetKeysH_filling {h0 h : Heap} {m : Nat} {v : HVal} (hf : Filling h0 m h) :
    Filling h0 m (resetKeysH m v h).1 ∧ h.length ≤ (resetKeysH m v h).1.length := by
  cases v with
  | ref a => exact ⟨hf, Nat.le_refl _⟩
  | atom p =>
    obtain ⟨kvs, e, hk⟩ := hf.items
    cases hp : pristineKey p with
    | error err => simp only [resetKeysH, hp]; exact ⟨hf, Nat.le_refl _⟩
    | ok o => cases o with
      | none => simp only [resetKeysH, hp]; exact ⟨hf, Nat.le_refl _⟩
      | some k =>
        simp only [resetKeysH, hp, HM.bind, HM.items, e, HM.write]
        have sub : ∀ w ∈ (kvs.filter fun e => decide (e.1 ≠ k)).map Prod.snd, w ∈ kvs.map Prod.snd := by
          intro w hw
          simp only [List.mem_map, List.mem_filter] at hw
          obtain ⟨p, ⟨hp, _⟩, rfl⟩ := hw
          exact List.mem_map_of_mem hp
        have hm := lt_length_of_some e
        refine ⟨⟨write_closed hf.closed fun w hw => hf.closed m _ e w (sub w hw), by rw [List.length_set]; exact hf.len, ?_, hf.fresh,
          _, by rw [List.getElem?_set_self hm], fun w hw => hk w (sub w hw)⟩, by rw [List.length_set]; exact Nat.le_refl _⟩
        intro a ha
        have := hf.fresh
        rw [List.getElem?_set_ne (by omega)]; exact hf.old a ha

theorem startH_filling {h0 h : Heap} {m : Nat} {p : HVal} (hf : Filling h0 m h) :
    h.length ≤ (startH m p h).1.length ∧ (∃ m', Filling h0 m' (startH m p h).1) ∧
      ∀ m', (startH m p h).2 = .ok m' → Filling h0 m' (startH m p h).1 := by
  have hl := hf.len
  unfold startH
  split
  · simp only [HM.bind, HM.alloc, HM.pure]
    have : Filling h0 h.length (h ++ [.dict []]) := ⟨(alloc_filling hf (o := .dict []) (by simp [HObj.vals])).closed, by simp; omega,
      fun a ha => by rw [List.getElem?_append_left (by omega)]; exact hf.old a ha, hl, [], by simp, by simp⟩
    exact ⟨by simp, ⟨_, this⟩, fun m' e => by injection e with e; subst e; exact this⟩
  · dsimp only
    split
    · split
      · exact ⟨Nat.le_refl _, ⟨m, hf⟩, fun m' e => by cases e⟩
      · rename_i ks _
        obtain ⟨h1, h2⟩ := forM_filling (f := resetKeysH m) ks h hf fun x _ h' _ hf' => resetKeysH_filling hf'
        unfold HM.bind
        rcases e : HM.forM (resetKeysH m) ks h with ⟨h', r⟩
        rw [e] at h1 h2
        cases r with
        | error err => exact ⟨h2, ⟨m, h1⟩, fun m' e => by cases e⟩
        | ok u => exact ⟨h2, ⟨m, h1⟩, fun m' e => by simp only [HM.pure] at e; injection e with e; subst e; exact h1⟩
    · exact ⟨Nat.le_refl _, ⟨m, hf⟩, fun m' e => by injection e with e; subst e; exact hf⟩

theorem mergeValueH_length {eq : Heap → HVal → HVal → Except PyErr Bool} {f : Nat} {m : Nat} {e : Key × HVal} {h : Heap}
    (hc : Closed h) (he : Known h e.2) : h.length ≤ (mergeValueH eq (mergeOptionsH eq f) m e h).1.length := by
  refine (mergeValueH_ok 0 eq _ (fun x y h hx hy => (mergeOptionsH_ok 0 eq f [x, y] h ?_ ?_).weaken
    fun L v _ ⟨a, ea, ha⟩ b hb => by rw [ea] at hb; cases hb; exact ha) m e h (Nat.zero_le _)
    (fun a ea => ⟨Nat.zero_le _, he a ea⟩) (closed_iff_good.1 hc)).1
  · intro o ho
    simp only [List.mem_cons, List.not_mem_nil, or_false] at ho
    rcases ho with e | e <;> rw [e] <;> assumption
  · intro o ho
    simp only [List.tail_cons, List.mem_cons, List.not_mem_nil, or_false] at ho
    rw [ho]; exact hy

theorem mergeIntoH_filling {eq : Heap → HVal → HVal → Except PyErr Bool} {f : Nat} (hm : MergeFrame (mergeOptionsH eq f))
    {h0 h : Heap} {m : Nat} {v : HVal} (hf : Filling h0 m h) :
    h.length ≤ (mergeIntoH eq (mergeOptionsH eq f) m v h).1.length ∧
    (∃ m', Filling h0 m' (mergeIntoH eq (mergeOptionsH eq f) m v h).1) ∧
      ∀ m', (mergeIntoH eq (mergeOptionsH eq f) m v h).2 = .ok m' → Filling h0 m' (mergeIntoH eq (mergeOptionsH eq f) m v h).1 := by
  unfold mergeIntoH
  split
  · split
    · rename_i a _
      split
      · rename_i kvs ho
        obtain ⟨s1, ⟨m1, s2⟩, s3⟩ := startH_filling (p := (List.lookup kPristine kvs).getD (.atom .none)) hf
        unfold HM.bind
        rcases e : startH m ((List.lookup kPristine kvs).getD (.atom .none)) h with ⟨h1, r1⟩
        rw [e] at s1 s2 s3
        dsimp only at s1 s2 s3
        cases r1 with
        | error err => exact ⟨s1, ⟨m1, s2⟩, fun m' e => by cases e⟩
        | ok m' =>
          have hf1 := s3 m' rfl
          obtain ⟨k1, k2⟩ := forM_filling (f := mergeValueH eq (mergeOptionsH eq f) m') kvs h1 hf1 fun x hx h' hl hf' => by
            have hk : Known h' x.2 := fun b eb => Nat.lt_of_lt_of_le
              (hf.closed a _ ho x.2 (List.mem_map_of_mem hx) b eb) (Nat.le_trans s1 hl)
            exact ⟨mergeValueH_filling hm hf' hk, mergeValueH_length hf'.closed hk⟩
          dsimp only
          rcases e2 : HM.forM (mergeValueH eq (mergeOptionsH eq f) m') kvs h1 with ⟨h2, r2⟩
          rw [e2] at k1 k2
          cases r2 with
          | error err => exact ⟨Nat.le_trans s1 k2, ⟨m', k1⟩, fun m' e => by cases e⟩
          | ok u => exact ⟨Nat.le_trans s1 k2, ⟨m', k1⟩, fun m'' e => by simp only [HM.pure] at e; injection e with e; subst e; exact k1⟩
      · exact ⟨Nat.le_refl _, ⟨m, hf⟩, fun m' e => by cases e⟩
    · exact ⟨Nat.le_refl _, ⟨m, hf⟩, fun m' e => by cases e⟩
  · exact ⟨Nat.le_refl _, ⟨m, hf⟩, fun m' e => by injection e with e; subst e; exact hf⟩

/-- What `Filling` tells when it is over. -/
def Filled (h0 : Heap) (r : Heap × Except PyErr HVal) : Prop :=
  Closed r.1 ∧ h0.length ≤ r.1.length ∧ (∀ a : Nat, a < h0.length → r.1[a]? = h0[a]?) ∧
    ∀ v, r.2 = .ok v → ∃ a kvs, v = .ref a ∧ h0.length ≤ a ∧ r.1[a]? = some (.dict kvs)

theorem mergeRestH_filling {eq : Heap → HVal → HVal → Except PyErr Bool} {f : Nat} (hm : MergeFrame (mergeOptionsH eq f))
    {h0 : Heap} : ∀ (os : List HVal) (m : Nat) (h : Heap), Filling h0 m h → Filled h0 (mergeRestH eq (mergeOptionsH eq f) m os h) := by
  intro os
  induction os with
  | nil =>
    intro m h hf
    obtain ⟨kvs, e, _⟩ := hf.items
    exact ⟨hf.closed, hf.len, hf.old, fun v e' => by
      simp only [mergeRestH, HM.pure] at e'; injection e' with e'
      exact ⟨m, kvs, e'.symm, hf.fresh, e⟩⟩
  | cons o os ih =>
    intro m h hf
    obtain ⟨_, ⟨m1, i2⟩, i3⟩ := mergeIntoH_filling (v := o) hm hf
    unfold mergeRestH HM.bind
    rcases e : mergeIntoH eq (mergeOptionsH eq f) m o h with ⟨h1, r1⟩
    rw [e] at i2 i3
    dsimp only at i2 i3
    cases r1 with
    | error err => exact ⟨i2.closed, i2.len, i2.old, fun v e => by cases e⟩
    | ok m' => exact ih m' h1 (i3 m' rfl)

theorem mergeOptionsH_filled (eq : Heap → HVal → HVal → Except PyErr Bool) : ∀ (f : Nat) (os : List HVal) (h : Heap), Closed h →
    (∀ o ∈ os, Known h o) → Filled h (mergeOptionsH eq f os h) := by
  intro f
  induction f with
  | zero => intro os h hc _; exact ⟨hc, Nat.le_refl _, fun _ _ => rfl, fun v e => by cases e⟩
  | succ f ih =>
    intro os h hc ho
    have hm : MergeFrame (mergeOptionsH eq f) := by
      intro x y h hc hx hy
      obtain ⟨a1, a2, a3, a4⟩ := ih [x, y] h hc (by
        intro o ho; simp only [List.mem_cons, List.not_mem_nil, or_false] at ho
        rcases ho with e | e <;> rw [e] <;> assumption)
      refine ⟨a1, a2, a3, fun v e => ?_⟩
      obtain ⟨a, kvs, e1, e2, e3⟩ := a4 v e
      exact ⟨a, e1, e2, lt_length_of_some e3⟩
    cases os with
    | nil =>
      unfold mergeOptionsH
      exact ⟨alloc_closed hc (by simp [HObj.vals]), by simp [HM.alloc], fun a ha => by
        simp only [HM.alloc]; rw [List.getElem?_append_left ha], fun v e => by
          simp only [HM.alloc] at e ⊢; injection e with e
          exact ⟨h.length, [], e.symm, Nat.le_refl _, by simp⟩⟩
    | cons o os =>
      have first : Ok h.length h (if truthyH h o then
          HM.bind (deepcopyH (f + 1) [] o) fun r => match r.2 with
            | .ref a => HM.items a
            | .atom _ => HM.raise .typeError
        else HM.pure []) (fun L kvs => ∀ w ∈ kvs.map Prod.snd, Val h.length L w) := by
        split
        · refine Ok.bind (deepcopyH_ok h.length (f + 1) [] o h (by intro e he; cases he)
            (fun a e => ⟨Nat.zero_le _, ho o (by simp) a e⟩)) fun h2 r hl ⟨_, hr⟩ => ?_
          split
          · rename_i a ha
            exact Ok.items.weaken fun L kvs _ hk w hw => (hk w hw).2 (hr a ha).1
          · exact Ok.raise
        · exact Ok.pure (by simp)
      obtain ⟨d1, d2, d3, d4⟩ := first (good_self hc)
      have eqn : mergeOptionsH eq (f + 1) (o :: os) h = HM.bind (if truthyH h o then
          HM.bind (deepcopyH (f + 1) [] o) fun r => match r.2 with
            | .ref a => HM.items a
            | .atom _ => HM.raise .typeError
        else HM.pure []) (fun kvs => HM.bind (HM.alloc (.dict kvs)) fun c => match c with
          | .ref m => mergeRestH eq (mergeOptionsH eq f) m os
          | .atom _ => HM.raise .typeError) h := by unfold mergeOptionsH; rfl
      rw [eqn]
      generalize (if truthyH h o then
          HM.bind (deepcopyH (f + 1) [] o) fun r => match r.2 with
            | .ref a => HM.items a
            | .atom _ => HM.raise .typeError
        else HM.pure [] : HM (List (Key × HVal))) = x at d1 d2 d3 d4
      unfold HM.bind
      rcases ex : x h with ⟨h1, r1⟩
      rw [ex] at d1 d2 d3 d4
      dsimp only at d1 d2 d3 d4
      cases r1 with
      | error err => exact ⟨d3.closed, d1, d2, fun v e => by cases e⟩
      | ok kvs =>
        have hk := d4 kvs rfl
        refine mergeRestH_filling hm os h1.length (h1 ++ [.dict kvs]) ⟨alloc_closed (o := .dict kvs) d3.closed fun w hw a ea => (hk w hw a ea).2,
          by simp; omega, fun a ha => by rw [List.getElem?_append_left (by omega)]; exact d2 a ha, d1, kvs, by simp,
          fun w hw a ea hlt => by have := (hk w hw a ea).1; omega⟩

end Guessit
