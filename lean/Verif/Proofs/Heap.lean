import Verif.Spec.Heap

/-! # Which objects each operation touches -/

namespace Guessit

open Spec

/-- `n` is a bound below which objects are old: objects from `n` on refer only to objects from `n` on, and no object refers
outside the heap. -/
def GoodH (n : Nat) (h : Heap) : Prop :=
  n ≤ h.length ∧ ∀ (a : Nat) (o : HObj), h[a]? = some o → ∀ b, HVal.ref b ∈ o.vals → b < h.length ∧ (n ≤ a → n ≤ b)

/-- The value refers at most to an object between `n` and `L`. -/
def Val (n L : Nat) (v : HVal) : Prop := ∀ a, v = .ref a → n ≤ a ∧ a < L

theorem Val.mono {n L L' : Nat} {v : HVal} (hv : Val n L v) (hl : L ≤ L') : Val n L' v :=
  fun a e => ⟨(hv a e).1, Nat.lt_of_lt_of_le (hv a e).2 hl⟩

theorem Val.weaken {n k L : Nat} {v : HVal} (hv : Val n L v) (hk : k ≤ n) : Val k L v :=
  fun a e => ⟨Nat.le_trans hk (hv a e).1, (hv a e).2⟩

theorem val_atom (n L : Nat) (p : PyVal) : Val n L (.atom p) := fun _ e => by cases e

/-- The computation, from this heap, leaves the old objects alone and keeps the bound. -/
def Ok {α : Type} (n : Nat) (h : Heap) (x : HM α) (Q : Nat → α → Prop) : Prop := GoodH n h →
  h.length ≤ (x h).1.length ∧ (∀ a : Nat, a < n → (x h).1[a]? = h[a]?) ∧ GoodH n (x h).1 ∧
    ∀ v, (x h).2 = .ok v → Q (x h).1.length v

theorem Ok.congr {α : Type} {n : Nat} {h : Heap} {x y : HM α} {Q : Nat → α → Prop} (e : x h = y h) (hy : Ok n h y Q) :
    Ok n h x Q := by
  unfold Ok; rw [e]; exact hy

theorem Ok.pure {α : Type} {n : Nat} {h : Heap} {v : α} {Q : Nat → α → Prop} (hq : Q h.length v) : Ok n h (HM.pure v) Q :=
  fun g => ⟨Nat.le_refl _, fun _ _ => rfl, g, fun w e => by cases e; exact hq⟩

theorem Ok.raise {α : Type} {n : Nat} {h : Heap} {e : PyErr} {Q : Nat → α → Prop} : Ok n h (HM.raise e : HM α) Q :=
  fun g => ⟨Nat.le_refl _, fun _ _ => rfl, g, fun w e => by cases e⟩

theorem Ok.weaken {α : Type} {n : Nat} {h : Heap} {x : HM α} {Q Q' : Nat → α → Prop} (hx : Ok n h x Q)
    (hq : ∀ L v, h.length ≤ L → Q L v → Q' L v) : Ok n h x Q' := fun g => by
  obtain ⟨h1, h2, h3, h4⟩ := hx g
  exact ⟨h1, h2, h3, fun v e => hq _ _ h1 (h4 v e)⟩

theorem Ok.bind {α β : Type} {n : Nat} {h : Heap} {x : HM α} {f : α → HM β} {Q : Nat → α → Prop} {Q' : Nat → β → Prop}
    (hx : Ok n h x Q) (hf : ∀ h' v, h.length ≤ h'.length → Q h'.length v → Ok n h' (f v) Q') : Ok n h (HM.bind x f) Q' := by
  intro g
  obtain ⟨h1, h2, h3, h4⟩ := hx g
  unfold HM.bind
  rcases e : x h with ⟨h', r⟩
  rw [e] at h1 h2 h3 h4
  cases r with
  | error err => exact ⟨h1, h2, h3, fun v e => by cases e⟩
  | ok v =>
    obtain ⟨k1, k2, k3, k4⟩ := hf h' v h1 (h4 v rfl) h3
    exact ⟨Nat.le_trans h1 k1, fun a ha => (k2 a ha).trans (h2 a ha), k3, k4⟩

theorem Ok.alloc {n : Nat} {h : Heap} {o : HObj} (ho : ∀ v ∈ o.vals, Val n h.length v) :
    Ok n h (HM.alloc o) (fun L v => ∃ a, v = .ref a ∧ n ≤ a ∧ a < L) := by
  intro g
  refine ⟨by simp [HM.alloc], fun a ha => ?_, ⟨?_, ?_⟩, ?_⟩
  · exact List.getElem?_append_left (Nat.lt_of_lt_of_le ha g.1)
  · have := g.1; simp [HM.alloc]; omega
  · intro a o' ha b hb
    simp only [HM.alloc] at ha ⊢
    rw [List.getElem?_append] at ha
    split at ha
    · have := g.2 a o' ha b hb
      exact ⟨by simp; omega, this.2⟩
    · rename_i hlt
      have : o' = o := by
        by_cases he : a - h.length = 0
        · rw [he] at ha; simpa using ha.symm
        · rw [List.getElem?_eq_none (by simp; omega)] at ha; cases ha
      subst this
      have := ho _ hb b rfl
      exact ⟨by simp; omega, fun _ => this.1⟩
  · intro v e
    simp only [HM.alloc] at e ⊢
    injection e with e
    exact ⟨h.length, e.symm, g.1, by simp⟩

theorem Ok.write {n a : Nat} {h : Heap} {o : HObj} {Q : Nat → Unit → Prop} (hn : n ≤ a) (ho : ∀ v ∈ o.vals, Val n h.length v)
    (hq : Q h.length ()) : Ok n h (HM.write a o) Q := by
  intro g
  refine ⟨by simp [HM.write], fun c hc => ?_, ⟨by simpa [HM.write] using g.1, ?_⟩, ?_⟩
  · simp only [HM.write]; rw [List.getElem?_set_ne (by omega)]
  · intro c o' hc b hb
    simp only [HM.write, List.length_set] at hc ⊢
    rw [List.getElem?_set] at hc
    split at hc
    · split at hc
      · cases hc
        have := ho _ hb b rfl
        exact ⟨this.2, fun _ => this.1⟩
      · cases hc
    · exact g.2 c o' hc b hb
  · intro v _; simp only [HM.write, List.length_set]; exact hq

/-- What is known of an object read at an address. -/
def Loaded (n L a : Nat) (vs : List HVal) : Prop := ∀ v ∈ vs, Val 0 L v ∧ (n ≤ a → Val n L v)

theorem GoodH.loaded {n a : Nat} {h : Heap} {o : HObj} (g : GoodH n h) (e : h[a]? = some o) : Loaded n h.length a o.vals := by
  intro v hv
  refine ⟨fun b hb => ?_, fun hn b hb => ?_⟩
  · subst hb; exact ⟨Nat.zero_le _, (g.2 a o e b hv).1⟩
  · subst hb; exact ⟨(g.2 a o e b hv).2 hn, (g.2 a o e b hv).1⟩

theorem Loaded.mono {n L L' a : Nat} {vs : List HVal} (hl : Loaded n L a vs) (h : L ≤ L') : Loaded n L' a vs :=
  fun v hv => ⟨(hl v hv).1.mono h, fun hn => ((hl v hv).2 hn).mono h⟩

theorem Ok.load {n a : Nat} {h : Heap} : Ok n h (HM.load a) (fun L o => ∀ o', o = some o' → Loaded n L a o'.vals) :=
  fun g => ⟨Nat.le_refl _, fun _ _ => rfl, g, fun v e o' ho => by
    simp only [HM.load] at e; injection e with e; subst e; exact g.loaded ho⟩

theorem Ok.items {n a : Nat} {h : Heap} :
    Ok n h (HM.items a) (fun L kvs => Loaded n L a (kvs.map Prod.snd)) := by
  intro g
  unfold HM.items
  split
  · rename_i kvs e
    refine ⟨Nat.le_refl _, fun _ _ => rfl, g, fun v ev => ?_⟩
    injection ev with ev; subst ev; exact g.loaded e
  · exact ⟨Nat.le_refl _, fun _ _ => rfl, g, fun v e => by cases e⟩

theorem Ok.mapM {α β : Type} {n : Nat} {f : α → HM β} {Q : Nat → β → Prop}
    (hq : ∀ L L' y, L ≤ L' → Q L y → Q L' y) : ∀ (xs : List α) (h : Heap),
    (∀ x ∈ xs, ∀ h', h.length ≤ h'.length → Ok n h' (f x) Q) → Ok n h (HM.mapM f xs) (fun L ys => ∀ y ∈ ys, Q L y)
  | [], _, _ => Ok.pure (by simp)
  | x :: xs, h, hf => by
    refine Ok.bind (hf x (by simp) h (Nat.le_refl _)) fun h' y hl hy => ?_
    refine Ok.bind (Ok.mapM hq xs h' fun z hz h'' hl' => hf z (by simp [hz]) h'' (Nat.le_trans hl hl')) fun h'' ys hl' hys => ?_
    refine Ok.pure ?_
    intro z hz
    rw [List.mem_cons] at hz
    rcases hz with e | hz
    · rw [e]; exact hq _ _ _ hl' hy
    · exact hys z hz

theorem Ok.forM {α : Type} {n : Nat} {f : α → HM Unit} : ∀ (xs : List α) (h : Heap),
    (∀ x ∈ xs, ∀ h', h.length ≤ h'.length → Ok n h' (f x) (fun _ _ => True)) → Ok n h (HM.forM f xs) (fun _ _ => True)
  | [], _, _ => Ok.pure trivial
  | x :: xs, h, hf => by
    refine Ok.bind (hf x (by simp) h (Nat.le_refl _)) fun h' _ hl _ => ?_
    exact Ok.forM xs h' fun z hz h'' hl' => hf z (by simp [hz]) h'' (Nat.le_trans hl hl')

/-! ## `_fix_encoding` and `deepcopy` -/

theorem hset_vals (P : HVal → Prop) : ∀ (d : List (Key × HVal)) (k : Key) (v : HVal), (∀ w ∈ d.map Prod.snd, P w) → P v →
    ∀ w ∈ (hset d k v).map Prod.snd, P w := by
  intro d k v
  induction d with
  | nil => intro _ hv w hw; simp [hset] at hw; rw [hw]; exact hv
  | cons e d ih =>
    obtain ⟨k', v'⟩ := e
    intro hd hv w hw
    unfold hset at hw
    split at hw
    · simp only [List.map_cons, List.mem_cons] at hw
      rcases hw with e | hw
      · rw [e]; exact hv
      · exact hd w (by simp only [List.map_cons, List.mem_cons]; exact .inr hw)
    · simp only [List.map_cons, List.mem_cons] at hw
      rcases hw with e | hw
      · exact hd w (by simp only [List.map_cons, List.mem_cons]; exact .inl e)
      · exact ih (fun u hu => hd u (by simp only [List.map_cons, List.mem_cons]; exact .inr hu)) hv w hw

theorem foldl_hset_vals (P : HVal → Prop) : ∀ (ys d : List (Key × HVal)), (∀ w ∈ d.map Prod.snd, P w) →
    (∀ y ∈ ys, P y.2) → ∀ w ∈ (ys.foldl (fun d e => hset d e.1 e.2) d).map Prod.snd, P w := by
  intro ys
  induction ys with
  | nil => intro d hd _ w hw; exact hd w hw
  | cons y ys ih =>
    intro d hd hy
    exact ih _ (hset_vals P d y.1 y.2 hd (hy y (by simp))) fun z hz => hy z (by simp [hz])

theorem fixH_ok (n : Nat) : ∀ (f : Nat) (v : HVal) (h : Heap), Val 0 h.length v → Ok n h (fixH f v) (fun L w => Val n L w) := by
  intro f
  induction f with
  | zero => intro v h _; exact Ok.raise
  | succ f ih =>
    intro v h hv
    unfold fixH
    split
    · split
      · exact Ok.raise
      · exact Ok.pure (val_atom _ _ _)
    · exact Ok.pure (val_atom _ _ _)
    · refine Ok.bind Ok.load fun h1 o hl ho => ?_
      split
      · rename_i vs
        refine Ok.bind (Ok.mapM (Q := fun L w => Val n L w) (fun _ _ _ hl hv => hv.mono hl) vs h1 fun x hx h' hl' =>
          ih x h' ((ho _ rfl x hx).1.mono hl')) fun h2 ys hl2 hys => ?_
        exact (Ok.alloc (o := .list ys) hys).weaken fun L v _ ⟨a, e, ha⟩ b hb => by rw [e] at hb; cases hb; exact ha
      · rename_i kvs
        refine Ok.bind (Ok.mapM (Q := fun L (w : Key × HVal) => Val n L w.2) (fun _ _ _ hl hv => hv.mono hl) kvs h1 fun x hx h' hl' => ?_) fun h2 ys hl2 hys => ?_
        · show Ok n h' (match fixKey x.1 with
            | .error err => HM.raise err
            | .ok k => HM.bind (fixH f x.2) fun w => HM.pure (k, w)) _
          split
          · exact Ok.raise
          · refine Ok.bind (ih x.2 h' ((ho _ rfl x.2 (List.mem_map_of_mem hx)).1.mono hl')) fun h3 w _ hw => ?_
            exact Ok.pure hw
        · exact (Ok.alloc (o := .dict _) (foldl_hset_vals _ ys [] (by simp) hys)).weaken fun L v _ ⟨a, e, ha⟩ b hb => by
            rw [e] at hb; cases hb; exact ha
      · exact Ok.raise

/-- The copies made so far are new. -/
def MemoOk (n L : Nat) (memo : Memo) : Prop := ∀ e ∈ memo, n ≤ e.2 ∧ e.2 < L

theorem MemoOk.mono {n L L' : Nat} {memo : Memo} (hm : MemoOk n L memo) (h : L ≤ L') : MemoOk n L' memo :=
  fun e he => ⟨(hm e he).1, Nat.lt_of_lt_of_le (hm e he).2 h⟩

theorem mem_of_lookup {β : Type} (a : Nat) (b : β) : ∀ l : List (Nat × β), List.lookup a l = some b → (a, b) ∈ l := by
  intro l
  induction l with
  | nil => intro h; cases h
  | cons e l ih =>
    intro h
    rw [List.lookup] at h
    split at h
    · rename_i hb
      injection h with h
      have := eq_of_beq hb
      exact List.mem_cons.2 (.inl (by rw [this, ← h]))
    · exact List.mem_cons_of_mem _ (ih h)

theorem deepcopyList_ok (n : Nat) (f : Memo → HVal → HM (Memo × HVal))
    (hf : ∀ memo v h, MemoOk n h.length memo → Val 0 h.length v → Ok n h (f memo v) (fun L r => MemoOk n L r.1 ∧ Val n L r.2)) :
    ∀ (vs : List HVal) (memo : Memo) (h : Heap), MemoOk n h.length memo → (∀ v ∈ vs, Val 0 h.length v) →
    Ok n h (deepcopyList f memo vs) (fun L r => MemoOk n L r.1 ∧ ∀ v ∈ r.2, Val n L v) := by
  intro vs
  induction vs with
  | nil => intro memo h hm _; exact Ok.pure ⟨hm, by simp⟩
  | cons v vs ih =>
    intro memo h hm hv
    unfold deepcopyList
    refine Ok.bind (hf memo v h hm (hv v (by simp))) fun h1 r hl ⟨hr1, hr2⟩ => ?_
    refine Ok.bind (ih r.1 h1 hr1 fun w hw => (hv w (by simp [hw])).mono hl) fun h2 rs hl2 ⟨hs1, hs2⟩ => ?_
    refine Ok.pure ⟨hs1, ?_⟩
    intro w hw
    rw [List.mem_cons] at hw
    rcases hw with e | hw
    · rw [e]; exact hr2.mono hl2
    · exact hs2 w hw

theorem deepcopyH_ok (n : Nat) : ∀ (f : Nat) (memo : Memo) (v : HVal) (h : Heap), MemoOk n h.length memo → Val 0 h.length v →
    Ok n h (deepcopyH f memo v) (fun L r => MemoOk n L r.1 ∧ Val n L r.2) := by
  intro f
  induction f with
  | zero => intro memo v h _ _; exact Ok.raise
  | succ f ih =>
    intro memo v h hm hv
    unfold deepcopyH
    split
    · exact Ok.pure ⟨hm, val_atom _ _ _⟩
    · rename_i a
      split
      · rename_i b e
        refine Ok.pure ⟨hm, fun c hc => ?_⟩
        cases hc; exact hm _ (mem_of_lookup a b memo e)
      · refine Ok.bind Ok.load fun h1 o hl ho => ?_
        have fin : ∀ (h2 : Heap) (r1 : Memo) (o' : HObj), MemoOk n h2.length r1 → (∀ w ∈ o'.vals, Val n h2.length w) →
            Ok n h2 (HM.bind (HM.alloc o') fun c => match c with
              | .ref b => HM.pure ((a, b) :: r1, .ref b)
              | .atom _ => HM.raise .typeError) (fun L (r : Memo × HVal) => MemoOk n L r.1 ∧ Val n L r.2) := by
          intro h2 r1 o' hr ho'
          refine Ok.bind (Ok.alloc ho') fun h3 c hl3 ⟨b, e, hb⟩ => ?_
          subst e
          refine Ok.pure ⟨fun p hp => ?_, fun c hc => by cases hc; exact hb⟩
          rw [List.mem_cons] at hp
          rcases hp with e | hp
          · rw [e]; exact hb
          · exact hr.mono hl3 p hp
        split
        · rename_i vs
          refine Ok.bind (deepcopyList_ok n _ ih vs memo h1 (hm.mono hl) fun w hw => (ho _ rfl w hw).1) fun h2 r hl2 ⟨hr1, hr2⟩ => ?_
          exact fin h2 r.1 (.list r.2) hr1 hr2
        · rename_i kvs
          refine Ok.bind (deepcopyList_ok n _ ih (kvs.map Prod.snd) memo h1 (hm.mono hl) fun w hw => (ho _ rfl w hw).1) fun h2 r hl2 ⟨hr1, hr2⟩ => ?_
          refine fin h2 r.1 (.dict _) hr1 ?_
          intro w hw
          simp only [HObj.vals, List.mem_map] at hw
          obtain ⟨p, hp, rfl⟩ := hw
          exact hr2 _ (List.of_mem_zip (a := p.1) (b := p.2) hp).2
        · exact Ok.raise

/-! ## `merge_options` -/

theorem mem_of_lookupH (k : Key) (v : HVal) : ∀ l : List (Key × HVal), List.lookup k l = some v → (k, v) ∈ l := by
  intro l
  induction l with
  | nil => intro h; cases h
  | cons e l ih =>
    intro h
    rw [List.lookup] at h
    split at h
    · rename_i hb
      injection h with h
      have := eq_of_beq hb
      exact List.mem_cons.2 (.inl (by rw [this, ← h]))
    · exact List.mem_cons_of_mem _ (ih h)

theorem Ok.same {α : Type} {n : Nat} {h : Heap} {x : HM α} {Q : Nat → α → Prop} (e : (x h).1 = h)
    (hq : ∀ v, (x h).2 = .ok v → Q h.length v) : Ok n h x Q := fun g => by
  rw [e]; exact ⟨Nat.le_refl _, fun _ _ => rfl, g, hq⟩

theorem iterH_vals {n : Nat} {h : Heap} {v : HVal} {vs : List HVal} (g : GoodH n h) (hv : Val n h.length v) (e : iterH h v = .ok vs) :
    ∀ w ∈ vs, Val n h.length w := by
  unfold iterH at e
  split at e
  · split at e
    · cases e
    · injection e with e; subst e
      intro w hw
      rw [List.mem_map] at hw
      obtain ⟨p, _, rfl⟩ := hw
      exact val_atom _ _ _
  · rename_i a
    split at e
    · rename_i us hu
      injection e with e; subst e
      intro w hw
      exact ((g.loaded hu) w hw).2 (hv a rfl).1
    · injection e with e; subst e
      intro w hw
      rw [List.mem_map] at hw
      obtain ⟨p, _, rfl⟩ := hw
      exact val_atom _ _ _
    · cases e

/-- Use the bound in the proof of the triple itself. -/
theorem Ok.good {α : Type} {n : Nat} {h : Heap} {x : HM α} {Q : Nat → α → Prop} (hx : GoodH n h → Ok n h x Q) : Ok n h x Q :=
  fun g => hx g g

theorem appendNewH_ok (n : Nat) (eq : Heap → HVal → HVal → Except PyErr Bool) (l : Nat) (val : HVal) (h : Heap) (hl : n ≤ l)
    (hv : Val n h.length val) : Ok n h (appendNewH eq l val) (fun _ _ => True) := by
  refine Ok.good fun g => ?_
  cases ho : h[l]? with
  | none => exact Ok.same (by simp only [appendNewH, ho]) fun _ _ => trivial
  | some o => cases o with
    | dict kvs => exact Ok.same (by simp only [appendNewH, ho]) fun _ _ => trivial
    | list vs =>
      have key : ∀ w, appendNewH eq l val h = HM.write l (.list (vs ++ [val])) h ∨ (appendNewH eq l val h).1 = w → w = h →
          appendNewH eq l val h = HM.write l (.list (vs ++ [val])) h ∨ (appendNewH eq l val h).1 = h := by
        intro w hw e; rw [e] at hw; exact hw
      have : appendNewH eq l val h = HM.write l (.list (vs ++ [val])) h ∨ (appendNewH eq l val h).1 = h := by
        simp only [appendNewH, ho]
        split
        · exact .inr rfl
        · exact .inr rfl
        · split
          · exact .inr rfl
          · exact .inl rfl
      rcases this with e | e
      · refine Ok.congr e (Ok.write hl ?_ trivial)
        intro w hw
        simp only [HObj.vals, List.mem_append, List.mem_singleton] at hw
        rcases hw with hw | hw
        · exact ((g.loaded ho) w hw).2 hl
        · rw [hw]; exact hv
      · exact Ok.same e fun _ _ => trivial

theorem setKeyH_ok (n m : Nat) (k : Key) (v : HVal) (h : Heap) (hm : n ≤ m) (hv : Val n h.length v) :
    Ok n h (setKeyH m k v) (fun _ _ => True) := by
  refine Ok.bind Ok.items fun h1 kvs hl hk => ?_
  refine Ok.write hm ?_ trivial
  exact hset_vals _ kvs k v (fun w hw => (hk w hw).2 hm) (hv.mono hl)

theorem plainH_ok (n m : Nat) (k : Key) (v : HVal) (h : Heap) (hm : n ≤ m) (hv : Val n h.length v) :
    Ok n h (plainH m k v) (fun _ _ => True) := by
  refine Ok.good fun g => ?_
  cases v with
  | atom p => exact setKeyH_ok n m k _ h hm hv
  | ref b =>
    cases ho : h[b]? with
    | none => exact Ok.congr (by simp only [plainH, ho]) (setKeyH_ok n m k (.ref b) h hm hv)
    | some o => cases o with
      | dict kvs => exact Ok.congr (by simp only [plainH, ho]) (setKeyH_ok n m k (.ref b) h hm hv)
      | list vs =>
        refine Ok.congr (y := HM.bind (HM.alloc (.list vs)) (setKeyH m k)) (by simp only [plainH, ho]) ?_
        refine Ok.bind (Ok.alloc (o := .list vs) fun w hw => ((g.loaded ho) w hw).2 (hv b rfl).1) fun h2 c _ ⟨a, ec, ha⟩ => ?_
        exact setKeyH_ok n m k c h2 hm fun a' e' => by rw [ec] at e'; cases e'; exact ha

theorem mergeSomeH_ok (n : Nat) (eq : Heap → HVal → HVal → Except PyErr Bool) (merge : List HVal → HM HVal)
    (hmerge : ∀ x y h, Val 0 h.length x → Val n h.length y → Ok n h (merge [x, y]) (fun L v => Val n L v))
    (m : Nat) (k : Key) (v : HVal) (h : Heap) (hm : n ≤ m) (hv : Val n h.length v) :
    Ok n h (mergeSomeH eq merge m k v) (fun _ _ => True) := by
  refine Ok.bind Ok.items fun h1 kvs hl hk => ?_
  have hv1 : Val n h1.length v := hv.mono hl
  split
  · rename_i a ha
    have hva : Val n h1.length (.ref a) := (hk _ (List.mem_map_of_mem (f := Prod.snd) (mem_of_lookupH k _ kvs ha))).2 hm
    refine Ok.good fun g => ?_
    cases ho : h1[a]? with
    | none => exact Ok.congr (by simp only [ho]) (plainH_ok n m k v h1 hm hv1)
    | some o => cases o with
      | list us =>
        cases hi : iterH h1 v with
        | error err => exact Ok.same (by simp only [ho, hi]) fun _ _ => trivial
        | ok vals =>
          refine Ok.congr (y := HM.forM (appendNewH eq a) vals) (by simp only [ho, hi]) ?_
          exact Ok.forM vals h1 fun x hx h' hl' => appendNewH_ok n eq a x h' (hva a rfl).1 ((iterH_vals g hv1 hi x hx).mono hl')
      | dict us =>
        refine Ok.congr (y := HM.bind (merge [.ref a, v]) (setKeyH m k)) (by simp only [ho]) ?_
        refine Ok.bind (hmerge _ _ h1 (hva.weaken (Nat.zero_le _)) hv1) fun h2 c _ hc => ?_
        exact setKeyH_ok n m k c h2 hm hc
  · exact plainH_ok n m k v h1 hm hv1

theorem mergeValueH_ok (n : Nat) (eq : Heap → HVal → HVal → Except PyErr Bool) (merge : List HVal → HM HVal)
    (hmerge : ∀ x y h, Val 0 h.length x → Val n h.length y → Ok n h (merge [x, y]) (fun L v => Val n L v))
    (m : Nat) (e : Key × HVal) (h : Heap) (hm : n ≤ m) (he : Val n h.length e.2) :
    Ok n h (mergeValueH eq merge m e) (fun _ _ => True) := by
  unfold mergeValueH
  split
  · exact Ok.pure trivial
  · split
    · exact Ok.pure trivial
    · exact mergeSomeH_ok n eq merge hmerge m _ _ h hm he

theorem resetKeysH_ok (n m : Nat) (v : HVal) (h : Heap) (hm : n ≤ m) : Ok n h (resetKeysH m v) (fun _ _ => True) := by
  cases v with
  | ref a => exact Ok.same rfl fun _ _ => trivial
  | atom p =>
    cases hp : pristineKey p with
    | error e => exact Ok.same (by simp only [resetKeysH, hp]) fun _ _ => trivial
    | ok o => cases o with
      | none => exact Ok.same (by simp only [resetKeysH, hp]) fun _ _ => trivial
      | some k =>
        refine Ok.congr (y := HM.bind (HM.items m) (fun kvs => HM.write m (.dict (kvs.filter fun e => decide (e.1 ≠ k))))) (by simp only [resetKeysH, hp]) ?_
        refine Ok.bind Ok.items fun h1 kvs _ hk => ?_
        refine Ok.write hm ?_ trivial
        intro w hw
        simp only [HObj.vals, List.mem_map, List.mem_filter] at hw
        obtain ⟨p, ⟨hp, _⟩, rfl⟩ := hw
        exact (hk _ (List.mem_map_of_mem hp)).2 hm

theorem startH_ok (n m : Nat) (p : HVal) (h : Heap) (hm : n ≤ m ∧ m < h.length) :
    Ok n h (startH m p) (fun L m' => n ≤ m' ∧ m' < L) := by
  unfold startH
  split
  · refine Ok.bind (Ok.alloc (o := .dict []) (by simp [HObj.vals])) fun h1 c _ ⟨b, e, hb⟩ => ?_
    subst e; exact Ok.pure hb
  · by_cases hp : truthyH h p
    · cases hi : iterH h p with
      | error e => exact Ok.same (by simp only [if_pos hp, hi]) fun w e => by simp only [if_pos hp, hi] at e; cases e
      | ok ks =>
        refine Ok.congr (y := HM.bind (HM.forM (resetKeysH m) ks) (fun _ => HM.pure m)) (by simp only [if_pos hp, hi]) ?_
        refine Ok.bind (Ok.forM ks h fun x _ h' _ => resetKeysH_ok n m x h' hm.1) fun h1 _ hl _ => ?_
        exact Ok.pure ⟨hm.1, Nat.lt_of_lt_of_le hm.2 hl⟩
    · exact Ok.same (by rw [if_neg hp]) fun w e => by
        rw [if_neg hp] at e; injection e with e; subst e; exact hm

theorem mergeIntoH_ok (n : Nat) (eq : Heap → HVal → HVal → Except PyErr Bool) (merge : List HVal → HM HVal)
    (hmerge : ∀ x y h, Val 0 h.length x → Val n h.length y → Ok n h (merge [x, y]) (fun L v => Val n L v))
    (m : Nat) (v : HVal) (h : Heap) (hm : n ≤ m ∧ m < h.length) (hv : Val n h.length v) :
    Ok n h (mergeIntoH eq merge m v) (fun L m' => n ≤ m' ∧ m' < L) := by
  refine Ok.good fun g => ?_
  by_cases ht : truthyH h v
  rotate_left
  · exact Ok.same (by simp only [mergeIntoH, if_neg ht]) fun w e => by
      simp only [mergeIntoH, if_neg ht] at e; injection e with e; subst e; exact hm
  cases v with
  | atom p =>
      exact Ok.same (by simp only [mergeIntoH, if_pos ht]) fun w e => by
        simp only [mergeIntoH, if_pos ht] at e; cases e
  | ref a =>
    have ha : n ≤ a := (hv a rfl).1
    cases ho : h[a]? with
    | none =>
        exact Ok.same (by simp only [mergeIntoH, if_pos ht, ho]) fun w e => by
          simp only [mergeIntoH, if_pos ht, ho] at e; cases e
    | some o => cases o with
      | list us =>
          exact Ok.same (by simp only [mergeIntoH, if_pos ht, ho]) fun w e => by
            simp only [mergeIntoH, if_pos ht, ho] at e; cases e
      | dict kvs =>
        have hk : ∀ w ∈ kvs.map Prod.snd, Val n h.length w := fun w hw => ((g.loaded ho) w hw).2 ha
        refine Ok.congr (y := HM.bind (startH m _) (fun m' => HM.bind (HM.forM (mergeValueH eq merge m') kvs) fun _ => HM.pure m'))
          (by simp only [mergeIntoH, if_pos ht, ho]; rfl) ?_
        refine Ok.bind (startH_ok n m _ h hm) fun h1 m' hl hm' => ?_
        refine Ok.bind (Ok.forM kvs h1 fun e he h' hl' => mergeValueH_ok n eq merge hmerge m' e h' hm'.1
          ((hk e.2 (List.mem_map_of_mem he)).mono (Nat.le_trans hl hl'))) fun h2 _ hl2 _ => ?_
        exact Ok.pure ⟨hm'.1, Nat.lt_of_lt_of_le hm'.2 hl2⟩

theorem mergeRestH_ok (n : Nat) (eq : Heap → HVal → HVal → Except PyErr Bool) (merge : List HVal → HM HVal)
    (hmerge : ∀ x y h, Val 0 h.length x → Val n h.length y → Ok n h (merge [x, y]) (fun L v => Val n L v)) :
    ∀ (os : List HVal) (m : Nat) (h : Heap), (n ≤ m ∧ m < h.length) → (∀ o ∈ os, Val n h.length o) →
    Ok n h (mergeRestH eq merge m os) (fun L v => ∃ a, v = .ref a ∧ n ≤ a ∧ a < L) := by
  intro os
  induction os with
  | nil => intro m h hm _; exact Ok.pure ⟨m, rfl, hm⟩
  | cons o os ih =>
    intro m h hm ho
    unfold mergeRestH
    refine Ok.bind (mergeIntoH_ok n eq merge hmerge m o h hm (ho o (by simp))) fun h1 m' hl hm' => ?_
    exact ih m' h1 hm' fun o' ho' => (ho o' (by simp [ho'])).mono hl

theorem mergeOptionsH_ok (n : Nat) (eq : Heap → HVal → HVal → Except PyErr Bool) : ∀ (f : Nat) (os : List HVal) (h : Heap),
    (∀ o ∈ os, Val 0 h.length o) → (∀ o ∈ os.tail, Val n h.length o) →
    Ok n h (mergeOptionsH eq f os) (fun L v => ∃ a, v = .ref a ∧ n ≤ a ∧ a < L) := by
  intro f
  induction f with
  | zero => intro os h _ _; exact Ok.raise
  | succ f ih =>
    intro os h h0 h1
    have hmerge : ∀ x y h, Val 0 h.length x → Val n h.length y → Ok n h (mergeOptionsH eq f [x, y]) (fun L v => Val n L v) := by
      intro x y h hx hy
      refine (ih [x, y] h ?_ ?_).weaken fun L v _ ⟨a, e, ha⟩ b hb => by rw [e] at hb; cases hb; exact ha
      · intro o ho; simp only [List.mem_cons, List.not_mem_nil, or_false] at ho
        rcases ho with e | e
        · rw [e]; exact hx
        · rw [e]; exact hy.weaken (Nat.zero_le _)
      · intro o ho; simp only [List.tail_cons, List.mem_cons, List.not_mem_nil, or_false] at ho
        rw [ho]; exact hy
    cases os with
    | nil => unfold mergeOptionsH; exact Ok.alloc (o := .dict []) (by simp [HObj.vals])
    | cons o os =>
      have first : Ok n h (if truthyH h o then
          HM.bind (deepcopyH (f + 1) [] o) fun r => match r.2 with
            | .ref a => HM.items a
            | .atom _ => HM.raise .typeError
        else HM.pure []) (fun L kvs => ∀ w ∈ kvs.map Prod.snd, Val n L w) := by
        split
        · refine Ok.bind (deepcopyH_ok n (f + 1) [] o h (by intro e he; cases he) (h0 o (by simp))) fun h2 r hl ⟨_, hr⟩ => ?_
          split
          · rename_i a ha
            exact Ok.items.weaken fun L kvs _ hk w hw => (hk w hw).2 (hr a ha).1
          · exact Ok.raise
        · exact Ok.pure (by simp)
      refine Ok.congr (y := HM.bind _ (fun kvs => HM.bind (HM.alloc (.dict kvs)) fun c => match c with
        | .ref m => mergeRestH eq (mergeOptionsH eq f) m os
        | .atom _ => HM.raise .typeError)) (by unfold mergeOptionsH; rfl) ?_
      refine Ok.bind first fun h2 kvs hl hk => ?_
      refine Ok.bind (Ok.alloc (o := .dict kvs) hk) fun h3 c hl3 ⟨m, e, hm⟩ => ?_
      subst e
      exact mergeRestH_ok n eq _ hmerge os m h3 hm fun o' ho' => (h1 o' (by simpa using ho')).mono (Nat.le_trans hl hl3)

end Guessit
