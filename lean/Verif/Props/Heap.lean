import Verif.Proofs.HeapMerge

/-!
# C13: the caller's objects are never modified, and are never the API's own
-/

namespace Guessit

open Spec

variable {R : Type}

/-- The options argument refers to existing objects. -/
def OptH.Fine (h : Heap) : OptH → Prop
  | .none => True
  | .obj v => Known h v
  | .text parse => Builds parse fun v => [v]

theorem parseFix_ok (S : SysH R) {n : Nat} {h : Heap} {o : OptH} (ho : o.Fine h) :
    Ok n h (HM.bind (parseH o) (fixH S.fuel)) (fun L v => Val n L v) := by
  have fine : Ok n h (parseH o) (fun L v => Val 0 L v) := by
    cases o with
    | none =>
      exact (Ok.alloc (o := .dict []) (by simp [HObj.vals])).weaken fun L v _ ⟨a, e, ha⟩ b hb => by
        rw [e] at hb; cases hb; exact ⟨Nat.zero_le _, ha.2⟩
    | obj v => exact Ok.pure fun a e => ⟨Nat.zero_le _, ho a e⟩
    | text p => exact (Builds.ok (n := n) ho).weaken fun L v _ hv => (hv v (by simp)).weaken (Nat.zero_le _)
  exact Ok.bind fine fun h1 v _ hv => fixH_ok n S.fuel v h1 hv

/-- What a call leaves behind: objects that existed are as before; there is a `m` such that the new objects below `m` refer
only to each other, those from `m` on also; cached values were cached before or lie below `m`; the result lies from `m` on. -/
def Split (st : ApiH R) (h : Heap) (x : ApiH R × Heap × Except PyErr HVal) : Prop := ∃ m, h.length ≤ m ∧ m ≤ x.2.1.length ∧
  (∀ a : Nat, a < h.length → x.2.1[a]? = h[a]?) ∧
  (∀ (a : Nat) (o : HObj), x.2.1[a]? = some o → h.length ≤ a → ∀ b, HVal.ref b ∈ o.vals →
    h.length ≤ b ∧ b < x.2.1.length ∧ (a < m ↔ b < m)) ∧
  (∀ v ∈ x.1.roots, v ∈ st.roots ∨ Val h.length m v) ∧
  (∀ v, x.2.2 = .ok v → Val m x.2.1.length v)

theorem After.split {st : ApiH R} {h : Heap} {x : ApiH R × Heap × Except PyErr HVal} (ha : After h.length st h x)
    (r : Except PyErr HVal) (hr : ∀ v, r ≠ .ok v) : Split st h (x.1, x.2.1, r) := by
  obtain ⟨h1, h2, h3, h4, h5⟩ := ha
  refine ⟨x.2.1.length, h1, Nat.le_refl _, h2, ?_, h4, fun v e => absurd e (hr v)⟩
  intro a o ho hn b hb
  have := h3.2 a o ho b hb
  have hlt : a < x.2.1.length := by
    apply Nat.lt_of_not_le; intro hle
    dsimp only at ho; rw [List.getElem?_eq_none hle] at ho; cases ho
  exact ⟨this.2 hn, this.1, ⟨fun _ => this.1, fun _ => hlt⟩⟩

theorem useH_split {S : SysH R} (hS : Outside S) (use : R → HVal → HM HVal) (hu : ∀ r v, Builds (use r v) fun v => [v])
    {st : ApiH R} {h : Heap} {o : OptH} (hc : Closed h) (ho : o.Fine h) (hst : ∀ v ∈ st.roots, Known h v) :
    Split st h (useH S use o st h) := by
  have g := good_self hc
  obtain ⟨p1, p2, p3, p4⟩ := parseFix_ok S (n := h.length) ho g
  unfold useH
  rcases e1 : HM.bind (parseH o) (fixH S.fuel) h with ⟨h1, r1⟩
  rw [e1] at p1 p2 p3 p4
  dsimp only at p1 p2 p3 p4
  cases r1 with
  | error err =>
    exact After.split (x := (st, h1, .error err)) ⟨p1, p2, p3, fun v hv => .inl hv, fun c e => by cases e⟩ _ (fun v => by simp)
  | ok options =>
    have hopt := p4 options rfl
    obtain ⟨c1, c2, c3, c4, c5⟩ := configureH_after hS (n := h.length) (st := st) (force := false) p3 hopt
      (fun v hv a e => ⟨Nat.zero_le _, Nat.lt_of_lt_of_le (hst v hv a e) p1⟩)
    dsimp only
    rcases e2 : configureH S options false st h1 with ⟨st2, h2, r2⟩
    rw [e2] at c1 c2 c3 c4 c5
    dsimp only at c1 c2 c3 c4 c5
    have ag2 : ∀ a : Nat, a < h.length → h2[a]? = h[a]? := fun a ha => (c2 a ha).trans (p2 a ha)
    cases r2 with
    | error err =>
      exact After.split (x := (st2, h2, .error err)) ⟨Nat.le_trans p1 c1, ag2, c3, c4, fun c e => by cases e⟩ _ (fun v => by simp)
    | ok config =>
      have hcfg : Val 0 h2.length config := by
        rcases c5 config rfl with hc | hc
        · exact fun a e => ⟨Nat.zero_le _, Nat.lt_of_lt_of_le (hst _ hc a e) (Nat.le_trans p1 c1)⟩
        · exact hc.weaken (Nat.zero_le _)
      obtain ⟨m1, m2, m3, m4⟩ := mergeOptionsH_ok h.length S.eq S.fuel [config, options] h2 (by
          intro o' ho'
          simp only [List.mem_cons, List.not_mem_nil, or_false] at ho'
          rcases ho' with e | e
          · rw [e]; exact hcfg
          · rw [e]; exact (hopt.weaken (Nat.zero_le _)).mono c1)
          (by
            intro o' ho'
            simp only [List.tail_cons, List.mem_cons, List.not_mem_nil, or_false] at ho'
            rw [ho']; exact hopt.mono c1) c3
      dsimp only
      rcases e3 : mergeOptionsH S.eq S.fuel [config, options] h2 with ⟨h3, r3⟩
      rw [e3] at m1 m2 m3 m4
      dsimp only at m1 m2 m3 m4
      have ag3 : ∀ a : Nat, a < h.length → h3[a]? = h[a]? := fun a ha => (m2 a ha).trans (ag2 a ha)
      have ln3 : h.length ≤ h3.length := Nat.le_trans p1 (Nat.le_trans c1 m1)
      have roots3 : ∀ v ∈ st2.roots, v ∈ st.roots ∨ Val h.length h3.length v := fun v hv => (c4 v hv).imp id fun h => h.mono m1
      cases r3 with
      | error err => exact After.split (x := (st2, h3, .error err)) ⟨ln3, ag3, m3, roots3, fun c e => by cases e⟩ _ (fun v => by simp)
      | ok merged =>
        dsimp only
        cases er : st2.rebulk with
        | none => exact After.split (x := (st2, h3, .error .attributeError)) ⟨ln3, ag3, m3, roots3, fun c e => by cases e⟩ _ (fun v => by simp)
        | some r =>
          dsimp only
          obtain ⟨new, u1, u2, u3⟩ := hu r merged h3 m3.closed
          rcases e4 : use r merged h3 with ⟨h4, r4⟩
          rw [e4] at u1 u2 u3
          dsimp only at u1 u2 u3
          have hlen : h4.length = h3.length + new.length := by rw [u1]; simp
          refine ⟨h3.length, ln3, by dsimp only; omega, ?_, ?_, roots3, ?_⟩
          · intro a ha
            dsimp only
            rw [u1, List.getElem?_append_left (Nat.lt_of_lt_of_le ha ln3)]; exact ag3 a ha
          · intro a o' ho' hn b hb
            dsimp only at ho' ⊢
            rw [u1, List.getElem?_append] at ho'
            split at ho'
            · rename_i hlt
              have := m3.2 a o' ho' b hb
              have := this.2 hn
              exact ⟨by omega, by omega, ⟨fun _ => by omega, fun _ => hlt⟩⟩
            · rename_i hlt
              have := u2 o' (List.mem_of_getElem? ho') b hb
              exact ⟨by omega, by omega, ⟨fun hh => by omega, fun hh => by omega⟩⟩
          · intro v ev b hb
            subst hb
            exact u3 _ ev b (by simp)

theorem configurePublicH_after {S : SysH R} (hS : Outside S)
    {st : ApiH R} {h : Heap} {o : OptH} {force : Bool} (hc : Closed h) (ho : o.Fine h) (hst : ∀ v ∈ st.roots, Known h v) :
    After h.length st h (configurePublicH S o force st h) := by
  have g := good_self hc
  obtain ⟨p1, p2, p3, p4⟩ := parseFix_ok S (n := h.length) ho g
  unfold configurePublicH
  rcases e1 : HM.bind (parseH o) (fixH S.fuel) h with ⟨h1, r1⟩
  rw [e1] at p1 p2 p3 p4
  dsimp only at p1 p2 p3 p4
  cases r1 with
  | error err => exact ⟨p1, p2, p3, fun v hv => .inl hv, fun c e => by cases e⟩
  | ok options =>
    obtain ⟨c1, c2, c3, c4, c5⟩ := configureH_after hS (n := h.length) (st := st) (force := force) p3 (p4 options rfl)
      (fun v hv a e => ⟨Nat.zero_le _, Nat.lt_of_lt_of_le (hst v hv a e) p1⟩)
    exact ⟨Nat.le_trans p1 c1, fun a ha => (c2 a ha).trans (p2 a ha), c3, c4, c5⟩

/-! ## The calls -/

/-- **C13.** `guessit` modifies no object that existed before the call: not the options, nothing they contain, however shared
or cyclic, and also when it raises. -/
theorem C13_guessit {S : SysH R} (hS : Outside S) (name : Str) (o : OptH) (st : ApiH R) (h : Heap) (hc : Closed h)
    (ho : o.Fine h) (hst : ∀ v ∈ st.roots, Known h v) :
    ∀ a : Nat, a < h.length → (guessitH S name o st h).2.1[a]? = h[a]? :=
  let ⟨_, _, _, h1, _⟩ := useH_split hS (fun r c => S.rules r name c) (fun r v => hS.rules r name v) hc ho hst
  h1

/-- **C13.** `properties` modifies no object that existed before the call. -/
theorem C13_properties {S : SysH R} (hS : Outside S) (o : OptH) (st : ApiH R) (h : Heap) (hc : Closed h)
    (ho : o.Fine h) (hst : ∀ v ∈ st.roots, Known h v) :
    ∀ a : Nat, a < h.length → (propertiesH S o st h).2.1[a]? = h[a]? :=
  let ⟨_, _, _, h1, _⟩ := useH_split hS S.introspect hS.introspect hc ho hst
  h1

/-- **C13.** `configure` modifies no object that existed before the call. -/
theorem C13_configure {S : SysH R} (hS : Outside S) (o : OptH) (force : Bool) (st : ApiH R) (h : Heap) (hc : Closed h)
    (ho : o.Fine h) (hst : ∀ v ∈ st.roots, Known h v) :
    ∀ a : Nat, a < h.length → (configurePublicH S o force st h).2.1[a]? = h[a]? :=
  (configurePublicH_after hS hc ho hst).2.1

/-! ## Histories -/

/-- The API's objects and the caller's are apart. -/
def Apart (w : World R) : Prop := ∃ K : Nat → Prop,
  (∀ (a : Nat) (o : HObj), w.heap[a]? = some o → ∀ b, HVal.ref b ∈ o.vals → b < w.heap.length ∧ (K a ↔ K b)) ∧
  (∀ v ∈ w.st.roots, ∀ a, v = .ref a → a < w.heap.length ∧ K a) ∧
  (∀ v ∈ w.held, ∀ a, v = .ref a → a < w.heap.length ∧ ¬ K a)

theorem Reach.side {h : Heap} {K : Nat → Prop}
    (hK : ∀ (a : Nat) (o : HObj), h[a]? = some o → ∀ b, HVal.ref b ∈ o.vals → b < h.length ∧ (K a ↔ K b))
    {v : HVal} {a : Nat} (hr : Reach h v a) : ∃ c, v = .ref c ∧ (K c ↔ K a) ∧ (c < h.length → a < h.length) := by
  induction hr with
  | here a => exact ⟨a, rfl, Iff.rfl, id⟩
  | step ho hv _ ih =>
    obtain ⟨c, e, hc, hl⟩ := ih
    subst e
    have := hK _ _ ho c hv
    exact ⟨_, rfl, this.2.trans hc, fun _ => hl this.1⟩

theorem World.has_side {w : World R} {K : Nat → Prop}
    (hK : ∀ (a : Nat) (o : HObj), w.heap[a]? = some o → ∀ b, HVal.ref b ∈ o.vals → b < w.heap.length ∧ (K a ↔ K b))
    (hh : ∀ v ∈ w.held, ∀ a, v = .ref a → a < w.heap.length ∧ ¬ K a) {a : Nat} (hv : w.has (.ref a)) :
    a < w.heap.length ∧ ¬ K a := by
  obtain ⟨u, hu, hr⟩ := hv a rfl
  obtain ⟨c, e, hc, hl⟩ := Reach.side hK hr
  have := hh u hu c e
  exact ⟨hl this.1, fun h => this.2 (hc.2 h)⟩

theorem Apart.afterCall {w : World R} (hw : Apart w) {x : ApiH R × Heap × Except PyErr HVal} (hx : Split w.st w.heap x) :
    Apart ⟨x.1, x.2.1, received w.held x.2.2⟩ := by
  obtain ⟨K, k1, k2, k3⟩ := hw
  obtain ⟨m, m1, m2, m3, m4, m5, m6⟩ := hx
  refine ⟨fun a => (a < w.heap.length ∧ K a) ∨ (w.heap.length ≤ a ∧ a < m), ?_, ?_, ?_⟩
  · intro a o ho b hb
    dsimp only at ho ⊢
    by_cases ha : a < w.heap.length
    · rw [m3 a ha] at ho
      have := k1 a o ho b hb
      refine ⟨by omega, ?_, ?_⟩
      · rintro (h | h)
        · exact .inl ⟨this.1, this.2.1 h.2⟩
        · omega
      · rintro (h | h)
        · exact .inl ⟨ha, this.2.2 h.2⟩
        · omega
    · have := m4 a o ho (by omega) b hb
      refine ⟨this.2.1, ?_, ?_⟩
      · rintro (h | h)
        · omega
        · exact .inr ⟨this.1, this.2.2.1 h.2⟩
      · rintro (h | h)
        · omega
        · exact .inr ⟨by omega, this.2.2.2 h.2⟩
  · intro v hv a e
    rcases m5 v hv with hv | hv
    · have := k2 v hv a e
      exact ⟨by dsimp only; omega, .inl this⟩
    · have := hv a e
      exact ⟨by dsimp only; omega, .inr this⟩
  · intro v hv a e
    have old : v ∈ w.held → a < x.2.1.length ∧ ¬ ((a < w.heap.length ∧ K a) ∨ (w.heap.length ≤ a ∧ a < m)) := by
      intro hv
      have := k3 v hv a e
      refine ⟨by omega, ?_⟩
      rintro (h | h)
      · exact this.2 h.2
      · omega
    cases hr : x.2.2 with
    | error err => rw [hr] at hv; exact old hv
    | ok r =>
      rw [hr] at hv
      dsimp only [received] at hv
      rw [List.mem_cons] at hv
      rcases hv with e' | hv
      · subst e'
        have := m6 v hr a e
        exact ⟨this.2, by rintro (h | h) <;> omega⟩
      · exact old hv

theorem Apart.closed {w : World R} (hw : Apart w) : Closed w.heap := by
  obtain ⟨K, k1, _⟩ := hw
  intro a o ho v hv b e
  subst e; exact (k1 a o ho b hv).1

theorem Apart.known {w : World R} (hw : Apart w) : ∀ v ∈ w.st.roots, Known w.heap v := by
  obtain ⟨K, _, k2, _⟩ := hw
  exact fun v hv a e => (k2 v hv a e).1

theorem Apart.fine {w : World R} (hw : Apart w) {o : OptH} (ho : w.hasOpt o) : o.Fine w.heap := by
  obtain ⟨K, k1, _, k3⟩ := hw
  cases o with
  | none => trivial
  | obj v => exact fun a e => by subst e; exact (World.has_side k1 k3 ho).1
  | text p => exact ho

theorem Apart.step {S : SysH R} (hS : Outside S) {u w : World R} (hu : Apart u) (hs : Step S u w) : Apart w := by
  cases hs with
  | create o ho =>
    obtain ⟨K, k1, k2, k3⟩ := hu
    have hv : ∀ b, HVal.ref b ∈ o.vals → b < u.heap.length ∧ ¬ K b := fun b hb => World.has_side k1 k3 (ho _ hb)
    refine ⟨fun a => a < u.heap.length ∧ K a, ?_, ?_, ?_⟩
    · intro a o' ho' b hb
      dsimp only at ho' ⊢
      rw [List.length_append, List.length_singleton]
      rw [List.getElem?_append] at ho'
      split at ho'
      · rename_i hlt
        have := k1 a o' ho' b hb
        exact ⟨by omega, fun h => ⟨this.1, this.2.1 h.2⟩, fun h => ⟨hlt, this.2.2 h.2⟩⟩
      · have : o' = o := by simpa using List.mem_of_getElem? ho'
        subst this
        have := hv b hb
        exact ⟨by omega, fun h => absurd h.1 (by omega), fun h => absurd h.2 this.2⟩
    · intro v hv a e
      have := k2 v hv a e
      exact ⟨by dsimp only; simp; omega, this⟩
    · intro v hv' a e
      dsimp only at hv' ⊢
      rw [List.mem_cons] at hv'
      rw [List.length_append, List.length_singleton]
      rcases hv' with e' | hv'
      · rw [e'] at e; cases e
        exact ⟨by omega, fun h => by omega⟩
      · have := k3 v hv' a e
        exact ⟨by omega, fun h => this.2 h.2⟩
  | edit a o ha ho =>
    obtain ⟨K, k1, k2, k3⟩ := hu
    have hv : ∀ b, HVal.ref b ∈ o.vals → b < u.heap.length ∧ ¬ K b := fun b hb => World.has_side k1 k3 (ho _ hb)
    have hka := World.has_side k1 k3 ha
    refine ⟨K, ?_, ?_, ?_⟩
    · intro c o' ho' b hb
      dsimp only at ho' ⊢
      rw [List.length_set]
      rw [List.getElem?_set] at ho'
      split at ho'
      · rename_i hac
        subst hac
        split at ho'
        · cases ho'
          have := hv b hb
          exact ⟨this.1, fun h => absurd h hka.2, fun h => absurd h this.2⟩
        · cases ho'
      · exact k1 c o' ho' b hb
    · intro v hv c e; dsimp only; rw [List.length_set]; exact k2 v hv c e
    · intro v hv c e; dsimp only; rw [List.length_set]; exact k3 v hv c e
  | guessit name o ho =>
    exact hu.afterCall (useH_split hS (fun r c => S.rules r name c) (fun r v => hS.rules r name v) hu.closed (hu.fine ho) hu.known)
  | properties o ho =>
    exact hu.afterCall (useH_split hS S.introspect hS.introspect hu.closed (hu.fine ho) hu.known)
  | configure o force ho =>
    have ha := configurePublicH_after hS (force := force) hu.closed (hu.fine ho) hu.known
    exact hu.afterCall (After.split ha (.error .typeError) (fun v => by simp))
  | reset =>
    obtain ⟨K, k1, k2, k3⟩ := hu
    exact ⟨K, k1, fun v hv => by simp [ApiH.roots, ApiH.init] at hv, k3⟩

theorem Apart.steps {S : SysH R} (hS : Outside S) {u w : World R} (hs : Steps S u w) : Apart u → Apart w := by
  induction hs with
  | nil _ => exact id
  | cons h _ ih => intro hu; exact ih (hu.step hS h)

/-- **C13.** In every history of calls to `guessit`, `properties`, `configure` and `reset` interleaved with edits by the
caller, starting from a new API object and any objects of the caller, no object is reachable both from the cached state and
from what the caller holds (its own objects, the options it passed, the results it got). -/
theorem C13_apart {S : SysH R} (hS : Outside S) (heap : Heap) (held : List HVal) (hc : Closed heap)
    (hh : ∀ v ∈ held, Known heap v) (w : World R) (hw : Steps S ⟨ApiH.init, heap, held⟩ w) (a : Nat) :
    ¬ ((∃ v ∈ w.st.roots, Reach w.heap v a) ∧ ∃ v ∈ w.held, Reach w.heap v a) := by
  have hw : Apart w := Apart.steps hS hw ⟨fun _ => False, fun a o ho b hb => ⟨hc a o ho _ hb b rfl, Iff.rfl⟩,
    fun v hv => by simp [ApiH.roots, ApiH.init] at hv, fun v hv a e => ⟨hh v hv a e, id⟩⟩
  obtain ⟨K, k1, k2, k3⟩ := hw
  rintro ⟨⟨v, hv, hr⟩, ⟨u, hu, hs⟩⟩
  obtain ⟨c, ec, hc, _⟩ := Reach.side k1 hr
  obtain ⟨d, ed, hd, _⟩ := Reach.side k1 hs
  exact (k3 u hu d ed).2 (hd.2 (hc.1 (k2 v hv c ec).2))

/-- **C13.** So in every such history, an edit by the caller changes no object of the cached state. -/
theorem C13_edit {S : SysH R} (hS : Outside S) (heap : Heap) (held : List HVal) (hc : Closed heap)
    (hh : ∀ v ∈ held, Known heap v) (w : World R) (hw : Steps S ⟨ApiH.init, heap, held⟩ w) (a : Nat) (o : HObj)
    (ha : w.has (.ref a)) (b : Nat) (hb : ∃ v ∈ w.st.roots, Reach w.heap v b) : (w.heap.set a o)[b]? = w.heap[b]? := by
  have : a ≠ b := fun e => C13_apart hS heap held hc hh w hw b ⟨hb, by
    obtain ⟨u, hu, hr⟩ := ha a rfl
    exact ⟨u, hu, e ▸ hr⟩⟩
  exact List.getElem?_set_ne this

/-- The exception: what `configure` returns is the cached configuration itself (api.py:177-178), so a caller that edits it
edits the cache. -/
theorem C13_configure_returns_cache (S : SysH R) (o : OptH) (force : Bool) (st : ApiH R) (h : Heap) (c : HVal)
    (hr : (configurePublicH S o force st h).2.2 = .ok c) : (configurePublicH S o force st h).1.config = some c := by
  unfold configurePublicH at hr ⊢
  split at hr
  · cases hr
  · rename_i h1 options _
    unfold configureH at hr ⊢
    rcases hch : chooseH S options force st h1 with ⟨st1, h2, r1⟩
    rw [hch] at hr
    cases r1 with
    | error e => cases hr
    | ok config =>
      dsimp only at hr ⊢
      unfold rebuildH at hr ⊢
      split at hr
      · cases hr
      · split at hr
        · cases hr
        · cases hr; rfl
        · split at hr
          · cases hr
          · split at hr
            · cases hr
            · cases hr; rfl

/-! ## `merge_options` by itself -/

/-- **C13.** `merge_options` modifies none of the objects it is given or that they contain, however they are shared, and what
it returns is a new dictionary; also when it raises. -/
theorem C13_merge_options (eq : Heap → HVal → HVal → Except PyErr Bool) (fuel : Nat) (options : List HVal) (h : Heap)
    (hc : Closed h) (ho : ∀ o ∈ options, Known h o) :
    (∀ a : Nat, a < h.length → (mergeOptionsH eq fuel options h).1[a]? = h[a]?) ∧
    ∀ v, (mergeOptionsH eq fuel options h).2 = .ok v → ∃ a kvs, v = .ref a ∧ h.length ≤ a ∧
      (mergeOptionsH eq fuel options h).1[a]? = some (.dict kvs) :=
  let ⟨_, _, h1, h2⟩ := mergeOptionsH_filled eq fuel options h hc ho
  ⟨h1, h2⟩

/-! ## Cases -/

/-- `==` on immutable texts and numbers; objects are never equal (enough for the cases below). -/
def exEq : Heap → HVal → HVal → Except PyErr Bool
  | _, .atom x, .atom y => .ok (match x, y with
    | .str s, .str t => s == t
    | .int i, .int j => i == j
    | .none, .none => true
    | _, _ => false)
  | _, _, _ => .ok false

/-- A builder that empties the configuration it is given, an engine that answers with a new dictionary. -/
def exSys : SysH Unit where
  eq := exEq
  fuel := 30
  read := fun _ => HM.pure []
  defaults := HM.alloc (.dict [(kAdvanced, .atom .none)])
  build := fun v h => match v with
    | .ref a => (h.set a (.dict []), .ok ())
    | .atom _ => (h, .ok ())
  rules := fun _ s _ => HM.alloc (.dict [(.str c!"title", .atom (.str s))])
  introspect := fun _ _ => HM.alloc (.dict [])

theorem builds_alloc (o : HObj) (ho : ∀ b, HVal.ref b ∉ o.vals) : Builds (HM.alloc o) fun v => [v] := by
  intro h _
  refine ⟨[o], rfl, fun o' ho' b hb => ?_, fun r e b hb => ?_⟩
  · rw [List.mem_singleton] at ho'; subst ho'; exact absurd hb (ho b)
  · simp only [HM.alloc] at e; injection e with e
    subst e
    simp only [List.mem_singleton, HVal.ref.injEq] at hb
    subst hb
    exact ⟨Nat.le_refl _, by simp [HM.alloc]⟩

/-- The assumptions about the outside can be met. -/
theorem exSys_outside : Outside exSys where
  read := fun v h _ => ⟨[], by simp [exSys, HM.pure], by simp, fun r e => by
    simp only [exSys, HM.pure] at e; injection e with e; subst e; simp⟩
  defaults := builds_alloc _ (by simp [HObj.vals])
  build := by
    intro v h hc hv
    cases v with
    | atom p => exact ⟨Nat.le_refl _, fun _ _ _ => rfl, fun a o ho hr b hb => by
        rcases hr with hr | hr
        · simp only [exSys] at ho; rw [List.getElem?_eq_none hr] at ho; cases ho
        · cases hr⟩
    | ref c =>
      refine ⟨by simp [exSys], fun a _ hr => ?_, fun a o ho hr b hb => ?_⟩
      · have : c ≠ a := fun e => hr (e ▸ Reach.here c)
        exact List.getElem?_set_ne this
      · simp only [exSys] at ho
        rw [List.getElem?_set] at ho
        split at ho
        · split at ho
          · cases ho; simp [HObj.vals] at hb
          · cases ho
        · rcases hr with hr | hr
          · rw [List.getElem?_eq_none hr] at ho; cases ho
          · exact .inl (by
              clear hv
              generalize HVal.ref c = u at hr
              induction hr with
              | here a => exact .step ho hb (.here b)
              | step h1 h2 _ ih => exact .step h1 h2 (ih (by assumption) ho))
  rules := fun _ _ _ => builds_alloc _ (by simp [HObj.vals])
  introspect := fun _ _ => builds_alloc _ (by simp [HObj.vals])

/-- Options whose `advanced_config` shares a list with another option. -/
def exHeap : Heap := [.dict [(kAdvanced, .ref 1), (.str c!"includes", .ref 2)], .dict [(.str c!"groups", .ref 2)],
  .list [.atom (.str c!"a")]]

example : Closed exHeap := by
  intro a o ho v hv b hb
  have : a < exHeap.length := lt_length_of_some ho
  match a, this with
  | 0, _ => cases ho; subst hb; simp [HObj.vals] at hv; rcases hv with e | e <;> (subst e; decide)
  | 1, _ => cases ho; subst hb; simp [HObj.vals] at hv; subst hv; decide
  | 2, _ => cases ho; subst hb; simp [HObj.vals] at hv

/-- The call succeeds, builds rules and caches a configuration, out of new objects. -/
example : (match guessitH exSys c!"x" (.obj (.ref 0)) ApiH.init exHeap with
    | (st, h, .ok (.ref a)) => decide (3 ≤ a ∧ a < h.length) && (match st.config, st.loadOpts, st.adv, st.built with
      | some (.ref c), some (.ref l), some (.ref d), some (.ref b) => decide (3 ≤ c ∧ 3 ≤ l ∧ 3 ≤ d ∧ 3 ≤ b)
      | _, _, _, _ => false)
    | _ => false) = true := by decide +kernel

theorem mem_received {v : HVal} {held : List HVal} (r : Except PyErr HVal) (hv : v ∈ held) : v ∈ received held r := by
  cases r with
  | error e => exact hv
  | ok u => exact List.mem_cons_of_mem _ hv

/-- A history of two calls and an edit of the options between them ends with a cached state. -/
example : ∃ w : World Unit, Steps exSys ⟨ApiH.init, exHeap, [.ref 0]⟩ w ∧ w.st.roots.length = 4 ∧ w.held.length = 3 := by
  refine ⟨_, .cons (.guessit _ c!"x" (.obj (.ref 0)) fun a e => ⟨.ref 0, List.mem_singleton.2 rfl, by cases e; exact .here 0⟩)
    (.cons (.edit _ 0 (.dict []) (fun a e => ⟨.ref 0, ?_, by cases e; exact .here 0⟩) (by simp [HObj.vals]))
    (.cons (.properties _ .none trivial) (.nil _))), by decide +kernel, by decide +kernel⟩
  dsimp only
  apply mem_received
  exact List.mem_singleton.2 rfl

/-- Without sanitizing (`configure(options, sanitize_options=False)`, a public parameter) the guarantee fails: the builder is
given the caller's own nested dictionaries. -/
def exTouch : SysH Unit := { exSys with build := fun v h => match v with
    | .ref a => (match h[a]? with
      | some (.dict ((_, .ref b) :: _)) => (h.set b (.dict []), .ok ())
      | _ => (h, .ok ()))
    | .atom _ => (h, .ok ()) }

example : (match configureH exTouch (.ref 0) false ApiH.init
      [.dict [(kAdvanced, .ref 1)], .dict [(.str c!"video_codec", .ref 2)], .dict [(.str c!"callable", .atom (.str c!"f"))]] with
    | (_, h, .ok _) => (match h[2]? with
      | some (HObj.dict kvs) => kvs.isEmpty
      | _ => false)
    | _ => false) = true := by decide +kernel

/-! ## Shared lists inside one argument (C62) -/

/-- A configuration in which two options are the same list object (a YAML anchor), merged with a second configuration that
adds to one of them. -/
def exShared : Heap := [.dict [(.str c!"expected_title", .ref 1), (.str c!"expected_group", .ref 1)], .list [.atom (.str c!"a")],
  .dict [(.str c!"expected_title", .ref 3)], .list [.atom (.str c!"b")]]

/-- The list of an option of the merged result. -/
def listOf (r : Heap × Except PyErr HVal) (k : Key) : List Str := match r with
  | (h, .ok (.ref m)) => (match h[m]? with
    | some (.dict kvs) => (match List.lookup k kvs with
      | some (.ref l) => (match h[l]? with
        | some (.list vs) => vs.filterMap fun v => match v with
          | .atom (.str s) => some s
          | _ => none
        | _ => [])
      | _ => [])
    | _ => [])
  | _ => []

/-- **C62** fails: `deepcopy` keeps the sharing, so adding to `expected_title` also adds to `expected_group`, which the second
configuration does not mention. -/
theorem C62_counterexample_shared :
    listOf (mergeOptionsH exEq 30 [.ref 0, .ref 2] exShared) (.str c!"expected_title") = [c!"a", c!"b"] ∧
    listOf (mergeOptionsH exEq 30 [.ref 0, .ref 2] exShared) (.str c!"expected_group") = [c!"a", c!"b"] := by
  decide +kernel

end Guessit
