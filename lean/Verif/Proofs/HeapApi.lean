import Verif.Proofs.Heap

/-! # Which objects the API calls touch -/

namespace Guessit

open Spec

variable {R : Type}

theorem GoodH.closed {n : Nat} {h : Heap} (g : GoodH n h) : Closed h :=
  fun a o ho v hv b e => by subst e; exact (g.2 a o ho b hv).1

theorem good_self {h : Heap} (hc : Closed h) : GoodH h.length h :=
  ⟨Nat.le_refl _, fun a o ho b hb => ⟨hc a o ho _ hb b rfl, fun ha => by
    rw [List.getElem?_eq_none ha] at ho; cases ho⟩⟩

theorem Builds.ok {α : Type} {n : Nat} {h : Heap} {x : HM α} {out : α → List HVal} (hb : Builds x out) :
    Ok n h x (fun L r => ∀ v ∈ out r, Val n L v) := by
  intro g
  obtain ⟨new, e, h1, h2⟩ := hb h g.closed
  refine ⟨by rw [e]; simp, fun a ha => ?_, ⟨?_, ?_⟩, ?_⟩
  · rw [e]; exact List.getElem?_append_left (Nat.lt_of_lt_of_le ha g.1)
  · have := g.1; rw [e]; simp; omega
  · intro a o ho b hb
    have hlen : (x h).1.length = h.length + new.length := by rw [e]; simp
    rw [e, List.getElem?_append] at ho
    split at ho
    · have := g.2 a o ho b hb
      exact ⟨by omega, this.2⟩
    · have := h1 o (List.mem_of_getElem? ho) b hb
      have := g.1
      exact ⟨by omega, fun _ => by omega⟩
  · intro r er v hv b hb
    subst hb
    have := h2 r er b hv
    have := g.1
    omega

theorem Reach.bound {n : Nat} {h : Heap} (g : GoodH n h) {v : HVal} {a : Nat} (hr : Reach h v a) :
    Val n h.length v → n ≤ a ∧ a < h.length := by
  induction hr with
  | here a => intro hv; exact hv a rfl
  | step ho hv _ ih => intro hu; exact ih (((g.loaded ho) _ hv).2 (hu _ rfl).1)

theorem Touches.ok {α : Type} {n : Nat} {h : Heap} {arg : HVal} {x : HM α} (ht : Touches arg x) (hv : Val n h.length arg) :
    Ok n h x (fun _ _ => True) := by
  intro g
  obtain ⟨h1, h2, h3⟩ := ht h g.closed fun a e => (hv a e).2
  have hn := g.1
  refine ⟨h1, fun a ha => h2 a (by omega) fun hr => ?_, ⟨by omega, ?_⟩, fun _ _ => trivial⟩
  · have := Reach.bound g hr hv; omega
  · intro a o ho b hb
    by_cases hr : h.length ≤ a ∨ Reach h arg a
    · rcases h3 a o ho hr b hb with hb' | hb'
      · have := Reach.bound g hb' hv
        exact ⟨by omega, fun _ => this.1⟩
      · exact ⟨hb'.2, fun _ => by omega⟩
    · have h4 : a < h.length := by omega
      rw [h2 a h4 fun h => hr (.inr h)] at ho
      have := g.2 a o ho b hb
      exact ⟨by omega, this.2⟩

theorem getH_ok {n : Nat} {h : Heap} {v : HVal} {k : Key} (hv : Val 0 h.length v) :
    Ok n h (getH v k) (fun L w => Val 0 L w ∧ (Val n h.length v → Val n L w)) := by
  refine Ok.good fun g => ?_
  cases v with
  | atom p => exact Ok.same rfl fun w e => by cases e
  | ref a =>
    cases ho : h[a]? with
    | none => exact Ok.same (by simp only [getH, ho]) fun w e => by simp only [getH, ho] at e; cases e
    | some o => cases o with
      | list us => exact Ok.same (by simp only [getH, ho]) fun w e => by simp only [getH, ho] at e; cases e
      | dict kvs =>
        refine Ok.same (by simp only [getH, ho]) fun w e => ?_
        simp only [getH, ho] at e
        injection e with e
        subst e
        cases hl : List.lookup k kvs with
        | none => exact ⟨val_atom _ _ _, fun _ => val_atom _ _ _⟩
        | some w =>
          have := (g.loaded ho) w (List.mem_map_of_mem (f := Prod.snd) (mem_of_lookupH k _ kvs hl))
          exact ⟨this.1, fun hv => this.2 (hv a rfl).1⟩

theorem loadConfigH_ok {S : SysH R} (hS : Outside S) {n : Nat} {h : Heap} {options : HVal} :
    Ok n h (loadConfigH S options) (fun L v => Val n L v) := by
  refine Ok.bind (Builds.ok (hS.read options)) fun h1 cs _ hcs => ?_
  refine Ok.bind (mergeOptionsH_ok n S.eq S.fuel cs h1 (fun o ho => (hcs o ho).weaken (Nat.zero_le _))
    (fun o ho => hcs o (List.mem_of_mem_tail ho))) fun h2 c _ ⟨m, e, hm⟩ => ?_
  subst e
  refine Ok.bind Ok.items fun h3 kvs hl3 hk => ?_
  split
  · exact Ok.pure fun a e => by cases e; exact ⟨hm.1, Nat.lt_of_lt_of_le hm.2 hl3⟩
  · refine Ok.bind (Builds.ok hS.defaults) fun h4 d hl4 hd => ?_
    have hd := hd d (by simp)
    refine Ok.bind (getH_ok (hd.weaken (Nat.zero_le _))) fun h5 adv hl5 hadv => ?_
    refine Ok.bind Ok.items fun h6 kvs hl6 hk => ?_
    refine Ok.bind (Q := fun L _ => m < L) (Ok.write hm.1 (hset_vals _ kvs kAdvanced adv (fun w hw => (hk w hw).2 hm.1)
      ((hadv.2 hd).mono hl6)) (by omega)) fun h7 _ hl7 hq => ?_
    exact Ok.pure fun a e => by cases e; exact ⟨hm.1, hq⟩

theorem sameLoadH_ok {S : SysH R} {n : Nat} {h : Heap} {a b : HVal} (ha : Val 0 h.length a) (hb : Val 0 h.length b) :
    Ok n h (sameLoadH S a b) (fun _ _ => True) := by
  have one : ∀ (k : Key) (h1 : Heap), h.length ≤ h1.length → Ok n h1 (HM.bind (getH a k) fun x => HM.bind (getH b k) fun y =>
      fun h => match S.eq h x y with
    | .error e => (h, .error e)
    | .ok r => (h, .ok r)) (fun _ (_ : Bool) => True) := by
    intro k h1 hl1
    refine Ok.bind (getH_ok (ha.mono hl1)) fun h2 x hl2 _ => ?_
    refine Ok.bind (getH_ok (hb.mono (Nat.le_trans hl1 hl2))) fun h3 y hl3 _ => ?_
    cases he : S.eq h3 x y with
    | error e => exact Ok.same (by simp only [he]) fun _ _ => trivial
    | ok r => exact Ok.same (by simp only [he]) fun _ _ => trivial
  unfold sameLoadH
  refine Ok.bind (one kConfig h (Nat.le_refl _)) fun h1 r1 hl1 _ => ?_
  split
  · refine Ok.bind (one kNoUser h1 hl1) fun h2 r2 hl2 _ => ?_
    split
    · exact one kNoDefault h2 (Nat.le_trans hl1 hl2)
    · exact Ok.pure trivial
  · exact Ok.pure trivial

theorem mem_roots (st : ApiH R) (v : HVal) : v ∈ st.roots ↔
    st.config = some v ∨ st.loadOpts = some v ∨ st.adv = some v ∨ st.built = some v := by
  simp only [ApiH.roots, List.mem_filterMap, List.mem_cons, List.not_mem_nil, or_false, id]
  constructor
  · rintro ⟨a, h, e⟩
    subst e
    rcases h with h | h | h | h <;> simp [← h]
  · rintro (h | h | h | h)
    · exact ⟨_, .inl h.symm, rfl⟩
    · exact ⟨_, .inr (.inl h.symm), rfl⟩
    · exact ⟨_, .inr (.inr (.inl h.symm)), rfl⟩
    · exact ⟨_, .inr (.inr (.inr h.symm)), rfl⟩

/-- A call from `st`, `h`: old objects are as before, and each cached value and the value returned were cached before or are
new. -/
def After (n : Nat) (st : ApiH R) (h : Heap) (x : ApiH R × Heap × Except PyErr HVal) : Prop :=
  h.length ≤ x.2.1.length ∧ (∀ a : Nat, a < n → x.2.1[a]? = h[a]?) ∧ GoodH n x.2.1 ∧
    (∀ v ∈ x.1.roots, v ∈ st.roots ∨ Val n x.2.1.length v) ∧
    ∀ c, x.2.2 = .ok c → c ∈ st.roots ∨ Val n x.2.1.length c

theorem configureH_after {S : SysH R} (hS : Outside S) {n : Nat} {st : ApiH R} {h : Heap} {options : HVal} {force : Bool}
    (g : GoodH n h) (ho : Val n h.length options) (hst : ∀ v ∈ st.roots, Val 0 h.length v) :
    After n st h (configureH S options force st h) := by
  have reload : ∀ h0 : Heap, h.length ≤ h0.length → (∀ a : Nat, a < n → h0[a]? = h[a]?) → GoodH n h0 → After n st h
      (reloadH S options st h0) := by
    intro h0 hl0 ha0 g0
    obtain ⟨k1, k2, k3, k4⟩ := (Ok.bind (loadConfigH_ok hS (n := n) (h := h0) (options := options)) fun h1 v _ hv =>
      fixH_ok n S.fuel v h1 (hv.weaken (Nat.zero_le _))) g0
    unfold reloadH
    rcases e : HM.bind (loadConfigH S options) (fixH S.fuel) h0 with ⟨h1, r⟩
    rw [e] at k1 k2 k3 k4
    cases r with
    | error err => exact ⟨Nat.le_trans hl0 k1, fun a ha => (k2 a ha).trans (ha0 a ha), k3, fun v hv => .inl hv, fun c e => by cases e⟩
    | ok c =>
      refine ⟨Nat.le_trans hl0 k1, fun a ha => (k2 a ha).trans (ha0 a ha), k3, fun v hv => ?_, fun c' e => ?_⟩
      · rw [mem_roots] at hv
        rcases hv with hv | hv | hv | hv
        · exact .inl ((mem_roots st v).2 (.inl hv))
        · injection hv with hv; subst hv; exact .inr (ho.mono (Nat.le_trans hl0 k1))
        · exact .inl ((mem_roots st v).2 (.inr (.inr (.inl hv))))
        · exact .inl ((mem_roots st v).2 (.inr (.inr (.inr hv))))
      · injection e with e; subst e; exact .inr (k4 _ rfl)
  have finish : ∀ (st1 : ApiH R) (h1 : Heap) (config : HVal), After n st h (st1, h1, .ok config) →
      After n st h (rebuildH S options force config st1 h1) := by
    rintro st1 h1 config ⟨c1, c2, c3, c4, c5⟩
    dsimp only at c1 c2 c3 c4 c5
    unfold rebuildH
    have hc := c5 config rfl
    have hc0 : Val 0 h1.length config := by
      rcases hc with hc | hc
      · exact (hst _ hc).mono c1
      · exact hc.weaken (Nat.zero_le _)
    obtain ⟨m1, m2, m3, m4⟩ := (Ok.bind (getH_ok (n := n) (h := h1) (k := kAdvanced) hc0) fun h2 x hl2 hx =>
      Ok.bind (getH_ok (n := n) (h := h2) (k := kAdvanced) ((ho.weaken (Nat.zero_le _)).mono (Nat.le_trans c1 hl2))) fun h3 y hl3 hy =>
      (mergeOptionsH_ok n S.eq S.fuel [x, y] h3 (by
        intro o' ho'
        simp only [List.mem_cons, List.not_mem_nil, or_false] at ho'
        rcases ho' with e | e
        · rw [e]; exact hx.1.mono hl3
        · rw [e]; exact hy.1)
        (by
          intro o' ho'
          simp only [List.tail_cons, List.mem_cons, List.not_mem_nil, or_false] at ho'
          rw [ho']; exact hy.2 (ho.mono (Nat.le_trans c1 hl2))))) c3
    rcases e2 : HM.bind (getH config kAdvanced) (fun x => HM.bind (getH options kAdvanced) fun y => mergeOptionsH S.eq S.fuel [x, y]) h1
      with ⟨h2, r2⟩
    rw [e2] at m1 m2 m3 m4
    dsimp only at m1 m2 m3 m4
    have back : ∀ {L : Nat}, h2.length ≤ L → ∀ v, v ∈ st.roots ∨ Val n h1.length v → v ∈ st.roots ∨ Val n L v := by
      intro L hL v hv
      rcases hv with hv | hv
      · exact .inl hv
      · exact .inr (hv.mono (Nat.le_trans m1 hL))
    cases r2 with
    | error err =>
      exact ⟨Nat.le_trans c1 m1, fun a ha => (m2 a ha).trans (c2 a ha), m3, fun v hv => back (Nat.le_refl _) v (c4 v hv), fun c e => by cases e⟩
    | ok adv =>
      obtain ⟨ad, ead, had⟩ := m4 adv rfl
      have hadv : Val n h2.length adv := fun a e => by rw [ead] at e; cases e; exact had
      dsimp only
      split
      · exact ⟨Nat.le_trans c1 m1, fun a ha => (m2 a ha).trans (c2 a ha), m3, fun v hv => back (Nat.le_refl _) v (c4 v hv), fun c e => by cases e⟩
      · refine ⟨Nat.le_trans c1 m1, fun a ha => (m2 a ha).trans (c2 a ha), m3, fun v hv => back (Nat.le_refl _) v ?_, fun c e => ?_⟩
        · rw [mem_roots] at hv
          rcases hv with hv | hv | hv | hv
          · injection hv with hv; subst hv; exact hc
          · exact c4 v ((mem_roots st1 v).2 (.inr (.inl hv)))
          · exact c4 v ((mem_roots st1 v).2 (.inr (.inr (.inl hv))))
          · exact c4 v ((mem_roots st1 v).2 (.inr (.inr (.inr hv))))
        · injection e with e; subst e; exact back (Nat.le_refl _) _ hc
      · obtain ⟨d1, d2, d3, d4⟩ := deepcopyH_ok n S.fuel [] adv h2 (by intro e he; cases he) (hadv.weaken (Nat.zero_le _)) m3
        rcases e3 : deepcopyH S.fuel [] adv h2 with ⟨h3, r3⟩
        rw [e3] at d1 d2 d3 d4
        dsimp only at d1 d2 d3 d4
        have ag : ∀ a : Nat, a < n → h3[a]? = h[a]? := fun a ha => (d2 a ha).trans ((m2 a ha).trans (c2 a ha))
        cases r3 with
        | error err => exact ⟨Nat.le_trans c1 (Nat.le_trans m1 d1), ag, d3, fun v hv => back d1 v (c4 v hv), fun c e => by cases e⟩
        | ok copy =>
          have hcopy := (d4 copy rfl).2
          obtain ⟨b1, b2, b3, _⟩ := Touches.ok (hS.build adv) (hadv.mono d1) d3
          dsimp only
          rcases e4 : S.build adv h3 with ⟨h4, r4⟩
          rw [e4] at b1 b2 b3
          dsimp only at b1 b2 b3
          have ag4 : ∀ a : Nat, a < n → h4[a]? = h[a]? := fun a ha => (b2 a ha).trans (ag a ha)
          have ln : h2.length ≤ h4.length := Nat.le_trans d1 b1
          cases r4 with
          | error err =>
            refine ⟨Nat.le_trans c1 (Nat.le_trans m1 ln), ag4, b3, fun v hv => ?_, fun c e => by cases e⟩
            rw [mem_roots] at hv
            rcases hv with hv | hv | hv | hv
            · exact back ln v (c4 v ((mem_roots st1 v).2 (.inl hv)))
            · exact back ln v (c4 v ((mem_roots st1 v).2 (.inr (.inl hv))))
            · injection hv with hv; subst hv; exact .inr (hcopy.mono b1)
            · exact back ln v (c4 v ((mem_roots st1 v).2 (.inr (.inr (.inr hv)))))
          | ok r =>
            refine ⟨Nat.le_trans c1 (Nat.le_trans m1 ln), ag4, b3, fun v hv => ?_, fun c e => ?_⟩
            · rw [mem_roots] at hv
              rcases hv with hv | hv | hv | hv
              · injection hv with hv; subst hv; exact back ln _ hc
              · exact back ln v (c4 v ((mem_roots st1 v).2 (.inr (.inl hv))))
              · injection hv with hv; subst hv; exact .inr (hcopy.mono b1)
              · injection hv with hv; subst hv; exact .inr (hadv.mono ln)
            · injection e with e; subst e; exact back ln _ hc
  have choose : After n st h (chooseH S options force st h) := by
    unfold chooseH
    split
    · rename_i c lo ec el
      split
      · exact reload h (Nat.le_refl _) (fun _ _ => rfl) g
      · have hlo : Val 0 h.length lo := hst lo ((mem_roots st lo).2 (.inr (.inl el)))
        obtain ⟨s1, s2, s3, _⟩ := sameLoadH_ok (S := S) hlo (ho.weaken (Nat.zero_le _)) g
        rcases es : sameLoadH S lo options h with ⟨h1, r1⟩
        rw [es] at s1 s2 s3
        dsimp only at s1 s2 s3
        cases r1 with
        | error err => exact ⟨s1, s2, s3, fun v hv => .inl hv, fun c e => by cases e⟩
        | ok b => cases b with
          | true =>
            exact ⟨s1, s2, s3, fun v hv => .inl hv, fun c' e => by
              injection e with e; subst e; exact .inl ((mem_roots st _).2 (.inl ec))⟩
          | false => exact reload h1 s1 s2 s3
    · exact reload h (Nat.le_refl _) (fun _ _ => rfl) g
  unfold configureH
  rcases e : chooseH S options force st h with ⟨st1, h1, r1⟩
  rw [e] at choose
  cases r1 with
  | error err => exact choose
  | ok config => exact finish st1 h1 config choose

end Guessit
