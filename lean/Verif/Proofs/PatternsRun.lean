import Verif.Proofs.Patterns

/-!
# The calls of the pattern loader against the specification
-/

namespace Guessit

open Spec

/-- In a fresh process the computation returns `a` after making the calls `cs`. -/
def Gives {α : Type} (x : LM α) (a : α) (cs : List PCall) : Prop :=
  (x .fresh).2 = .ok a ∧ (x .fresh).1.calls = cs

theorem gives_pure {α : Type} {a b : α} {cs : List PCall} : Gives (LM.pure a) b cs ↔ b = a ∧ cs = [] := by
  unfold Gives LM.pure LState.fresh
  simp only [Except.ok.injEq]
  exact ⟨fun h => ⟨h.1.symm, h.2.symm⟩, fun h => ⟨h.1.symm, h.2.symm⟩⟩

theorem gives_raise {α : Type} {e : PyErr} {b : α} {cs : List PCall} : Gives (LM.raise e) b cs ↔ False := by
  unfold Gives LM.raise
  simp

theorem gives_lift {α : Type} {x : Except PyErr α} {b : α} {cs : List PCall} : Gives (LM.lift x) b cs ↔ x = .ok b ∧ cs = [] := by
  unfold Gives LM.lift LState.fresh
  exact ⟨fun h => ⟨h.1, h.2.symm⟩, fun h => ⟨h.1, h.2.symm⟩⟩

theorem gives_call {c : PCall} {b : Unit} {cs : List PCall} : Gives (LM.call c) b cs ↔ cs = [c] := by
  unfold Gives LM.call LState.fresh
  simp [eq_comm]

theorem gives_bind {W : World} {α β : Type} {x : LM α} {f : α → LM β} (hx : Steady W x) (hf : ∀ a, Steady W (f a))
    {b : β} {cs : List PCall} :
    Gives (LM.bind x f) b cs ↔ ∃ (a : α) (c1 c2 : List PCall), Gives x a c1 ∧ Gives (f a) b c2 ∧ cs = c1 ++ c2 := by
  obtain ⟨_, _, h6⟩ := hx .fresh (cacheOk_nil W)
  unfold Gives LM.bind
  rcases ef : x .fresh with ⟨s0, r0⟩
  rw [ef] at h6
  simp only at h6
  cases r0 with
  | error e => simp
  | ok a =>
    obtain ⟨k1, k2, _⟩ := hf a s0 h6
    simp only [k1, k2, Except.ok.injEq]
    constructor
    · rintro ⟨h1, h2⟩
      exact ⟨a, s0.calls, (f a .fresh).1.calls, ⟨rfl, rfl⟩, ⟨h1, rfl⟩, h2.symm⟩
    · rintro ⟨a', c1, c2, ⟨rfl, rfl⟩, ⟨h1, rfl⟩, h2⟩
      exact ⟨h1, h2.symm⟩

theorem gives_steady {W : World} {α : Type} {x : LM α} (hx : Steady W x) {s : LState} (hs : CacheOk W s.cache) {a : α} :
    (x s).2 = .ok a → Gives x a (x .fresh).1.calls ∧ (x s).1.calls = s.calls ++ (x .fresh).1.calls := by
  intro h
  obtain ⟨h1, h2, _⟩ := hx s hs
  exact ⟨⟨by rw [← h1, h], rfl⟩, h2⟩

/-! ## Options -/

theorem gives_import {W : World} (hW : PlainNames W) {v : Str} {d : Option Str} {o : PyVal} {cs : List PCall} :
    Gives (importRef W v d) o cs ↔ Refers W d v o ∧ cs = [] := by
  obtain ⟨g1, g2, _⟩ := importRef_spec hW v d .fresh (cacheOk_nil W)
  unfold Gives
  rw [g1, g2, refers_iff]
  unfold directRef
  constructor
  · rintro ⟨h1, rfl⟩
    refine ⟨?_, rfl⟩
    cases e : refParts v d with
    | error err => rw [e] at h1; cases h1
    | ok p => rw [e] at h1; exact ⟨p.1, p.2, rfl, h1⟩
  · rintro ⟨⟨m, t, h1, h2⟩, rfl⟩
    rw [h1]
    exact ⟨h2, rfl⟩

theorem patPrefix_iff {p v : Str} : p.isPrefixOf v = true ↔ ∃ r, v = p ++ r := by
  rw [List.isPrefixOf_iff_prefix]
  exact ⟨fun ⟨r, h⟩ => ⟨r, h.symm⟩, fun ⟨r, h⟩ => ⟨r, h.symm⟩⟩

theorem gives_exec {W : World} (hW : PlainNames W) {d : Option Str} {v : Str} {o : PyVal} {cs : List PCall} :
    Gives (processExec W d (.str v)) o cs ↔ StandsFor W d v o ∧ cs = [] := by
  rw [processExec]
  cases e1 : afterPrefix c!"import:" v with
  | some r =>
    have hv := afterPrefix_iff.1 e1
    simp only
    rw [gives_import hW]
    subst hv
    constructor
    · rintro ⟨h, rfl⟩; exact ⟨.reference h, rfl⟩
    · rintro ⟨h, rfl⟩
      refine ⟨?_, rfl⟩
      generalize hx : c!"import:" ++ r = x at h
      cases h with
      | reference h => rw [List.append_cancel_left hx]; exact h
      | expression h => simp at hx
      | function h _ => rcases h with h | h <;> (rw [h] at hx; simp at hx)
      | plain h => exact absurd hx.symm (h _ (by simp) r)
  | none =>
    have n1 := afterPrefix_none.1 e1
    simp only
    cases e2 : afterPrefix c!"eval:" v with
    | some r =>
      have hv := afterPrefix_iff.1 e2
      simp only
      rw [gives_lift]
      subst hv
      constructor
      · rintro ⟨h, rfl⟩; exact ⟨.expression h, rfl⟩
      · rintro ⟨h, rfl⟩
        refine ⟨?_, rfl⟩
        generalize hx : c!"eval:" ++ r = x at h
        cases h with
        | reference h => simp at hx
        | expression h => rw [List.append_cancel_left hx]; exact h
        | function h _ => rcases h with h | h <;> (rw [h] at hx; simp at hx)
        | plain h => exact absurd hx.symm (h _ (by simp) r)
    | none =>
      have n2 := afterPrefix_none.1 e2
      simp only
      split
      · rename_i hl
        simp only [Bool.or_eq_true, patPrefix_iff] at hl
        rw [gives_lift]
        constructor
        · rintro ⟨h, rfl⟩
          rcases hl with ⟨r, hr⟩ | ⟨r, hr⟩
          · exact ⟨.function (.inl hr) h, rfl⟩
          · exact ⟨.function (.inr hr) h, rfl⟩
        · rintro ⟨h, rfl⟩
          refine ⟨?_, rfl⟩
          cases h with
          | reference h => exact absurd rfl (n1 _)
          | expression h => exact absurd rfl (n2 _)
          | function _ h => exact h
          | plain h =>
            rcases hl with ⟨r, hr⟩ | ⟨r, hr⟩
            · exact absurd hr (h _ (by simp) r)
            · exact absurd hr (h _ (by simp) r)
      · rename_i hl
        simp only [Bool.or_eq_true, patPrefix_iff, not_or, not_exists] at hl
        rw [gives_pure]
        constructor
        · rintro ⟨rfl, rfl⟩
          refine ⟨.plain ?_, rfl⟩
          intro p hp
          simp only [List.mem_cons, List.not_mem_nil, or_false] at hp
          rcases hp with rfl | rfl | rfl | rfl
          · exact n1
          · exact n2
          · exact hl.1
          · exact hl.2
        · rintro ⟨h, rfl⟩
          refine ⟨?_, rfl⟩
          cases h with
          | reference h => exact absurd rfl (n1 _)
          | expression h => exact absurd rfl (n2 _)
          | function h _ =>
            rcases h with h | h
            · exact absurd h (hl.1 _)
            · exact absurd h (hl.2 _)
          | plain h => rfl

mutual
theorem gives_code {W : World} (hW : PlainNames W) {d : Option Str} : ∀ {v o : PyVal} {cs : List PCall},
    Gives (processCode W d v) o cs ↔ Code W d v o ∧ cs = []
  | .dict kvs, o, cs => by
    rw [processCode, gives_bind (steady_items hW d kvs) (fun _ => steady_pure _)]
    constructor
    · rintro ⟨r, c1, c2, h1, h2, rfl⟩
      obtain ⟨h3, rfl⟩ := (gives_items hW).1 h1
      obtain ⟨rfl, rfl⟩ := gives_pure.1 h2
      exact ⟨.table h3, rfl⟩
    · rintro ⟨h, rfl⟩
      cases h with
      | table h => exact ⟨_, [], [], (gives_items hW).2 ⟨h, rfl⟩, gives_pure.2 ⟨rfl, rfl⟩, rfl⟩
  | .none, o, cs => by
    rw [processCode, gives_pure]
    constructor
    · rintro ⟨rfl, rfl⟩; exact ⟨.absent, rfl⟩
    · rintro ⟨h, rfl⟩; cases h; exact ⟨rfl, rfl⟩
  | .str v, o, cs => by
    rw [processCode, gives_exec hW]
    · constructor
      · rintro ⟨h, rfl⟩; exact ⟨.one h, rfl⟩
      · rintro ⟨h, rfl⟩; cases h with
        | one h => exact ⟨h, rfl⟩
    all_goals simp
  | .bool b, o, cs => by
    rw [processCode, processExec, gives_raise]
    · simp only [false_iff]; rintro ⟨h, _⟩; cases h
    all_goals simp
  | .int b, o, cs => by
    rw [processCode, processExec, gives_raise]
    · simp only [false_iff]; rintro ⟨h, _⟩; cases h
    all_goals simp
  | .bytes b, o, cs => by
    rw [processCode, processExec, gives_raise]
    · simp only [false_iff]; rintro ⟨h, _⟩; cases h
    all_goals simp
  | .other b, o, cs => by
    rw [processCode, processExec, gives_raise]
    · simp only [false_iff]; rintro ⟨h, _⟩; cases h
    all_goals simp
  | .list b, o, cs => by
    rw [processCode, processExec, gives_raise]
    · simp only [false_iff]; rintro ⟨h, _⟩; cases h
    all_goals simp
theorem gives_items {W : World} (hW : PlainNames W) {d : Option Str} : ∀ {kvs : List (Key × PyVal)} {r : Dict} {cs : List PCall},
    Gives (processItems W d kvs) r cs ↔ CodeTable W d kvs r ∧ cs = []
  | [], r, cs => by
    rw [processItems, gives_pure]
    constructor
    · rintro ⟨rfl, rfl⟩; exact ⟨.nil, rfl⟩
    · rintro ⟨h, rfl⟩; cases h; exact ⟨rfl, rfl⟩
  | e :: rest, r, cs => by
    rw [processItems, gives_bind (steady_item hW d e) (fun _ => steady_bind (steady_items hW d rest) fun _ => steady_pure _)]
    constructor
    · rintro ⟨p, c1, c2, h1, h2, rfl⟩
      obtain ⟨q1, q2, rfl⟩ := (gives_item hW).1 h1
      rw [gives_bind (steady_items hW d rest) (fun _ => steady_pure _)] at h2
      obtain ⟨r', c3, c4, h3, h4, rfl⟩ := h2
      obtain ⟨h5, rfl⟩ := (gives_items hW).1 h3
      obtain ⟨rfl, rfl⟩ := gives_pure.1 h4
      obtain ⟨k, w⟩ := p
      obtain ⟨k', v⟩ := e
      simp only at q1 q2
      subst q1
      exact ⟨.cons q2 h5, rfl⟩
    · rintro ⟨h, rfl⟩
      cases h with
      | @cons k v w _ r' h1 h2 =>
        refine ⟨(k, w), [], [], (gives_item hW).2 ⟨rfl, h1, rfl⟩, ?_, rfl⟩
        rw [gives_bind (steady_items hW d rest) (fun _ => steady_pure _)]
        exact ⟨r', [], [], (gives_items hW).2 ⟨h2, rfl⟩, gives_pure.2 ⟨rfl, rfl⟩, rfl⟩
theorem gives_item {W : World} (hW : PlainNames W) {d : Option Str} : ∀ {e p : Key × PyVal} {cs : List PCall},
    Gives (processItem W d e) p cs ↔ p.1 = e.1 ∧ Code W d e.2 p.2 ∧ cs = []
  | (k, v), p, cs => by
    rw [processItem, gives_bind (steady_code hW d v) (fun _ => steady_pure _)]
    constructor
    · rintro ⟨w, c1, c2, h1, h2, rfl⟩
      obtain ⟨h3, rfl⟩ := (gives_code hW).1 h1
      obtain ⟨rfl, rfl⟩ := gives_pure.1 h2
      exact ⟨rfl, h3, rfl⟩
    · rintro ⟨h1, h2, rfl⟩
      refine ⟨p.2, [], [], (gives_code hW).2 ⟨h2, rfl⟩, gives_pure.2 ⟨Prod.ext h1 rfl, rfl⟩, rfl⟩
end

theorem holdsCode_iff {k : Key} : execOption k = true ↔ HoldsCode k := by
  unfold execOption HoldsCode
  simp [or_assoc]

theorem gives_option {W : World} (hW : PlainNames W) {k : Key} {v w : PyVal} {cs : List PCall} :
    Gives (processOption W k v) w cs ↔ Becomes W k v w ∧ cs = [] := by
  unfold processOption Becomes
  have hh : defaultModule k = Home k := rfl
  split
  · rename_i h
    rw [gives_code hW, hh]
    simp only [holdsCode_iff.1 h, true_imp_iff, not_true_eq_false, false_imp_iff, and_true]
  · rename_i h
    rw [gives_pure]
    have : ¬ HoldsCode k := fun h' => h (holdsCode_iff.2 h')
    simp only [this, false_imp_iff, not_false_eq_true, true_imp_iff, true_and]

theorem gives_options {W : World} (hW : PlainNames W) : ∀ {d r : Dict} {cs : List PCall},
    Gives (processOptions W d) r cs ↔ List.Forall₂ (fun a b => b.1 = a.1 ∧ Becomes W a.1 a.2 b.2) d r ∧ cs = []
  | [], r, cs => by
    rw [processOptions, gives_pure]
    constructor
    · rintro ⟨rfl, rfl⟩; exact ⟨.nil, rfl⟩
    · rintro ⟨h, rfl⟩; cases h; exact ⟨rfl, rfl⟩
  | (k, v) :: rest, r, cs => by
    rw [processOptions, gives_bind (steady_option hW k v) (fun _ => steady_bind (steady_options hW rest) fun _ => steady_pure _)]
    constructor
    · rintro ⟨w, c1, c2, h1, h2, rfl⟩
      obtain ⟨q1, rfl⟩ := (gives_option hW).1 h1
      rw [gives_bind (steady_options hW rest) (fun _ => steady_pure _)] at h2
      obtain ⟨r', c3, c4, h3, h4, rfl⟩ := h2
      obtain ⟨h5, rfl⟩ := (gives_options hW).1 h3
      obtain ⟨rfl, rfl⟩ := gives_pure.1 h4
      exact ⟨.cons ⟨rfl, q1⟩ h5, rfl⟩
    · rintro ⟨h, rfl⟩
      cases h with
      | @cons _ b _ l h1 h2 =>
        refine ⟨b.2, [], [], (gives_option hW).2 ⟨h1.2, rfl⟩, ?_, rfl⟩
        rw [gives_bind (steady_options hW rest) (fun _ => steady_pure _)]
        refine ⟨l, [], [], (gives_options hW).2 ⟨h2, rfl⟩, gives_pure.2 ⟨?_, rfl⟩, rfl⟩
        have : b = (k, b.2) := Prod.ext h1.1 rfl
        rw [← this]

/-! ## Tables -/

theorem get?_updateDict : ∀ {e d : Dict}, e.WF → ∀ n, (updateDict d e).get? n = (Dict.get? e n <|> d.get? n)
  | [], d, _, n => by simp [updateDict]
  | (k, v) :: rest, d, h, n => by
    have hn : k ∉ rest.map Prod.fst ∧ (rest.map Prod.fst).Nodup := by
      unfold Dict.WF at h
      rw [List.map_cons, List.nodup_cons] at h
      exact h
    have ih := get?_updateDict (e := rest) (d := d.set k v) hn.2 n
    have hs : updateDict d ((k, v) :: rest) = updateDict (d.set k v) rest := rfl
    rw [hs, ih, Dict.get?_set, Dict.get?_cons]
    by_cases hk : k = n
    · subst hk
      rw [Dict.get?_none_iff.2 hn.1]
      simp
    · have hk' : ¬ n = k := fun h => hk h.symm
      simp only [hk, hk', if_false]

theorem updateDict_wf : ∀ {e d : Dict}, d.WF → (updateDict d e).WF
  | [], d, h => h
  | (k, v) :: rest, d, h => by
    have hs : updateDict d ((k, v) :: rest) = updateDict (d.set k v) rest := rfl
    rw [hs]
    exact updateDict_wf (Dict.set_wf h k v)

theorem forall_get {W : World} : ∀ {d r : Dict}, List.Forall₂ (fun a b => b.1 = a.1 ∧ Becomes W a.1 a.2 b.2) d r → ∀ n,
    (Dict.get? r n = none ↔ Dict.get? d n = none) ∧
    (∀ v w, Dict.get? d n = some v → Dict.get? r n = some w → Becomes W n v w)
  | _, _, .nil, n => ⟨Iff.rfl, fun v w h => by cases h⟩
  | _, _, .cons (a := a) (b := b) (l₁ := l₁) (l₂ := l₂) h t, n => by
    obtain ⟨ka, va⟩ := a
    obtain ⟨kb, vb⟩ := b
    obtain ⟨h1, h2⟩ := h
    simp only at h1 h2
    subst h1
    rw [Dict.get?_cons, Dict.get?_cons]
    by_cases hk : kb = n
    · subst hk
      simp only [if_true]
      refine ⟨by simp, ?_⟩
      intro v w hv hw
      cases hv; cases hw
      exact h2
    · have hk' : ¬ n = kb := fun h => hk h.symm
      simp only [hk, hk', if_false]
      exact forall_get t n

theorem textKeys_iff {d : Dict} : textKeys d = true ↔ ∀ e ∈ d, ∃ s, e.1 = .str s := by
  unfold textKeys
  rw [List.all_eq_true]
  constructor
  · intro h e he
    have := h e he
    split at this
    · rename_i s hs; exact ⟨s, hs⟩
    · cases this
  · intro h e he
    obtain ⟨s, hs⟩ := h e he
    rw [hs]

theorem options_are {W : World} {d r : Dict} (h : List.Forall₂ (fun a b => b.1 = a.1 ∧ Becomes W a.1 a.2 b.2) d r)
    (ht : textKeys r = true) : OptionsAre W (Dict.get? d) r := by
  intro n
  obtain ⟨h1, h2⟩ := forall_get h n
  refine ⟨h1, h2, ?_⟩
  intro hn
  have hr : Dict.get? r n ≠ none := fun h => hn (h1.1 h)
  obtain ⟨v, hv⟩ := Option.ne_none_iff_exists'.1 hr
  obtain ⟨s, hs⟩ := textKeys_iff.1 ht _ (Dict.mem_of_get? hv)
  exact ⟨s, hs⟩

theorem options_exist {W : World} {d opts : Dict} (hd : d.WF) (h : OptionsAre W (Dict.get? d) opts) :
    ∃ r : Dict, List.Forall₂ (fun a b => b.1 = a.1 ∧ Becomes W a.1 a.2 b.2) d r ∧ textKeys r = true := by
  have key : ∀ e ∈ d, (∃ w, Becomes W e.1 e.2 w) ∧ ∃ s, e.1 = .str s := by
    intro e he
    have hg := Dict.get?_of_mem hd (k := e.1) (v := e.2) he
    obtain ⟨h1, h2, h3⟩ := h e.1
    refine ⟨?_, h3 (by rw [hg]; simp)⟩
    have : Dict.get? opts e.1 ≠ none := fun h => by rw [h1.1 h] at hg; cases hg
    obtain ⟨w, hw⟩ := Option.ne_none_iff_exists'.1 this
    exact ⟨w, h2 _ _ hg hw⟩
  clear h hd
  induction d with
  | nil => exact ⟨[], .nil, rfl⟩
  | cons e rest ih =>
    obtain ⟨⟨w, hw⟩, s, hs⟩ := key e (List.mem_cons_self ..)
    obtain ⟨r, h1, h2⟩ := ih (fun e he => key e (List.mem_cons_of_mem _ he))
    refine ⟨(e.1, w) :: r, .cons ⟨rfl, hw⟩ h1, ?_⟩
    rw [textKeys_iff] at h2 ⊢
    intro x hx
    rcases List.mem_cons.1 hx with rfl | hx
    · exact ⟨s, hs⟩
    · exact h2 x hx

theorem optionsAre_congr {W : World} {f g : Key → Option PyVal} (h : ∀ n, f n = g n) {opts : Dict} :
    OptionsAre W f opts ↔ OptionsAre W g opts := by
  have : f = g := funext h
  rw [this]

/-! ## Declarations of an entry -/

theorem gives_patterns {W : World} (hW : PlainNames W) {kind : PatKind} {ps : List PyVal} {o : LoadOptions} {u : Unit} {cs : List PCall} :
    Gives (loadPatterns W kind ps o) u cs ↔ ∃ r : Dict,
      List.Forall₂ (fun a b => b.1 = a.1 ∧ Becomes W a.1 a.2 b.2) (updateDict (o.common.getD []) ((o.forKind kind).getD [])) r ∧
      textKeys r = true ∧ cs = [.declare kind ps r] := by
  unfold loadPatterns
  rw [gives_bind (W := W) (steady_options hW _) (by intro r; split; exact steady_call _; exact steady_raise _)]
  constructor
  · rintro ⟨r, c1, c2, h1, h2, rfl⟩
    obtain ⟨h3, rfl⟩ := (gives_options hW).1 h1
    split at h2
    · rename_i ht
      rw [gives_call] at h2
      subst h2
      exact ⟨r, h3, ht, rfl⟩
    · exact (gives_raise.1 h2).elim
  · rintro ⟨r, h1, h2, rfl⟩
    refine ⟨r, [], _, (gives_options hW).2 ⟨h1, rfl⟩, ?_, rfl⟩
    rw [if_pos h2, gives_call]

theorem textOf_prefix (kind : PatKind) (r : Str) : docText kind (some (c!"re:" ++ r)) = if kind = .regex then some r else none := rfl

theorem textOf_plain (kind : PatKind) {s : Str} (h : ∀ r, s ≠ c!"re:" ++ r) :
    docText kind (some s) = if kind = .string then some s else none := by
  unfold docText
  split
  · rename_i e; cases e
  · rename_i e; cases e; exact absurd rfl (h _)
  · rename_i e; cases e; rfl

theorem get?_withText (d : Dict) (s : Str) (kind : PatKind) :
    (withText d s).get? kind.key = ((docText kind (some s)).map (fun s => PyVal.list [.str s]) <|> d.get? kind.key) := by
  unfold withText
  cases e : afterPrefix c!"re:" s with
  | some r =>
    have := afterPrefix_iff.1 e
    subst this
    simp only
    rw [textOf_prefix, Dict.get?_set]
    cases kind
    · simp
    · simp [PatKind.key]
  | none =>
    simp only
    rw [textOf_plain kind (afterPrefix_none.1 e), Dict.get?_set]
    cases kind
    · simp [PatKind.key]
    · simp

theorem get?_withText_other (d : Dict) (s : Str) {n : Key} (h1 : n ≠ .str c!"regex") (h2 : n ≠ .str c!"string") :
    (withText d s).get? n = d.get? n := by
  unfold withText
  split
  · rw [Dict.get?_set]; exact if_neg h1
  · rw [Dict.get?_set]; exact if_neg h2

theorem withText_wf {d : Dict} (h : d.WF) (s : Str) : (withText d s).WF := by
  unfold withText
  split <;> exact Dict.set_wf h _ _

theorem baseDecl_spec {o : LoadOptions} {key : Key} {d : Dict} (h : baseDecl o key = .ok d) :
    (∃ s, key = .str s) ∧ ∀ n, d.get? n = ((if n = .str c!"value" then named key else none) <|> o.common.bind (Dict.get? · n)) := by
  cases key with
  | bytes b => cases h
  | str v =>
    refine ⟨⟨v, rfl⟩, ?_⟩
    intro n
    simp only [baseDecl, Except.ok.injEq] at h
    have hc : Dict.get? (o.common.getD []) n = o.common.bind (Dict.get? · n) := by cases o.common <;> rfl
    by_cases hp : (c!"_").isPrefixOf v = true
    · rw [if_pos hp] at h
      subst h
      obtain ⟨r, rfl⟩ := patPrefix_iff.1 hp
      rw [hc]
      show _ = ((if n = .str c!"value" then none else none) <|> _)
      simp
    · rw [if_neg hp] at h
      subst h
      have hn : named (.str v) = some (.str v) := by
        unfold named
        split
        · rename_i e; cases e; exact absurd rfl hp
        · rename_i e; cases e; rfl
        · rename_i e; cases e
      rw [Dict.get?_set, hn, hc]
      unfold kValue
      by_cases hv : n = .str c!"value"
      · simp [hv]
      · simp [hv]

theorem baseDecl_wf {o : LoadOptions} (ho : ∀ d, o.common = some d → d.WF) {key : Key} {d : Dict} (h : baseDecl o key = .ok d) :
    d.WF := by
  have hw : Dict.WF (o.common.getD []) := by
    cases e : o.common with
    | none => simp [Dict.WF]
    | some c => exact ho _ e
  cases key with
  | bytes b => cases h
  | str v =>
    simp only [baseDecl, Except.ok.injEq] at h
    split at h
    · subst h; exact hw
    · subst h; exact Dict.set_wf hw _ _

theorem baseDecl_ok (o : LoadOptions) (s : Str) : ∃ d, baseDecl o (.str s) = .ok d := ⟨_, rfl⟩

/-- The declaration built for an entry. -/
def DeclOf (o : LoadOptions) (key : Key) (e : Dict) (text : Option Str) (decl : Dict) : Prop :=
  decl.WF ∧ (∀ kind : PatKind, decl.get? kind.key = listed o kind e text) ∧
  ∀ n, n ≠ .str c!"regex" → n ≠ .str c!"string" → decl.get? n =
    (Dict.get? e n <|> (if n = .str c!"value" then named key else none) <|> o.common.bind (Dict.get? · n))

theorem base_kind {o : LoadOptions} {key : Key} {d : Dict} (h : baseDecl o key = .ok d) (kind : PatKind) :
    d.get? kind.key = o.common.bind (Dict.get? · kind.key) := by
  rw [(baseDecl_spec h).2]
  cases kind <;> simp [PatKind.key]

theorem base_pattern {o : LoadOptions} {key : Key} {d : Dict} (h : baseDecl o key = .ok d) :
    d.get? kPattern = o.common.bind (Dict.get? · (.str c!"pattern")) := by
  rw [(baseDecl_spec h).2]
  simp [kPattern]

theorem buildDecl_sound {o : LoadOptions} (ho : ∀ d, o.common = some d → d.WF) {key : Key} {entry : PyVal}
    (hw : ∀ e, entry = .dict e → Dict.WF e) {decl : Dict} {e' : PyVal} (h : buildDecl o key entry = .ok (decl, e')) :
    (∃ s, key = .str s) ∧ ∃ (e : Dict) (text : Option Str), Reads o entry e text ∧ DeclOf o key e text decl := by
  unfold buildDecl at h
  cases eb : baseDecl o key with
  | error err => rw [eb] at h; cases h
  | ok d =>
    rw [eb] at h
    simp only at h
    have hb := baseDecl_spec eb
    have hwf := baseDecl_wf ho eb
    have hp := base_pattern eb
    refine ⟨hb.1, ?_⟩
    split at h
    · rename_i s
      split at h
      · rename_i hn
        cases h
        have hcp : o.common.bind (Dict.get? · (.str c!"pattern")) = none := by
          rw [← hp, ← hn, get?_withText_other] <;> simp [kPattern]
        refine ⟨[], some s, .text hcp, withText_wf hwf s, ?_, ?_⟩
        · intro kind
          rw [get?_withText, base_kind eb]
          simp [listed]
        · intro n h1 h2
          rw [get?_withText_other _ _ h1 h2, hb.2]
          simp
      · cases h
    · rename_i e
      have he := hw e rfl
      unfold dictDecl at h
      cases eu : (updateDict d e).get? kPattern with
      | none =>
        rw [eu] at h
        cases h
        rw [get?_updateDict he] at eu
        have h1 : Dict.get? e kPattern = none := by
          cases hx : Dict.get? e kPattern with
          | none => rfl
          | some x => rw [hx] at eu; simp at eu
        rw [h1, hp] at eu
        refine ⟨e, none, .table h1 (by simpa using eu), updateDict_wf hwf, ?_, ?_⟩
        · intro kind
          rw [get?_updateDict he, base_kind eb]
          simp [listed, docText]
        · intro n _ _
          rw [get?_updateDict he, hb.2]
      | some x =>
        rw [eu] at h
        simp only at h
        split at h
        · cases h
        · rename_i p hpat
          cases h
          refine ⟨e, some p, .older hpat, withText_wf (updateDict_wf hwf) p, ?_, ?_⟩
          · intro kind
            rw [get?_withText, get?_updateDict he, base_kind eb]
            rfl
          · intro n h1 h2
            rw [get?_withText_other _ _ h1 h2, get?_updateDict he, hb.2]
        · cases h
    · split at h
      · rename_i hn
        cases h
        rw [hp] at hn
        refine ⟨[], none, .nothing hn, hwf, ?_, ?_⟩
        · intro kind
          rw [base_kind eb]
          simp [listed, docText]
        · intro n _ _
          rw [hb.2]
          simp
      · cases h
    · cases h
    · cases h

theorem buildDecl_complete {o : LoadOptions} {s : Str} {entry : PyVal}
    (hw : ∀ e, entry = .dict e → Dict.WF e) {e : Dict} {text : Option Str} (h : Reads o entry e text) :
    ∃ decl e', buildDecl o (.str s) entry = .ok (decl, e') := by
  obtain ⟨d, eb⟩ := baseDecl_ok o s
  have hp := base_pattern eb
  unfold buildDecl
  rw [eb]
  cases h with
  | text h =>
    rename_i t
    simp only
    have : (withText d t).get? kPattern = none := by
      rw [get?_withText_other, hp, h] <;> simp [kPattern]
    rw [this]
    exact ⟨_, _, rfl⟩
  | nothing h =>
    simp only
    rw [hp, h]
    exact ⟨_, _, rfl⟩
  | table h1 h2 =>
    simp only [dictDecl]
    have : (updateDict d e).get? kPattern = none := by
      rw [get?_updateDict (hw e rfl), hp, h2]
      unfold kPattern
      rw [h1]; rfl
    rw [this]
    exact ⟨_, _, rfl⟩
  | older h1 =>
    rename_i p
    simp only [dictDecl]
    have : (updateDict d e).get? kPattern = some (.str p) := by
      rw [get?_updateDict (hw e rfl)]
      unfold kPattern
      rw [h1]; rfl
    rw [this]
    simp only
    unfold kPattern
    rw [h1]
    exact ⟨_, _, rfl⟩

theorem reads_unique {o : LoadOptions} {entry : PyVal} {e e' : Dict} {t t' : Option Str}
    (h : Reads o entry e t) (h' : Reads o entry e' t') : e' = e ∧ t' = t := by
  cases h with
  | text _ => cases h'; exact ⟨rfl, rfl⟩
  | nothing _ => cases h'; exact ⟨rfl, rfl⟩
  | table h1 _ => cases h' with
    | table _ _ => exact ⟨rfl, rfl⟩
    | older h2 => rw [h1] at h2; cases h2
  | older h1 => cases h' with
    | table h2 _ => rw [h1] at h2; cases h2
    | older h2 => rw [h1] at h2; cases h2; exact ⟨rfl, rfl⟩

theorem written_eq {o : LoadOptions} (ho : ∀ k d, o.forKind k = some d → d.WF) {key : Key} {e : Dict} {text : Option Str} {decl : Dict}
    (h : DeclOf o key e text decl) (kind : PatKind) (n : Key) :
    Dict.get? (updateDict ((decl.del PatKind.regex.key).del PatKind.string.key) ((o.forKind kind).getD [])) n = written o kind key e n := by
  have hf : Dict.WF ((o.forKind kind).getD []) := by
    cases e : o.forKind kind with
    | none => simp [Dict.WF]
    | some c => exact ho _ _ e
  have hc : Dict.get? ((o.forKind kind).getD []) n = (o.forKind kind).bind (Dict.get? · n) := by
    cases o.forKind kind <;> rfl
  rw [get?_updateDict hf, hc, Dict.get?_del, Dict.get?_del]
  unfold written PatKind.key
  by_cases h1 : n = .str c!"regex"
  · subst h1; simp
  · by_cases h2 : n = .str c!"string"
    · subst h2; simp
    · rw [h.2.2 n h1 h2]
      simp only [h1, h2, if_false, or_self]

theorem kind_sound {W : World} (hW : PlainNames W) {o : LoadOptions} (ho : ∀ k d, o.forKind k = some d → d.WF) {key : Key}
    {e : Dict} {text : Option Str} {decl : Dict} (h : DeclOf o key e text decl) {kind : PatKind} {u : Unit} {cs : List PCall}
    (hg : Gives (loadKind W o decl kind) u cs) : KindCalls W o key e text kind cs := by
  unfold loadKind Dict.getD at hg
  rw [h.2.1 kind] at hg
  unfold KindCalls
  cases hl : listed o kind e text with
  | none =>
    rw [hl] at hg
    exact (gives_pure.1 hg).2
  | some v =>
    rw [hl] at hg
    simp only [Option.getD_some] at hg ⊢
    by_cases ht : truthy v = true
    · rw [if_pos ht, gives_patterns hW] at hg
      obtain ⟨r, h1, h2, rfl⟩ := hg
      simp only [ht, Bool.true_eq_false, if_false]
      refine ⟨r, (optionsAre_congr (written_eq ho h kind)).1 (options_are h1 h2), ?_⟩
      unfold asList
      cases v <;> rfl
    · rw [if_neg ht] at hg
      simp only [ht]
      exact (gives_pure.1 hg).2

theorem kind_complete {W : World} (hW : PlainNames W) {o : LoadOptions} (ho : ∀ k d, o.forKind k = some d → d.WF) {key : Key}
    {e : Dict} {text : Option Str} {decl : Dict} (h : DeclOf o key e text decl) {kind : PatKind} {cs : List PCall}
    (hk : KindCalls W o key e text kind cs) : ∃ cs', Gives (loadKind W o decl kind) () cs' := by
  unfold loadKind Dict.getD
  rw [h.2.1 kind]
  unfold KindCalls at hk
  cases hl : listed o kind e text with
  | none => exact ⟨[], gives_pure.2 ⟨rfl, rfl⟩⟩
  | some v =>
    rw [hl] at hk
    simp only [Option.getD_some] at hk ⊢
    by_cases ht : truthy v = true
    · rw [if_pos ht]
      simp only [ht, Bool.true_eq_false, if_false] at hk
      obtain ⟨opts, h1, _⟩ := hk
      obtain ⟨r, h2, h3⟩ := options_exist (updateDict_wf (Dict.del_wf (Dict.del_wf h.1 _) _))
        ((optionsAre_congr (written_eq ho h kind)).2 h1)
      exact ⟨_, (gives_patterns hW).2 ⟨r, h2, h3, rfl⟩⟩
    · rw [if_neg ht]
      exact ⟨[], gives_pure.2 ⟨rfl, rfl⟩⟩

end Guessit
