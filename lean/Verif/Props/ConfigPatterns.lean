import Verif.Proofs.PatternsRun

/-!
# C98-C100: what a pattern configuration declares
-/

namespace Guessit

open Spec

/-- The computation raises after making the calls `cs`. -/
def Breaks {α : Type} (x : LM α) (cs : List PCall) : Prop :=
  (∃ e, (x .fresh).2 = .error e) ∧ (x .fresh).1.calls = cs

theorem gives_or_breaks {α : Type} (x : LM α) : (∃ a cs, Gives x a cs) ∨ ∃ cs, Breaks x cs := by
  cases e : (x .fresh).2 with
  | ok a => exact .inl ⟨a, _, e, rfl⟩
  | error err => exact .inr ⟨_, ⟨err, e⟩, rfl⟩

theorem not_gives {α : Type} {x : LM α} {cs : List PCall} (h : Breaks x cs) : ¬ ∃ a cs', Gives x a cs' := by
  rintro ⟨a, cs', h1, _⟩
  obtain ⟨⟨e, he⟩, _⟩ := h
  rw [he] at h1; cases h1

theorem breaks_pure {α : Type} {a : α} {cs : List PCall} : ¬ Breaks (LM.pure a) cs := by
  rintro ⟨⟨e, h⟩, _⟩; cases h

theorem breaks_raise {α : Type} {e : PyErr} {cs : List PCall} : Breaks (LM.raise (α := α) e) cs ↔ cs = [] :=
  ⟨fun h => h.2.symm, fun h => ⟨⟨e, rfl⟩, h.symm⟩⟩

theorem breaks_lift {α : Type} {x : Except PyErr α} {cs : List PCall} (h : Breaks (LM.lift x) cs) : cs = [] := h.2.symm

theorem breaks_call {c : PCall} {cs : List PCall} : ¬ Breaks (LM.call c) cs := by
  rintro ⟨⟨e, h⟩, _⟩; cases h

theorem breaks_bind {W : World} {α β : Type} {x : LM α} {f : α → LM β} (hx : Steady W x) (hf : ∀ a, Steady W (f a))
    {cs : List PCall} : Breaks (LM.bind x f) cs ↔ Breaks x cs ∨
      ∃ (a : α) (c1 c2 : List PCall), Gives x a c1 ∧ Breaks (f a) c2 ∧ cs = c1 ++ c2 := by
  obtain ⟨_, _, h6⟩ := hx .fresh (cacheOk_nil W)
  unfold Breaks Gives LM.bind
  rcases ef : x .fresh with ⟨s0, r0⟩
  rw [ef] at h6
  simp only at h6
  cases r0 with
  | error e => simp
  | ok a =>
    obtain ⟨k1, k2, _⟩ := hf a s0 h6
    simp only [k1, k2, reduceCtorEq, exists_false, false_and, false_or, Except.ok.injEq]
    constructor
    · rintro ⟨h1, h2⟩
      exact ⟨a, s0.calls, (f a .fresh).1.calls, ⟨rfl, rfl⟩, ⟨h1, rfl⟩, h2.symm⟩
    · rintro ⟨a', c1, c2, ⟨rfl, rfl⟩, ⟨h1, rfl⟩, h2⟩
      exact ⟨h1, h2.symm⟩

/-- Computations that make no calls. -/
def Silent {α : Type} (x : LM α) : Prop := ∀ s, (x s).1.calls = s.calls

theorem silent_bind {α β : Type} {x : LM α} {f : α → LM β} (hx : Silent x) (hf : ∀ a, Silent (f a)) : Silent (LM.bind x f) := by
  intro s
  have h := hx s
  unfold LM.bind
  rcases ex : x s with ⟨s1, r1⟩
  rw [ex] at h
  cases r1 with
  | error e => exact h
  | ok a => exact (hf a s1).trans h

theorem silent_import (W : World) (d : Option Str) (v : Str) : Silent (importRef W v d) := by
  intro s
  unfold importRef
  split
  · rfl
  · split
    · rfl
    · split <;> rfl

theorem silent_exec (W : World) (d : Option Str) (v : PyVal) : Silent (processExec W d v) := by
  unfold processExec
  split
  · split
    · exact silent_import W _ _
    · split
      · exact fun _ => rfl
      · split
        · exact fun _ => rfl
        · exact fun _ => rfl
  · exact fun _ => rfl
  · exact fun _ => rfl

mutual
theorem silent_code (W : World) (d : Option Str) : ∀ v : PyVal, Silent (processCode W d v)
  | .dict kvs => by rw [processCode]; exact silent_bind (silent_items W d kvs) fun _ _ => rfl
  | .none => by rw [processCode]; exact fun _ => rfl
  | .bool b => by rw [processCode] <;> first | exact silent_exec W d _ | simp
  | .int b => by rw [processCode] <;> first | exact silent_exec W d _ | simp
  | .str b => by rw [processCode] <;> first | exact silent_exec W d _ | simp
  | .bytes b => by rw [processCode] <;> first | exact silent_exec W d _ | simp
  | .other b => by rw [processCode] <;> first | exact silent_exec W d _ | simp
  | .list b => by rw [processCode] <;> first | exact silent_exec W d _ | simp
theorem silent_items (W : World) (d : Option Str) : ∀ kvs : List (Key × PyVal), Silent (processItems W d kvs)
  | [] => by rw [processItems]; exact fun _ => rfl
  | e :: rest => by
    rw [processItems]
    exact silent_bind (silent_item W d e) fun _ => silent_bind (silent_items W d rest) fun _ _ => rfl
theorem silent_item (W : World) (d : Option Str) : ∀ e : Key × PyVal, Silent (processItem W d e)
  | (k, v) => by rw [processItem]; exact silent_bind (silent_code W d v) fun _ _ => rfl
end

theorem silent_options (W : World) : ∀ d : Dict, Silent (processOptions W d)
  | [] => fun _ => rfl
  | (k, v) :: rest => by
    rw [processOptions]
    refine silent_bind ?_ fun _ => silent_bind (silent_options W rest) fun _ _ => rfl
    unfold processOption
    split
    · exact silent_code W _ _
    · exact fun _ => rfl

theorem silent_breaks {α : Type} {x : LM α} (h : Silent x) {cs : List PCall} (hb : Breaks x cs) : cs = [] :=
  hb.2.symm.trans (h .fresh)

theorem silent_gives {α : Type} {x : LM α} (h : Silent x) {a : α} {cs : List PCall} (hb : Gives x a cs) : cs = [] :=
  hb.2.symm.trans (h .fresh)

/-! ## Entries -/

theorem declare_gives {W : World} (hW : PlainNames W) {o : LoadOptions} {key : Key} {entry e' : PyVal} {cs : List PCall} :
    Gives (declareEntry W o key entry) e' cs ↔ ∃ (decl : Dict) (rs ss : List PCall), buildDecl o key entry = .ok (decl, e') ∧
      Gives (loadKind W o decl .regex) () rs ∧ Gives (loadKind W o decl .string) () ss ∧ cs = rs ++ ss := by
  unfold declareEntry
  rw [gives_bind (W := W) (steady_lift _) (fun _ => steady_bind (steady_kind hW _ _ _) fun _ =>
    steady_bind (steady_kind hW _ _ _) fun _ => steady_pure _)]
  constructor
  · rintro ⟨r, c1, c2, h1, h2, rfl⟩
    obtain ⟨h3, rfl⟩ := gives_lift.1 h1
    rw [gives_bind (W := W) (steady_kind hW _ _ _) (fun _ => steady_bind (steady_kind hW _ _ _) fun _ => steady_pure _)] at h2
    obtain ⟨_, rs, c3, h4, h5, rfl⟩ := h2
    rw [gives_bind (W := W) (steady_kind hW _ _ _) (fun _ => steady_pure _)] at h5
    obtain ⟨_, ss, c4, h6, h7, rfl⟩ := h5
    obtain ⟨rfl, rfl⟩ := gives_pure.1 h7
    exact ⟨r.1, rs, ss, h3, h4, h6, by simp⟩
  · rintro ⟨decl, rs, ss, h1, h2, h3, rfl⟩
    refine ⟨(decl, e'), [], rs ++ ss, gives_lift.2 ⟨h1, rfl⟩, ?_, rfl⟩
    rw [gives_bind (W := W) (steady_kind hW _ _ _) (fun _ => steady_bind (steady_kind hW _ _ _) fun _ => steady_pure _)]
    refine ⟨(), rs, ss, h2, ?_, rfl⟩
    rw [gives_bind (W := W) (steady_kind hW _ _ _) (fun _ => steady_pure _)]
    exact ⟨(), ss, [], h3, gives_pure.2 ⟨rfl, rfl⟩, by simp⟩

theorem call_gives {W : World} (hW : PlainNames W) {spec : PyVal} {e : Dict} {u : Unit} {cs : List PCall} :
    Gives (callEntry W spec e) u cs ↔ ∃ (v : Str) (f : PyVal), spec = .str v ∧ StandsFor W none v f ∧ textKeys e = true ∧
      W.invoke f e = .ok () ∧ cs = [.invoke f e] := by
  have hst : ∀ f, Steady W (if textKeys e = true then LM.bind (LM.call (.invoke f e)) fun _ => LM.lift (W.invoke f e)
    else LM.raise PyErr.typeError) := by
    intro f
    split
    · exact steady_bind (steady_call _) fun _ => steady_lift _
    · exact steady_raise _
  unfold callEntry
  rw [gives_bind (steady_exec hW _ _) hst]
  constructor
  · rintro ⟨f, c1, c2, h1, h2, rfl⟩
    have hv : ∃ v, spec = .str v := by
      cases spec with
      | str v => exact ⟨v, rfl⟩
      | bytes b => exact (gives_raise.1 h1).elim
      | _ => exact (gives_raise.1 h1).elim
    obtain ⟨v, rfl⟩ := hv
    obtain ⟨h3, rfl⟩ := (gives_exec hW).1 h1
    split at h2
    · rename_i ht
      rw [gives_bind (W := W) (steady_call _) (fun _ => steady_lift _)] at h2
      obtain ⟨_, c3, c4, h4, h5, rfl⟩ := h2
      rw [gives_call] at h4
      obtain ⟨h6, rfl⟩ := gives_lift.1 h5
      subst h4
      exact ⟨v, f, rfl, h3, ht, h6, rfl⟩
    · exact (gives_raise.1 h2).elim
  · rintro ⟨v, f, rfl, h1, h2, h3, rfl⟩
    refine ⟨f, [], _, (gives_exec hW).2 ⟨h1, rfl⟩, ?_, rfl⟩
    rw [if_pos h2, gives_bind (W := W) (steady_call _) (fun _ => steady_lift _)]
    exact ⟨(), _, [], gives_call.2 rfl, gives_lift.2 ⟨h3, rfl⟩, by simp⟩

theorem keys_del {e : Dict} (h : ∃ v : Str, Dict.get? e kCallable = some (.str v)) :
    textKeys (Dict.del e kCallable) = true ↔ ∀ p ∈ e, ∃ s, p.1 = .str s := by
  rw [textKeys_iff]
  constructor
  · intro h1 p hp
    by_cases hk : p.1 = kCallable
    · exact ⟨_, hk⟩
    · exact h1 p (List.mem_filter.2 ⟨hp, by simpa using hk⟩)
  · exact fun h1 p hp => h1 p (List.mem_filter.1 hp).1

theorem entry_sound {W : World} (hW : PlainNames W) {o : LoadOptions} (hc : ∀ d, o.common = some d → d.WF)
    (ho : ∀ k d, o.forKind k = some d → d.WF) {key : Key} {entry e' : PyVal} (hw : ∀ e, entry = .dict e → Dict.WF e)
    {cs : List PCall} (h : Gives (loadEntry W o key entry) e' cs) : EntryCalls W o key entry cs := by
  have decl : Gives (declareEntry W o key entry) e' cs → ((∀ e, entry = .dict e → Dict.get? e (.str c!"callable") = none)) →
      EntryCalls W o key entry cs := by
    intro h hn
    obtain ⟨decl, rs, ss, h1, h2, h3, rfl⟩ := (declare_gives hW).1 h
    obtain ⟨hk, e, text, h4, h5⟩ := buildDecl_sound hc hw h1
    exact .inr ⟨hn, hk, e, text, rs, ss, h4, kind_sound hW ho h5 h2, kind_sound hW ho h5 h3, rfl⟩
  unfold loadEntry at h
  split at h
  · rename_i e
    cases hcall : Dict.get? e kCallable with
    | none =>
      rw [hcall] at h
      exact decl h (by rintro x hx; cases hx; exact hcall)
    | some spec =>
      rw [hcall] at h
      simp only at h
      rw [gives_bind (W := W) (steady_callEntry hW _ _) (fun _ => steady_pure _)] at h
      obtain ⟨_, c1, c2, h1, h2, rfl⟩ := h
      obtain ⟨_, rfl⟩ := gives_pure.1 h2
      obtain ⟨v, f, rfl, h3, h4, h5, rfl⟩ := (call_gives hW).1 h1
      refine .inl ⟨e, v, f, rfl, hcall, h3, (keys_del ⟨v, hcall⟩).1 h4, h5, List.append_nil _⟩
  · rename_i hnd
    exact decl h (by intro e he; exact absurd he (hnd e))

theorem entry_complete {W : World} (hW : PlainNames W) {o : LoadOptions} (hc : ∀ d, o.common = some d → d.WF)
    (ho : ∀ k d, o.forKind k = some d → d.WF) {key : Key} {entry : PyVal} (hw : ∀ e, entry = .dict e → Dict.WF e)
    {cs : List PCall} (h : EntryCalls W o key entry cs) : ∃ e' cs', Gives (loadEntry W o key entry) e' cs' := by
  rcases h with ⟨e, v, f, rfl, h1, h2, h3, h4, rfl⟩ | ⟨hn, ⟨s, rfl⟩, e, text, rs, ss, h1, h2, h3, rfl⟩
  · unfold loadEntry
    simp only
    have h1' : Dict.get? e kCallable = some (.str v) := h1
    rw [h1']
    refine ⟨.dict (Dict.del e kCallable), [.invoke f (Dict.del e kCallable)], ?_⟩
    simp only
    rw [gives_bind (W := W) (steady_callEntry hW _ _) (fun _ => steady_pure _)]
    exact ⟨(), _, [], (call_gives hW).2 ⟨v, f, rfl, h2, (keys_del ⟨v, h1'⟩).2 h3, h4, rfl⟩, gives_pure.2 ⟨rfl, rfl⟩, by simp⟩
  · have goal : ∃ e' cs', Gives (declareEntry W o (.str s) entry) e' cs' := by
      obtain ⟨decl, e', hb⟩ := buildDecl_complete (s := s) hw h1
      obtain ⟨_, e2, t2, h4, h5⟩ := buildDecl_sound hc hw hb
      obtain ⟨rfl, rfl⟩ := reads_unique h1 h4
      obtain ⟨r', hr⟩ := kind_complete hW ho h5 h2
      obtain ⟨s', hs⟩ := kind_complete hW ho h5 h3
      exact ⟨e', r' ++ s', (declare_gives hW).2 ⟨decl, r', s', hb, hr, hs, rfl⟩⟩
    unfold loadEntry
    split
    · rename_i e3
      have := hn e3 rfl
      have h' : Dict.get? e3 kCallable = none := this
      rw [h']
      exact goal
    · exact goal

/-- An entry that raises has made at most one call. -/
theorem entry_breaks {W : World} (hW : PlainNames W) {o : LoadOptions} {key : Key} {entry : PyVal}
    {cs : List PCall} (h : Breaks (loadEntry W o key entry) cs) : cs.length ≤ 1 := by
  have kindGives : ∀ {d : Dict} {k : PatKind} {u : Unit} {cs : List PCall}, Gives (loadKind W o d k) u cs → cs.length ≤ 1 := by
    intro d k u cs h
    unfold loadKind at h
    split at h
    · obtain ⟨r, _, _, rfl⟩ := (gives_patterns hW).1 h
      simp
    · obtain ⟨_, rfl⟩ := gives_pure.1 h
      simp
  have kindBreaks : ∀ {d : Dict} {k : PatKind} {cs : List PCall}, Breaks (loadKind W o d k) cs → cs = [] := by
    intro d k cs h
    unfold loadKind at h
    split at h
    · unfold loadPatterns at h
      rw [breaks_bind (W := W) (steady_options hW _) (by intro r; split; exact steady_call _; exact steady_raise _)] at h
      rcases h with h | ⟨r, c1, c2, h1, h2, rfl⟩
      · exact silent_breaks (silent_options W _) h
      · rw [silent_gives (silent_options W _) h1]
        split at h2
        · exact absurd h2 breaks_call
        · rw [breaks_raise.1 h2]; rfl
    · exact absurd h breaks_pure
  have decl : Breaks (declareEntry W o key entry) cs → cs.length ≤ 1 := by
    intro h
    unfold declareEntry at h
    rw [breaks_bind (W := W) (steady_lift _) (fun _ => steady_bind (steady_kind hW _ _ _) fun _ =>
      steady_bind (steady_kind hW _ _ _) fun _ => steady_pure _)] at h
    rcases h with h | ⟨r, c1, c2, h1, h2, rfl⟩
    · rw [breaks_lift h]; simp
    · obtain ⟨_, rfl⟩ := gives_lift.1 h1
      rw [breaks_bind (W := W) (steady_kind hW _ _ _) (fun _ => steady_bind (steady_kind hW _ _ _) fun _ => steady_pure _)] at h2
      rcases h2 with h2 | ⟨_, c3, c4, h3, h4, rfl⟩
      · rw [kindBreaks h2]; simp
      · rw [breaks_bind (W := W) (steady_kind hW _ _ _) (fun _ => steady_pure _)] at h4
        rcases h4 with h4 | ⟨_, _, _, _, h5, _⟩
        · rw [kindBreaks h4]
          simpa using kindGives h3
        · exact absurd h5 breaks_pure
  unfold loadEntry at h
  split at h
  · split at h
    · rw [breaks_bind (W := W) (steady_callEntry hW _ _) (fun _ => steady_pure _)] at h
      rcases h with h | ⟨_, _, _, _, h5, _⟩
      · unfold callEntry at h
        rw [breaks_bind (W := W) (steady_exec hW _ _) (by
          intro f; split; exact steady_bind (steady_call _) fun _ => steady_lift _; exact steady_raise _)] at h
        rcases h with h | ⟨f, c1, c2, h1, h2, rfl⟩
        · rw [silent_breaks (silent_exec W _ _) h]; simp
        · rw [silent_gives (silent_exec W _ _) h1]
          split at h2
          · rw [breaks_bind (W := W) (steady_call _) (fun _ => steady_lift _)] at h2
            rcases h2 with h2 | ⟨_, c3, c4, h3, h4, rfl⟩
            · exact absurd h2 breaks_call
            · rw [gives_call.1 h3, breaks_lift h4]; simp
          · rw [breaks_raise.1 h2]; simp
      · exact absurd h5 breaks_pure
    · exact decl h
  · exact decl h

/-! ## Configurations -/

/-- The loop over the flattened entries. -/
def loadFlat (W : World) (o : LoadOptions) : List (Key × PyVal) → LM (List PyVal)
  | [] => LM.pure []
  | e :: es => LM.bind (loadEntry W o e.1 e.2) fun e' => LM.bind (loadFlat W o es) fun es' => LM.pure (e' :: es')

theorem steady_flat {W : World} (hW : PlainNames W) (o : LoadOptions) : ∀ es, Steady W (loadFlat W o es)
  | [] => steady_pure _
  | e :: es => steady_bind (steady_entry hW o e.1 e.2) fun _ => steady_bind (steady_flat hW o es) fun _ => steady_pure _

/-- The same calls and the same success. -/
def SameRun {α β : Type} (x : LM α) (y : LM β) : Prop :=
  ∀ s, (x s).1 = (y s).1 ∧ (∀ e, (x s).2 = .error e ↔ (y s).2 = .error e)

theorem sameRun_ok {α β : Type} {x : LM α} {y : LM β} (h : SameRun x y) {s : LState} : (∃ a, (x s).2 = .ok a) ↔ ∃ b, (y s).2 = .ok b := by
  obtain ⟨_, h2⟩ := h s
  cases ex : (x s).2 with
  | error e =>
    have := (h2 e).1 ex
    rw [this]; simp
  | ok a =>
    cases ey : (y s).2 with
    | error e => have := (h2 e).2 ey; rw [ex] at this; cases this
    | ok b => simp

theorem flat_append (W : World) (o : LoadOptions) : ∀ a b : List (Key × PyVal),
    SameRun (loadFlat W o (a ++ b)) (LM.bind (loadFlat W o a) fun _ => loadFlat W o b)
  | [], b => by
    intro s
    show (loadFlat W o b s).1 = (loadFlat W o b s).1 ∧ _
    exact ⟨rfl, fun e => Iff.rfl⟩
  | e :: a, b => by
    intro s
    have ih := flat_append W o a b
    rw [List.cons_append, loadFlat, loadFlat]
    unfold LM.bind LM.pure
    rcases h1 : loadEntry W o e.1 e.2 s with ⟨s1, r1⟩
    cases r1 with
    | error err => exact ⟨rfl, fun _ => Iff.rfl⟩
    | ok v =>
      obtain ⟨i1, i2⟩ := ih s1
      unfold LM.bind at i1 i2
      simp only
      rcases h2 : loadFlat W o (a ++ b) s1 with ⟨s2, r2⟩
      rcases h3 : loadFlat W o a s1 with ⟨s3, r3⟩
      rw [h2, h3] at i1 i2
      cases r3 with
      | error err =>
        simp only at i1 i2 ⊢
        subst i1
        have := (i2 err).2 rfl
        subst this
        exact ⟨rfl, fun _ => Iff.rfl⟩
      | ok w =>
        simp only at i1 i2 ⊢
        cases r2 with
        | error e2 => exact ⟨i1, i2⟩
        | ok r =>
          refine ⟨i1, fun e2 => ?_⟩
          have := i2 e2
          simp only [reduceCtorEq, false_iff] at this ⊢
          exact this

theorem entries_flat (W : World) (o : LoadOptions) (k : Key) : ∀ es : List PyVal,
    SameRun (loadEntries W o k es) (loadFlat W o (es.map fun v => (k, v)))
  | [] => fun s => ⟨rfl, fun _ => Iff.rfl⟩
  | e :: es => by
    intro s
    have ih := entries_flat W o k es
    rw [loadEntries, List.map_cons, loadFlat]
    unfold LM.bind LM.pure
    rcases h1 : loadEntry W o k e s with ⟨s1, r1⟩
    cases r1 with
    | error err => exact ⟨rfl, fun _ => Iff.rfl⟩
    | ok v =>
      obtain ⟨i1, i2⟩ := ih s1
      simp only
      rcases h2 : loadEntries W o k es s1 with ⟨s2, r2⟩
      rcases h3 : loadFlat W o (es.map fun v => (k, v)) s1 with ⟨s3, r3⟩
      rw [h2, h3] at i1 i2
      simp only at i1 i2
      subst i1
      cases r2 with
      | error e2 =>
        have := (i2 e2).1 rfl
        subst this
        exact ⟨rfl, fun _ => Iff.rfl⟩
      | ok r =>
        cases r3 with
        | error e3 => have := (i2 e3).2 rfl; cases this
        | ok w => exact ⟨rfl, fun _ => by simp⟩

/-- The entries of one key. -/
def rawEntries (e : Key × PyVal) : List (Key × PyVal) := match e.2 with
  | .list l => l.map fun v => (e.1, v)
  | v => [(e.1, v)]

theorem raw_flat (W : World) (o : LoadOptions) (k : Key) (raw : PyVal) : SameRun (loadRaw W o k raw) (loadFlat W o (rawEntries (k, raw))) := by
  have single : ∀ v : PyVal, SameRun (loadEntry W o k v) (loadFlat W o [(k, v)]) := by
    intro v s
    unfold loadFlat loadFlat LM.bind LM.pure
    rcases h1 : loadEntry W o k v s with ⟨s1, r1⟩
    cases r1 with
    | error err =>
      dsimp only
      exact ⟨rfl, fun _ => by simp⟩
    | ok w =>
      dsimp only
      exact ⟨rfl, fun _ => by simp⟩
  unfold loadRaw rawEntries
  split
  · rename_i l
    intro s
    obtain ⟨i1, i2⟩ := entries_flat W o k l s
    show ((LM.bind (loadEntries W o k l) fun l' => LM.pure (PyVal.list l')) s).1 = (loadFlat W o (l.map fun v => (k, v)) s).1 ∧
      ∀ e, ((LM.bind (loadEntries W o k l) fun l' => LM.pure (PyVal.list l')) s).2 = .error e ↔ (loadFlat W o (l.map fun v => (k, v)) s).2 = .error e
    unfold LM.bind LM.pure
    rcases h2 : loadEntries W o k l s with ⟨s2, r2⟩
    rw [h2] at i1 i2
    cases r2 with
    | error e2 =>
      refine ⟨i1, fun e => ?_⟩
      rw [← i2 e]
      simp
    | ok r =>
      refine ⟨i1, fun e => ?_⟩
      have := i2 e
      simp only [reduceCtorEq, false_iff] at this ⊢
      exact this
  · rename_i hnl
    cases raw with
    | list l => exact absurd rfl (hnl l)
    | _ => exact single _

theorem items_flat (W : World) (o : LoadOptions) : ∀ d : Dict, SameRun (loadItems W o d) (loadFlat W o (entriesOf d))
  | [] => by
    intro s
    have he : entriesOf [] = [] := rfl
    rw [he, loadItems, loadFlat]
    unfold LM.pure
    exact ⟨rfl, fun _ => by simp⟩
  | (k, raw) :: rest => by
    intro s
    have he : entriesOf ((k, raw) :: rest) = rawEntries (k, raw) ++ entriesOf rest := rfl
    rw [he]
    obtain ⟨f1, f2⟩ := flat_append W o (rawEntries (k, raw)) (entriesOf rest) s
    rw [f1]
    obtain ⟨i1, i2⟩ := raw_flat W o k raw s
    rw [loadItems]
    unfold LM.bind LM.pure at *
    rcases h1 : loadRaw W o k raw s with ⟨s1, r1⟩
    rcases h2 : loadFlat W o (rawEntries (k, raw)) s with ⟨s2, r2⟩
    rw [h2] at f2
    rw [h1, h2] at i1 i2
    simp only at i1 i2
    subst i1
    cases r1 with
    | error e1 =>
      have := (i2 e1).1 rfl
      subst this
      refine ⟨rfl, fun e => ?_⟩
      dsimp only at f2 ⊢
      rw [f2 e]
      simp
    | ok v =>
      cases r2 with
      | error e3 => have := (i2 e3).2 rfl; cases this
      | ok w =>
        obtain ⟨j1, j2⟩ := items_flat W o rest s1
        simp only at f2 ⊢
        rcases h3 : loadItems W o rest s1 with ⟨s3, r3⟩
        rw [h3] at j1 j2
        cases r3 with
        | error e3 =>
          refine ⟨j1, fun e => ?_⟩
          rw [f2 e]; exact j2 e
        | ok d' =>
          refine ⟨j1, fun e => ?_⟩
          rw [f2 e]
          have := j2 e
          simp only [reduceCtorEq, false_iff] at this ⊢
          exact this

theorem flat_gives {W : World} (hW : PlainNames W) {o : LoadOptions} (hc : ∀ d, o.common = some d → d.WF)
    (ho : ∀ k d, o.forKind k = some d → d.WF) : ∀ {es : List (Key × PyVal)} {out : List PyVal} {cs : List PCall},
    (∀ e ∈ es, ∀ d, e.2 = .dict d → Dict.WF d) → Gives (loadFlat W o es) out cs → CallsOf W o es cs
  | [], out, cs, _, h => by
    obtain ⟨_, rfl⟩ := gives_pure.1 h
    exact ⟨[], .nil, rfl⟩
  | e :: es, out, cs, hw, h => by
    rw [loadFlat, gives_bind (steady_entry hW o e.1 e.2) (fun _ => steady_bind (steady_flat hW o es) fun _ => steady_pure _)] at h
    obtain ⟨a, c1, c2, h1, h2, rfl⟩ := h
    rw [gives_bind (steady_flat hW o es) (fun _ => steady_pure _)] at h2
    obtain ⟨b, c3, c4, h3, h4, rfl⟩ := h2
    obtain ⟨_, rfl⟩ := gives_pure.1 h4
    obtain ⟨per, h5, rfl⟩ := flat_gives hW hc ho (fun x hx => hw x (List.mem_cons_of_mem _ hx)) h3
    exact ⟨c1 :: per, .cons (entry_sound hW hc ho (hw e (List.mem_cons_self ..)) h1) h5, by simp⟩

theorem flat_complete {W : World} (hW : PlainNames W) {o : LoadOptions} (hc : ∀ d, o.common = some d → d.WF)
    (ho : ∀ k d, o.forKind k = some d → d.WF) : ∀ {es : List (Key × PyVal)} {per : List (List PCall)},
    (∀ e ∈ es, ∀ d, e.2 = .dict d → Dict.WF d) → List.Forall₂ (fun e cs => EntryCalls W o e.1 e.2 cs) es per →
    ∃ out cs, Gives (loadFlat W o es) out cs
  | [], _, _, _ => ⟨[], [], gives_pure.2 ⟨rfl, rfl⟩⟩
  | e :: es, _, hw, .cons h1 h2 => by
    obtain ⟨a, c1, g1⟩ := entry_complete hW hc ho (hw e (List.mem_cons_self ..)) h1
    obtain ⟨b, c2, g2⟩ := flat_complete hW hc ho (fun x hx => hw x (List.mem_cons_of_mem _ hx)) h2
    refine ⟨a :: b, c1 ++ c2, ?_⟩
    rw [loadFlat, gives_bind (steady_entry hW o e.1 e.2) (fun _ => steady_bind (steady_flat hW o es) fun _ => steady_pure _)]
    refine ⟨a, c1, c2, g1, ?_, rfl⟩
    rw [gives_bind (steady_flat hW o es) (fun _ => steady_pure _)]
    exact ⟨b, c2, [], g2, gives_pure.2 ⟨rfl, rfl⟩, by simp⟩

theorem flat_breaks {W : World} (hW : PlainNames W) {o : LoadOptions} (hc : ∀ d, o.common = some d → d.WF)
    (ho : ∀ k d, o.forKind k = some d → d.WF) : ∀ {es : List (Key × PyVal)} {cs : List PCall},
    (∀ e ∈ es, ∀ d, e.2 = .dict d → Dict.WF d) → Breaks (loadFlat W o es) cs →
    ∃ (ok : List (Key × PyVal)) (bad : Key × PyVal) (rest : List (Key × PyVal)) (c1 c2 : List PCall),
      es = ok ++ bad :: rest ∧ CallsOf W o ok c1 ∧ (¬ ∃ c, EntryCalls W o bad.1 bad.2 c) ∧ cs = c1 ++ c2 ∧ c2.length ≤ 1
  | [], cs, _, h => absurd h breaks_pure
  | e :: es, cs, hw, h => by
    have hwe := hw e (List.mem_cons_self ..)
    rw [loadFlat, breaks_bind (steady_entry hW o e.1 e.2) (fun _ => steady_bind (steady_flat hW o es) fun _ => steady_pure _)] at h
    rcases h with h | ⟨a, c1, c2, h1, h2, rfl⟩
    · refine ⟨[], e, es, [], cs, rfl, ⟨[], .nil, rfl⟩, ?_, rfl, entry_breaks hW h⟩
      rintro ⟨c, hcalls⟩
      exact not_gives h (entry_complete hW hc ho hwe hcalls)
    · rw [breaks_bind (steady_flat hW o es) (fun _ => steady_pure _)] at h2
      rcases h2 with h2 | ⟨_, _, _, _, h5, _⟩
      · obtain ⟨ok, bad, rest, d1, d2, rfl, ⟨per, h3, rfl⟩, h4, rfl, h6⟩ :=
          flat_breaks hW hc ho (fun x hx => hw x (List.mem_cons_of_mem _ hx)) h2
        exact ⟨e :: ok, bad, rest, c1 ++ per.flatten, d2, rfl,
          ⟨c1 :: per, .cons (entry_sound hW hc ho hwe h1) h3, by simp⟩, h4, by simp, h6⟩
      · exact absurd h5 breaks_pure

theorem loaded_ok {W : World} (hW : PlainNames W) {s : LState} (h : Loaded W s) : CacheOk W s.cache := by
  induction h with
  | start => exact cacheOk_nil W
  | load c o _ ih => exact (steady_config hW c o _ ih).2.2

/-- **C98.** A configuration that loads makes, entry by entry in the order written, exactly the calls its entries stand for. -/
theorem C98_declares {W : World} (hW : PlainNames W) {s : LState} (hs : Loaded W s) (config : Dict) (o : LoadOptions)
    (hr : RealTables o config) {out : Dict} (h : (loadConfigPatterns W (.dict config) (some o) s).2 = .ok out) :
    ∃ calls, CallsOf W o (entriesOf config) calls ∧
      (loadConfigPatterns W (.dict config) (some o) s).1.calls = s.calls ++ calls := by
  have hc := loaded_ok hW hs
  have hrun := items_flat W o config
  obtain ⟨_, h2, _⟩ := steady_config hW (.dict config) (some o) s hc
  obtain ⟨g, _⟩ := gives_steady (steady_config hW (.dict config) (some o)) hc h
  refine ⟨_, ?_, h2⟩
  obtain ⟨b, hb⟩ := (sameRun_ok hrun (s := .fresh)).1 ⟨out, g.1⟩
  have : (loadConfigPatterns W (.dict config) (some o) .fresh).1.calls = (loadFlat W o (entriesOf config) .fresh).1.calls :=
    congrArg LState.calls (hrun .fresh).1
  rw [this]
  exact flat_gives hW hr.2.1 hr.1 hr.2.2 ⟨hb, rfl⟩

/-- **C98.** A configuration loads exactly when every entry stands for some calls. -/
theorem C98_loads_iff {W : World} (hW : PlainNames W) {s : LState} (hs : Loaded W s) (config : Dict) (o : LoadOptions)
    (hr : RealTables o config) : (∃ out, (loadConfigPatterns W (.dict config) (some o) s).2 = .ok out) ↔
      ∀ e ∈ entriesOf config, ∃ calls, EntryCalls W o e.1 e.2 calls := by
  have hc := loaded_ok hW hs
  have hrun := items_flat W o config
  obtain ⟨h1, _, _⟩ := steady_config hW (.dict config) (some o) s hc
  have hf : (∃ out, (loadConfigPatterns W (.dict config) (some o) s).2 = .ok out) ↔
      ∃ out, (loadFlat W o (entriesOf config) .fresh).2 = .ok out := by
    rw [h1]
    exact sameRun_ok hrun
  rw [hf]
  constructor
  · rintro ⟨out, ho⟩
    obtain ⟨per, h2, _⟩ := flat_gives hW hr.2.1 hr.1 hr.2.2 ⟨ho, rfl⟩
    intro e he
    have hh := List.forall₂_iff_get.1 h2
    obtain ⟨i, hi, rfl⟩ := List.getElem_of_mem he
    exact ⟨per.get ⟨i, hh.1 ▸ hi⟩, hh.2 i hi (hh.1 ▸ hi)⟩
  · intro h
    have : ∃ per : List (List PCall), List.Forall₂ (fun e cs => EntryCalls W o e.1 e.2 cs) (entriesOf config) per := by
      generalize entriesOf config = es at h
      induction es with
      | nil => exact ⟨[], .nil⟩
      | cons e es ih =>
        obtain ⟨c, hc⟩ := h e (List.mem_cons_self ..)
        obtain ⟨per, hp⟩ := ih (fun x hx => h x (List.mem_cons_of_mem _ hx))
        exact ⟨c :: per, .cons hc hp⟩
    obtain ⟨per, hp⟩ := this
    obtain ⟨out, cs, hg⟩ := flat_complete hW hr.2.1 hr.1 hr.2.2 hp
    exact ⟨out, hg.1⟩

/-- **C98.** When loading raises, the calls made are those of the entries before the first bad one, and at most one more. -/
theorem C98_stops_at_bad {W : World} (hW : PlainNames W) {s : LState} (hs : Loaded W s) (config : Dict) (o : LoadOptions)
    (hr : RealTables o config) {e : PyErr} (h : (loadConfigPatterns W (.dict config) (some o) s).2 = .error e) :
    ∃ (ok : List (Key × PyVal)) (bad : Key × PyVal) (rest : List (Key × PyVal)) (calls last : List PCall),
      entriesOf config = ok ++ bad :: rest ∧ CallsOf W o ok calls ∧ (¬ ∃ c, EntryCalls W o bad.1 bad.2 c) ∧
      (loadConfigPatterns W (.dict config) (some o) s).1.calls = s.calls ++ (calls ++ last) ∧ last.length ≤ 1 := by
  have hc := loaded_ok hW hs
  have hrun := items_flat W o config
  obtain ⟨h1, h2, _⟩ := steady_config hW (.dict config) (some o) s hc
  have hb : Breaks (loadFlat W o (entriesOf config)) (loadConfigPatterns W (.dict config) (some o) .fresh).1.calls := by
    refine ⟨⟨e, ((hrun .fresh).2 e).1 (by rw [← h, h1]; rfl)⟩, ?_⟩
    exact (congrArg LState.calls (hrun .fresh).1).symm
  obtain ⟨ok, bad, rest, c1, c2, g1, g2, g3, g4, g5⟩ := flat_breaks hW hr.2.1 hr.1 hr.2.2 hb
  exact ⟨ok, bad, rest, c1, c2, g1, g2, g3, by rw [h2, g4], g5⟩

/-- **C99.** What a configuration declares, and whether it loads, does not depend on what was loaded before. -/
theorem C99_history {W : World} (hW : PlainNames W) {s : LState} (hs : Loaded W s) (config : PyVal) (o : Option LoadOptions) :
    (loadConfigPatterns W config o s).2 = (loadConfigPatterns W config o ⟨[], []⟩).2 ∧
    (loadConfigPatterns W config o s).1.calls = s.calls ++ (loadConfigPatterns W config o ⟨[], []⟩).1.calls := by
  obtain ⟨h1, h2, _⟩ := steady_config hW config o s (loaded_ok hW hs)
  exact ⟨h1, h2⟩

/-- **C99.** A reference is resolved to the object it denotes, whatever was loaded before. -/
theorem C99_reference {W : World} (hW : PlainNames W) {s : LState} (hs : Loaded W s) (ref : Str) (dflt : Option Str) (o : PyVal) :
    (importRef W ref dflt s).2 = .ok o ↔ Refers W dflt ref o := by
  obtain ⟨h1, _, _⟩ := steady_import hW ref dflt s (loaded_ok hW hs)
  have := gives_import hW (v := ref) (d := dflt) (o := o) (cs := [])
  unfold Gives at this
  rw [h1]
  constructor
  · intro h
    exact (this.1 ⟨h, silent_import W dflt ref .fresh⟩).1
  · intro h
    exact (this.2 ⟨h, rfl⟩).1

/-! ## Pattern texts only -/

theorem withText_eq (d : Dict) (p : Str) : withText d p = d.set (textKind p).key (.list [.str (textBody p)]) := by
  unfold withText
  cases e : afterPrefix c!"re:" p with
  | some r => rw [afterPrefix_iff.1 e]; rfl
  | none =>
    have h := afterPrefix_none.1 e
    have h1 : textKind p = .string := by
      unfold textKind; split
      · exact absurd rfl (h _)
      · rfl
    have h2 : textBody p = p := by
      unfold textBody; split
      · exact absurd rfl (h _)
      · rfl
    rw [h1, h2]

theorem baseDecl_eq (key : Str) : baseDecl ⟨none, fun _ => none⟩ (.str key) = .ok (keyOptions key) := by
  cases key with
  | nil => rfl
  | cons c r =>
    by_cases hc : c = '_'
    · subst hc; rfl
    · have : ('_' == c) = false := by simpa using fun h => hc h.symm
      have hp : (c!"_").isPrefixOf (c :: r) = false := by simp [List.isPrefixOf, this]
      have hk : keyOptions (c :: r) = [(.str c!"value", .str (c :: r))] := by
        unfold keyOptions; split
        · rename_i e; cases e; exact absurd rfl hc
        · rfl
      rw [hk]
      simp only [baseDecl, hp]
      rfl

theorem text_entry (W : World) (key p : Str) (s : LState) :
    loadEntry W ⟨none, fun _ => none⟩ (.str key) (.str p) s = ({ s with calls := s.calls ++ [textCall key p] }, .ok (.str p)) := by
  unfold loadEntry declareEntry buildDecl textCall
  rw [baseDecl_eq]
  simp only
  rw [withText_eq]
  generalize textKind p = kind
  generalize textBody p = body
  have hk : keyOptions key = [] ∨ keyOptions key = [(.str c!"value", .str key)] := by
    unfold keyOptions; split
    · exact .inl rfl
    · exact .inr rfl
  rcases hk with hk | hk <;> rw [hk] <;> cases kind <;> rfl

/-- **C98.** A configuration of pattern texts always loads: every text is declared once, in order, `re:` texts as regular
expressions, with the key as value unless it begins with an underscore; the configuration is left as it was. -/
theorem C98_texts (W : World) (config : List (Str × List Str)) (s : LState) :
    loadConfigPatterns W (.dict (config.map fun e => (.str e.1, .list (e.2.map .str)))) none s =
      ({ s with calls := s.calls ++ config.flatMap fun e => e.2.map (textCall e.1) },
        .ok (config.map fun e => (.str e.1, .list (e.2.map .str)))) := by
  have entries : ∀ (k : Str) (ps : List Str) (s : LState), loadEntries W ⟨none, fun _ => none⟩ (.str k) (ps.map .str) s =
      ({ s with calls := s.calls ++ ps.map (textCall k) }, .ok (ps.map .str)) := by
    intro k ps
    induction ps with
    | nil => intro s; simp [loadEntries, LM.pure]
    | cons p ps ih =>
      intro s
      rw [List.map_cons, loadEntries]
      unfold LM.bind
      rw [text_entry]
      dsimp only
      rw [ih]
      simp [LM.pure]
  have items : ∀ (c : List (Str × List Str)) (s : LState),
      loadItems W ⟨none, fun _ => none⟩ (c.map fun e => (.str e.1, .list (e.2.map .str))) s =
      ({ s with calls := s.calls ++ c.flatMap fun e => e.2.map (textCall e.1) },
        .ok (c.map fun e => (.str e.1, .list (e.2.map .str)))) := by
    intro c
    induction c with
    | nil => intro s; simp [loadItems, LM.pure]
    | cons e c ih =>
      intro s
      rw [List.map_cons, loadItems, loadRaw]
      unfold LM.bind
      rw [entries]
      simp only [LM.pure]
      rw [ih]
      simp
  exact items config s

/-! ## The configuration afterwards -/

theorem filter_absent {e : Dict} {k : Key} (h : Dict.get? e k = none) : (e.filter fun p => p.1 ≠ k) = e := by
  rw [List.filter_eq_self]
  intro p hp
  have := Dict.get?_none_iff.1 h
  simp only [ne_eq, decide_eq_true_eq]
  rintro rfl
  exact this (List.mem_map_of_mem hp)

theorem get?_update_none {d e : Dict} {k : Key} (h : (updateDict d e).get? k = none) : Dict.get? e k = none := by
  have keep : ∀ (e d : Dict), (updateDict d e).get? k = none → d.get? k = none := by
    intro e
    induction e with
    | nil => exact fun d h => h
    | cons x e ih =>
      intro d h
      have := ih (d.set x.1 x.2) h
      rw [Dict.get?_set] at this
      split at this
      · cases this
      · exact this
  induction e generalizing d with
  | nil => rfl
  | cons x e ih =>
    rw [Dict.get?_cons]
    have h' : (updateDict (d.set x.1 x.2) e).get? k = none := h
    split
    · rename_i hk
      have := keep e _ h'
      rw [Dict.get?_set] at this
      rw [if_pos hk] at this
      cases this
    · exact ih h'

theorem buildDecl_after {o : LoadOptions} {key : Key} {entry e' : PyVal} {decl : Dict}
    (hn : ∀ e, entry = .dict e → Dict.get? e (.str c!"callable") = none)
    (h : buildDecl o key entry = .ok (decl, e')) : e' = spent entry := by
  unfold buildDecl at h
  split at h
  · cases h
  · split at h
    · split at h
      · cases h; rfl
      · cases h
    · rename_i e
      simp only [spent]
      rw [if_pos (hn e rfl)]
      unfold dictDecl at h
      split at h
      · rename_i hu
        cases h
        exact congrArg PyVal.dict (filter_absent (get?_update_none hu)).symm
      · split at h
        · cases h
        · cases h; rfl
        · cases h
    · split at h
      · cases h; rfl
      · cases h
    · cases h
    · cases h

theorem declare_after {W : World} {o : LoadOptions} {key : Key} {entry e' : PyVal} {s : LState}
    (hn : ∀ e, entry = .dict e → Dict.get? e (.str c!"callable") = none)
    (h : (declareEntry W o key entry s).2 = .ok e') : e' = spent entry := by
  unfold declareEntry LM.bind LM.lift at h
  cases hb : buildDecl o key entry with
  | error e => rw [hb] at h; cases h
  | ok r =>
    rw [hb] at h
    simp only at h
    split at h
    · split at h
      · simp only [LM.pure] at h
        cases h
        exact buildDecl_after hn hb
      · cases h
    · cases h

theorem entry_after {W : World} {o : LoadOptions} {key : Key} {entry e' : PyVal} {s : LState}
    (h : (loadEntry W o key entry s).2 = .ok e') : e' = spent entry := by
  unfold loadEntry at h
  split at h
  · rename_i e
    cases hc : Dict.get? e kCallable with
    | none =>
      rw [hc] at h
      exact declare_after (by rintro x hx; cases hx; exact hc) h
    | some spec =>
      rw [hc] at h
      unfold LM.bind LM.pure at h
      simp only at h
      split at h
      · cases h
        simp only [spent]
        have hc' : Dict.get? e (.str c!"callable") = some spec := hc
        rw [hc', if_neg (by simp)]
        rfl
      · cases h
  · rename_i hnd
    exact declare_after (by intro e he; exact absurd he (hnd e)) h

theorem entries_after {W : World} {o : LoadOptions} {key : Key} : ∀ {es es' : List PyVal} {s : LState},
    (loadEntries W o key es s).2 = .ok es' → es' = es.map spent
  | [], es', s, h => by cases h; rfl
  | e :: es, es', s, h => by
    rw [loadEntries] at h
    unfold LM.bind LM.pure at h
    rcases h1 : loadEntry W o key e s with ⟨s1, r1⟩
    rw [h1] at h
    cases r1 with
    | error err => cases h
    | ok a =>
      simp only at h
      rcases h2 : loadEntries W o key es s1 with ⟨s2, r2⟩
      rw [h2] at h
      cases r2 with
      | error err => cases h
      | ok b =>
        cases h
        have i1 : a = spent e := entry_after (s := s) (by rw [h1])
        have i2 : b = es.map spent := entries_after (s := s1) (by rw [h2])
        rw [i1, i2]; rfl

theorem raw_after {W : World} {o : LoadOptions} {k : Key} {raw a : PyVal} {s : LState}
    (h : (loadRaw W o k raw s).2 = .ok a) : a = spentRaw raw := by
  cases raw with
  | list l =>
    rw [loadRaw] at h
    unfold LM.bind LM.pure at h
    rcases h3 : loadEntries W o k l s with ⟨s3, r3⟩
    rw [h3] at h
    cases r3 with
    | error err => cases h
    | ok c =>
      cases h
      have : c = l.map spent := entries_after (s := s) (by rw [h3])
      rw [this]; rfl
  | dict e => exact entry_after h
  | none => exact entry_after h
  | bool b => exact entry_after h
  | int b => exact entry_after h
  | str b => exact entry_after h
  | bytes b => exact entry_after h
  | other b => exact entry_after h

theorem items_after {W : World} {o : LoadOptions} : ∀ {d d' : Dict} {s : LState},
    (loadItems W o d s).2 = .ok d' → d' = spentConfig d
  | [], d', s, h => by cases h; rfl
  | (k, raw) :: rest, d', s, h => by
    rw [loadItems] at h
    unfold LM.bind LM.pure at h
    rcases h1 : loadRaw W o k raw s with ⟨s1, r1⟩
    rw [h1] at h
    cases r1 with
    | error err => cases h
    | ok a =>
      simp only at h
      rcases h2 : loadItems W o rest s1 with ⟨s2, r2⟩
      rw [h2] at h
      cases r2 with
      | error err => cases h
      | ok b =>
        cases h
        have i2 : b = spentConfig rest := items_after (s := s1) (by rw [h2])
        have i1 : a = spentRaw raw := raw_after (s := s) (by rw [h1])
        rw [i1, i2]; rfl

/-- **C100.** Loading changes the configuration it is given only by taking `callable` from function entries and the older
`pattern` key from the others. -/
theorem C100_leaves (W : World) (s : LState) (config : Dict) (o : Option LoadOptions) {out : Dict}
    (h : (loadConfigPatterns W (.dict config) o s).2 = .ok out) : out = spentConfig config :=
  items_after h

theorem spent_same {v : PyVal} (h : ∀ e, v = .dict e → Dict.get? e (.str c!"callable") = none ∧ Dict.get? e (.str c!"pattern") = none) :
    spent v = v := by
  unfold spent
  split
  · rename_i e
    obtain ⟨h1, h2⟩ := h e rfl
    rw [if_pos h1, filter_absent h2]
  · rfl

/-- **C100.** A configuration without function entries and without the older `pattern` key is left as it was, and loading it
again makes the same calls again. -/
theorem C100_again {W : World} (hW : PlainNames W) {s : LState} (hs : Loaded W s) (config : Dict) (o : Option LoadOptions)
    (hk : ∀ x ∈ entriesOf config, ∀ e, x.2 = .dict e → Dict.get? e (.str c!"callable") = none ∧ Dict.get? e (.str c!"pattern") = none)
    {out : Dict} (h : (loadConfigPatterns W (.dict config) o s).2 = .ok out) :
    out = config ∧ ∃ calls, (loadConfigPatterns W (.dict config) o s).1.calls = s.calls ++ calls ∧
      (loadConfigPatterns W (.dict out) o (loadConfigPatterns W (.dict config) o s).1).2 = .ok config ∧
      (loadConfigPatterns W (.dict out) o (loadConfigPatterns W (.dict config) o s).1).1.calls = s.calls ++ calls ++ calls := by
  have hsame : out = config := by
    rw [C100_leaves W s config o h]
    unfold spentConfig
    conv => rhs; rw [← List.map_id config]
    apply List.map_congr_left
    rintro ⟨k, v⟩ hv
    have mem : ∀ x ∈ rawEntries (k, v), x ∈ entriesOf config := fun x hx => List.mem_flatMap.2 ⟨(k, v), hv, hx⟩
    simp only [id]
    congr 1
    cases v with
    | list l =>
      simp only [spentRaw]
      congr 1
      conv => rhs; rw [← List.map_id l]
      apply List.map_congr_left
      intro x hx
      exact spent_same (hk (k, x) (mem _ (List.mem_map.2 ⟨x, hx, rfl⟩)))
    | dict e => exact spent_same (hk (k, .dict e) (mem _ (by simp [rawEntries])))
    | _ => rfl
  refine ⟨hsame, _, (C99_history hW hs (.dict config) o).2, ?_, ?_⟩
  · rw [hsame, (C99_history hW (.load (.dict config) o hs) (.dict config) o).1, ← (C99_history hW hs (.dict config) o).1, h, hsame]
  · rw [hsame, (C99_history hW (.load (.dict config) o hs) (.dict config) o).2, (C99_history hW hs (.dict config) o).2]

/-! ## Cases -/

/-- A module with a validator, the expression `int`, and functions that accept anything. -/
def demoWorld : World where
  importModule := fun m => if m = c!"guessit.rules.common.validators" then .ok (.other 1) else .error .importError
  attr := fun _ a => if a = c!"seps_surround" then .ok (.other 2) else .error .attributeError
  evaluate := fun t => if t = c!"int" then .ok (.other 3) else .error .typeError
  invoke := fun _ _ => .ok ()

theorem demoWorld_plain : PlainNames demoWorld := by
  constructor
  · intro m o h
    simp only [demoWorld] at h
    split at h
    · rename_i hm; subst hm; decide
    · cases h
  · intro x a o h
    simp only [demoWorld] at h
    split at h
    · rename_i hm; subst hm; decide
    · cases h

/-- A configuration in the style of the packaged one. -/
def demoConfig : Dict :=
  [(.str c!"_", .dict [(.str c!"regex", .str c!"x(\\d+)"), (.str c!"formatter", .str c!"eval:int"),
     (.str c!"validator", .dict [(.str c!"__parent__", .str c!"import:seps_surround")])]),
   (.str c!"Remux", .list [.str c!"Remux", .str c!"re:Re-?mux",
     .dict [(.str c!"string", .str c!"RMX"), (.str c!"regex", .list [.str c!"R-?M-?X"]), (.str c!"tags", .str c!"t")]])]

def demoOptions : LoadOptions := ⟨some [(.str c!"name", .str c!"other")], fun _ => none⟩

example : RealTables demoOptions demoConfig := by
  refine ⟨?_, ?_, ?_⟩
  · intro k d h
    cases h
  · intro d h
    cases h
    decide
  · intro e he d hd
    simp only [demoConfig, entriesOf, List.flatMap_cons, List.flatMap_nil, List.map_cons, List.map_nil, List.append_nil,
      List.mem_append, List.mem_cons, List.not_mem_nil, or_false] at he
    rcases he with rfl | rfl | rfl | rfl <;> cases hd <;> decide

/-- Its patterns are declared in order, code options replaced by what they stand for. -/
example : (loadConfigPatterns demoWorld (.dict demoConfig) (some demoOptions) ⟨[], []⟩).1.calls =
    [.declare .regex [.str c!"x(\\d+)"] [(.str c!"name", .str c!"other"), (.str c!"formatter", .other 3),
       (.str c!"validator", .dict [(.str c!"__parent__", .other 2)])],
     .declare .string [.str c!"Remux"] [(.str c!"name", .str c!"other"), (.str c!"value", .str c!"Remux")],
     .declare .regex [.str c!"Re-?mux"] [(.str c!"name", .str c!"other"), (.str c!"value", .str c!"Remux")],
     .declare .regex [.str c!"R-?M-?X"] [(.str c!"name", .str c!"other"), (.str c!"value", .str c!"Remux"), (.str c!"tags", .str c!"t")],
     .declare .string [.str c!"RMX"] [(.str c!"name", .str c!"other"), (.str c!"value", .str c!"Remux"), (.str c!"tags", .str c!"t")]] := by
  rfl

/-- **C100, counterexample.** A function entry and an older `pattern` entry are gone after the first load: loading the same
configuration object again succeeds and declares nothing. -/
theorem C100_counterexample : ∃ (config out : Dict) (s : LState), Loaded demoWorld s ∧
    s = (loadConfigPatterns demoWorld (.dict config) none ⟨[], []⟩).1 ∧
    (loadConfigPatterns demoWorld (.dict config) none ⟨[], []⟩).2 = .ok out ∧ s.calls.length = 2 ∧
    (∃ out', (loadConfigPatterns demoWorld (.dict out) none s).2 = .ok out') ∧
    (loadConfigPatterns demoWorld (.dict out) none s).1.calls = s.calls :=
  ⟨[(.str c!"_words", .dict [(.str c!"callable", .str c!"eval:int"), (.str c!"season_words", .list [])]),
    (.str c!"Fan", .dict [(.str c!"pattern", .str c!"re:fan-edit")])],
   [(.str c!"_words", .dict [(.str c!"season_words", .list [])]), (.str c!"Fan", .dict [])],
   _, .load _ none .start, rfl, rfl, rfl, ⟨_, rfl⟩, rfl⟩

/-- **C98, counterexample.** An entry with the older `pattern` key loses the list of patterns of the same kind, and the key
itself is passed on as an option. -/
theorem C98_counterexample_older : ∃ config : Dict,
    (loadConfigPatterns demoWorld (.dict config) none ⟨[], []⟩).1.calls =
      [.declare .regex [.str c!"a"] [(.str c!"value", .str c!"V"), (.str c!"pattern", .str c!"re:a")]] ∧
    Dict.get? config (.str c!"V") = some (.dict [(.str c!"regex", .list [.str c!"b", .str c!"c"]), (.str c!"pattern", .str c!"re:a")]) :=
  ⟨[(.str c!"V", .dict [(.str c!"regex", .list [.str c!"b", .str c!"c"]), (.str c!"pattern", .str c!"re:a")])], rfl, rfl⟩

end Guessit
