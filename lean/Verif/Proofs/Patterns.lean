import Verif.Spec.ConfigPatterns
import Verif.Proofs.Dict

/-!
# Lemmas about the pattern loader
-/

namespace Guessit

open Spec

/-! ## Texts -/

theorem afterPrefix_iff {p s r : Str} : afterPrefix p s = some r ↔ s = p ++ r := by
  unfold afterPrefix
  constructor
  · intro h
    split at h
    · rename_i hp
      obtain ⟨t, ht⟩ := List.isPrefixOf_iff_prefix.1 hp
      subst ht
      simp at h
      rw [h]
    · cases h
  · rintro rfl
    simp

theorem afterPrefix_none {p s : Str} : afterPrefix p s = none ↔ ∀ r, s ≠ p ++ r := by
  constructor
  · intro h r hr
    rw [afterPrefix_iff.2 hr] at h; cases h
  · intro h
    cases e : afterPrefix p s with
    | none => rfl
    | some r => exact absurd (afterPrefix_iff.1 e) (h r)

theorem rsplitColon_none : ∀ {s : Str}, rsplitColon s = none ↔ ':' ∉ s
  | [] => by simp [rsplitColon]
  | x :: xs => by
    unfold rsplitColon
    have ih := rsplitColon_none (s := xs)
    cases e : rsplitColon xs with
    | some p =>
      have h1 : ¬ ':' ∉ xs := fun h => by rw [ih.2 h] at e; cases e
      simp only [List.mem_cons]
      constructor
      · intro h; cases h
      · intro h; exact absurd (fun h' => h (.inr h')) h1
    | none =>
      have h1 := ih.1 e
      by_cases hx : x = ':'
      · simp [hx]
      · simp only [hx, if_false, List.mem_cons, true_iff]
        rintro (h | h)
        · exact hx h.symm
        · exact h1 h

theorem rsplitColon_iff : ∀ {s a b : Str}, rsplitColon s = some (a, b) ↔ s = a ++ ':' :: b ∧ ':' ∉ b
  | [], a, b => by simp [rsplitColon]
  | x :: xs, a, b => by
    unfold rsplitColon
    cases e : rsplitColon xs with
    | some p =>
      obtain ⟨a', b'⟩ := p
      obtain ⟨h1, h2⟩ := rsplitColon_iff.1 e
      constructor
      · intro h
        simp only [Option.some.injEq, Prod.mk.injEq] at h
        obtain ⟨rfl, rfl⟩ := h
        exact ⟨by rw [h1]; rfl, h2⟩
      · rintro ⟨h3, h4⟩
        cases a with
        | nil =>
          simp only [List.nil_append, List.cons.injEq] at h3
          exact absurd (by rw [← h3.2, h1]; simp) h4
        | cons y ys =>
          simp only [List.cons_append, List.cons.injEq] at h3
          have := rsplitColon_iff.2 ⟨h3.2, h4⟩
          rw [e] at this
          simp only [Option.some.injEq, Prod.mk.injEq] at this
          rw [h3.1, this.1, this.2]
    | none =>
      have h1 := rsplitColon_none.1 e
      by_cases hx : x = ':'
      · simp only [hx, if_true, Option.some.injEq, Prod.mk.injEq]
        constructor
        · rintro ⟨rfl, rfl⟩; exact ⟨rfl, h1⟩
        · rintro ⟨h3, _⟩
          cases a with
          | nil => simp only [List.nil_append, List.cons.injEq] at h3; exact ⟨rfl, h3.2⟩
          | cons y ys =>
            simp only [List.cons_append, List.cons.injEq] at h3
            exact absurd (by rw [h3.2]; simp) h1
      · simp only [hx, if_false]
        constructor
        · intro h; cases h
        · rintro ⟨h3, _⟩
          cases a with
          | nil => simp only [List.nil_append, List.cons.injEq] at h3; exact absurd h3.1 hx
          | cons y ys =>
            simp only [List.cons_append, List.cons.injEq] at h3
            exact absurd (by rw [h3.2]; simp) h1

theorem splitDots_ne : ∀ s, splitDots s ≠ []
  | [] => by simp [splitDots]
  | x :: xs => by
    unfold splitDots
    split
    · simp
    · split <;> simp

theorem splitDots_free : ∀ s, ∀ p ∈ splitDots s, '.' ∉ p
  | [] => by simp [splitDots]
  | x :: xs => by
    unfold splitDots
    have ih := splitDots_free xs
    split
    · intro p hp
      rcases List.mem_cons.1 hp with rfl | hp
      · simp
      · exact ih p hp
    · rename_i hx
      split
      · intro p hp
        simp only [List.mem_singleton] at hp
        subst hp
        simpa using fun h => hx h.symm
      · rename_i q qs he
        rw [he] at ih
        intro p hp
        rcases List.mem_cons.1 hp with rfl | hp
        · have := ih q (List.mem_cons_self ..)
          simp only [List.mem_cons, not_or]
          exact ⟨fun h => hx h.symm, this⟩
        · exact ih p (List.mem_cons_of_mem _ hp)

theorem intercalate_cons_cons (p q : Str) (ps : List Str) :
    List.intercalate ['.'] (p :: q :: ps) = p ++ '.' :: List.intercalate ['.'] (q :: ps) := by
  simp [List.intercalate]

theorem splitDots_join : ∀ s, List.intercalate ['.'] (splitDots s) = s
  | [] => by simp [splitDots, List.intercalate]
  | x :: xs => by
    unfold splitDots
    have ih := splitDots_join xs
    have hne := splitDots_ne xs
    cases e : splitDots xs with
    | nil => exact absurd e hne
    | cons p ps =>
      rw [e] at ih
      split
      · rename_i hx
        rw [intercalate_cons_cons, ih, hx]; rfl
      · dsimp only
        cases ps with
        | nil =>
          simp [List.intercalate] at ih ⊢
          exact ih
        | cons q qs =>
          rw [intercalate_cons_cons] at ih ⊢
          rw [← ih]; rfl

theorem splitDots_plain : ∀ {s : Str}, '.' ∉ s → splitDots s = [s]
  | [], _ => rfl
  | x :: xs, h => by
    simp only [List.mem_cons, not_or] at h
    unfold splitDots
    rw [if_neg (fun e => h.1 e.symm), splitDots_plain h.2]

theorem splitDots_append : ∀ {p s : Str}, '.' ∉ p → splitDots (p ++ '.' :: s) = p :: splitDots s
  | [], s, _ => by rw [List.nil_append, splitDots, if_pos rfl]
  | x :: xs, s, h => by
    simp only [List.mem_cons, not_or] at h
    rw [List.cons_append, splitDots, if_neg (fun e => h.1 e.symm), splitDots_append h.2]

theorem splitDots_unique : ∀ {parts : List Str}, parts ≠ [] → (∀ p ∈ parts, '.' ∉ p) →
    splitDots (List.intercalate ['.'] parts) = parts
  | [], h, _ => absurd rfl h
  | [p], _, h => by
    have : List.intercalate ['.'] [p] = p := by simp [List.intercalate]
    rw [this, splitDots_plain (h p (List.mem_cons_self ..))]
  | p :: q :: ps, _, h => by
    rw [intercalate_cons_cons, splitDots_append (h p (List.mem_cons_self ..)),
      splitDots_unique (by simp) (fun x hx => h x (List.mem_cons_of_mem _ hx))]

theorem mem_intercalate {c : Char} (hc : c ≠ '.') : ∀ {parts : List Str},
    c ∈ List.intercalate ['.'] parts ↔ ∃ p ∈ parts, c ∈ p
  | [] => by simp [List.intercalate]
  | [p] => by simp [List.intercalate]
  | p :: q :: ps => by
    rw [intercalate_cons_cons, List.mem_append, List.mem_cons, mem_intercalate hc]
    constructor
    · rintro (h | h | ⟨x, hx, h⟩)
      · exact ⟨p, by simp, h⟩
      · exact absurd h hc
      · exact ⟨x, List.mem_cons_of_mem _ hx, h⟩
    · rintro ⟨x, hx, h⟩
      rcases List.mem_cons.1 hx with rfl | hx
      · exact .inl h
      · exact .inr (.inr ⟨x, hx, h⟩)

/-! ## References -/

theorem attrPath_iff {W : World} : ∀ {as : List Str} {x o : PyVal}, attrPath W x as = .ok o ↔ Reaches W x as o
  | [], x, o => by
    unfold attrPath
    constructor
    · intro h; cases h; exact .here _
    · intro h; cases h; rfl
  | a :: as, x, o => by
    unfold attrPath
    cases e : W.attr x a with
    | error err =>
      simp only [reduceCtorEq, false_iff]
      intro h; cases h with
      | step h1 _ => rw [e] at h1; cases h1
    | ok y =>
      simp only
      rw [attrPath_iff]
      constructor
      · exact fun h => .step e h
      · intro h; cases h with
        | step h1 h2 => rw [e] at h1; cases h1; exact h2

theorem fetch_iff {W : World} {m t : Str} {o : PyVal} :
    fetch W m t = .ok o ↔ ∃ mod, W.importModule m = .ok mod ∧ Reaches W mod (splitDots t) o := by
  unfold fetch
  cases e : W.importModule m with
  | error err => simp
  | ok mod => simp [attrPath_iff]

theorem fetch_plain {W : World} (hW : PlainNames W) {m t : Str} {o : PyVal} (h : fetch W m t = .ok o) :
    ':' ∉ m ∧ ':' ∉ t := by
  obtain ⟨mod, h1, h2⟩ := fetch_iff.1 h
  refine ⟨hW.1 _ _ h1, ?_⟩
  rw [← splitDots_join t, mem_intercalate (by decide)]
  have : ∀ {x : PyVal} {as : List Str} {o : PyVal}, Reaches W x as o → ∀ p ∈ as, ':' ∉ p := by
    intro x as o hr
    induction hr with
    | here => intro p hp; cases hp
    | step ha _ ih =>
      intro p hp
      rcases List.mem_cons.1 hp with rfl | hp
      · exact hW.2 _ _ _ ha
      · exact ih p hp
  rintro ⟨p, hp, hc⟩
  exact this h2 p hp hc

theorem refers_iff {W : World} {d : Option Str} {v : Str} {o : PyVal} :
    Refers W d v o ↔ ∃ m t, refParts v d = .ok (m, t) ∧ fetch W m t = .ok o := by
  unfold Refers refParts
  constructor
  · rintro ⟨m, parts, mod, h1, h2, h3, h4, h5⟩
    refine ⟨m, List.intercalate ['.'] parts, ?_, fetch_iff.2 ⟨mod, h4, by rwa [splitDots_unique h2 h3]⟩⟩
    split at h1
    · rename_i hd
      rw [if_pos hd, rsplitColon_iff.2 ⟨h1.1, by rw [mem_intercalate (by decide)]; rintro ⟨p, hp, hc⟩; exact h1.2 p hp hc⟩]
    · rename_i hd
      rw [if_neg hd, h1.1, h1.2]
  · rintro ⟨m, t, h1, h2⟩
    obtain ⟨mod, h3, h4⟩ := fetch_iff.1 h2
    refine ⟨m, splitDots t, mod, ?_, splitDots_ne t, splitDots_free t, h3, h4⟩
    rw [splitDots_join]
    split at h1
    · rename_i hd
      rw [if_pos hd]
      cases e : rsplitColon v with
      | none => rw [e] at h1; cases h1
      | some p =>
        rw [e] at h1
        cases h1
        obtain ⟨h5, h6⟩ := rsplitColon_iff.1 e
        refine ⟨h5, fun p hp hc => h6 ?_⟩
        rw [← splitDots_join t, mem_intercalate (by decide)]
        exact ⟨p, hp, hc⟩
    · rename_i hd
      rw [if_neg hd]
      cases d with
      | none => cases h1
      | some m' => cases h1; exact ⟨rfl, rfl⟩

/-! ## The cache -/

/-- Every cached object is what its key refers to. -/
def CacheOk (W : World) (c : List (Str × PyVal)) : Prop :=
  ∀ key o, List.lookup key c = some o → ∃ m t, key = m ++ c!":" ++ t ∧ ':' ∉ m ∧ ':' ∉ t ∧ fetch W m t = .ok o

theorem colon_split {m t m' t' : Str} (hm : ':' ∉ m) (ht : ':' ∉ t) (h : m' ++ c!":" ++ t' = m ++ c!":" ++ t) :
    m' = m ∧ t' = t := by
  have e1 : m ++ ':' :: t = m' ++ ':' :: t' := by simpa using h.symm
  by_cases ht' : ':' ∈ t'
  · have h0 : ∀ {a b x y : Str}, ':' ∉ a → a ++ ':' :: b = x ++ ':' :: y → a.length ≤ x.length := by
      intro a b x y ha he
      by_cases hl : a.length ≤ x.length
      · exact hl
      · exfalso
        have h1 : (a ++ ':' :: b)[x.length]? = some ':' := by rw [he]; simp
        rw [List.getElem?_append_left (by omega)] at h1
        exact ha (List.mem_of_getElem? h1)
    have hl := h0 hm e1
    have hc : (m ++ ':' :: t).count ':' = 1 := by
      simp [List.count_append, List.count_cons, List.count_eq_zero.2 hm, List.count_eq_zero.2 ht]
    have hc' : (m' ++ ':' :: t').count ':' ≥ 2 := by
      have := List.count_pos_iff.2 ht'
      simp [List.count_append, List.count_cons]; omega
    rw [e1] at hc; omega
  · have h1 := (rsplitColon_iff (s := m ++ ':' :: t)).2 ⟨rfl, ht⟩
    have h2 := (rsplitColon_iff (s := m ++ ':' :: t)).2 ⟨e1, ht'⟩
    rw [h1] at h2
    simp only [Option.some.injEq, Prod.mk.injEq] at h2
    exact ⟨h2.1.symm, h2.2.symm⟩

/-- A reference resolved without a cache. -/
def directRef (W : World) (v : Str) (d : Option Str) : Except PyErr PyVal := match refParts v d with
  | .error e => .error e
  | .ok (m, t) => fetch W m t

theorem importRef_spec {W : World} (hW : PlainNames W) (v : Str) (d : Option Str) (s : LState) (hs : CacheOk W s.cache) :
    (importRef W v d s).2 = directRef W v d ∧ (importRef W v d s).1.calls = s.calls ∧
      CacheOk W (importRef W v d s).1.cache := by
  unfold importRef directRef
  cases e : refParts v d with
  | error err => exact ⟨rfl, rfl, hs⟩
  | ok p =>
    obtain ⟨m, t⟩ := p
    simp only
    cases el : List.lookup (m ++ c!":" ++ t) s.cache with
    | some o =>
      obtain ⟨m', t', h1, h2, h3, h4⟩ := hs _ _ el
      obtain ⟨rfl, rfl⟩ := colon_split h2 h3 h1
      exact ⟨h4.symm, rfl, hs⟩
    | none =>
      simp only
      cases ef : fetch W m t with
      | error err => exact ⟨rfl, rfl, hs⟩
      | ok o =>
        refine ⟨rfl, rfl, ?_⟩
        intro key o' hk
        simp only [List.lookup_cons] at hk
        split at hk
        · rename_i hb
          cases hk
          have := fetch_plain hW ef
          exact ⟨m, t, by simpa using hb, this.1, this.2, ef⟩
        · exact hs _ _ hk

/-! ## Computations that depend on the past only through a sound cache -/

/-- The state of a fresh process. -/
def LState.fresh : LState := ⟨[], []⟩

theorem cacheOk_nil (W : World) : CacheOk W [] := by intro k o h; cases h

/-- The computation gives the same result and makes the same calls as in a fresh process. -/
def Steady (W : World) {α : Type} (x : LM α) : Prop := ∀ s, CacheOk W s.cache →
  (x s).2 = (x .fresh).2 ∧ (x s).1.calls = s.calls ++ (x .fresh).1.calls ∧ CacheOk W (x s).1.cache

theorem steady_pure {W : World} {α : Type} (a : α) : Steady W (LM.pure a) := by
  intro s hs; exact ⟨rfl, by simp [LM.pure, LState.fresh], hs⟩

theorem steady_raise {W : World} {α : Type} (e : PyErr) : Steady W (LM.raise (α := α) e) := by
  intro s hs; exact ⟨rfl, by simp [LM.raise, LState.fresh], hs⟩

theorem steady_lift {W : World} {α : Type} (e : Except PyErr α) : Steady W (LM.lift e) := by
  intro s hs; exact ⟨rfl, by simp [LM.lift, LState.fresh], hs⟩

theorem steady_call {W : World} (c : PCall) : Steady W (LM.call c) := by
  intro s hs; exact ⟨rfl, by simp [LM.call, LState.fresh], hs⟩

theorem steady_bind {W : World} {α β : Type} {x : LM α} {f : α → LM β} (hx : Steady W x) (hf : ∀ a, Steady W (f a)) :
    Steady W (LM.bind x f) := by
  intro s hs
  obtain ⟨h1, h2, h3⟩ := hx s hs
  obtain ⟨_, _, h6⟩ := hx .fresh (cacheOk_nil W)
  unfold LM.bind
  rcases ex : x s with ⟨s1, r1⟩
  rcases ef : x .fresh with ⟨s0, r0⟩
  rw [ex, ef] at h1 h2
  rw [ex] at h3
  rw [ef] at h6
  simp only at h1 h2 h3 h6
  subst h1
  cases r1 with
  | error e => exact ⟨rfl, h2, h3⟩
  | ok a =>
    obtain ⟨g1, g2, g3⟩ := hf a s1 h3
    obtain ⟨k1, k2, _⟩ := hf a s0 h6
    refine ⟨?_, ?_, g3⟩
    · show (f a s1).2 = (f a s0).2
      rw [g1, k1]
    · show (f a s1).1.calls = s.calls ++ (f a s0).1.calls
      rw [g2, k2, h2, List.append_assoc]

theorem steady_import {W : World} (hW : PlainNames W) (v : Str) (d : Option Str) : Steady W (importRef W v d) := by
  intro s hs
  obtain ⟨h1, h2, h3⟩ := importRef_spec hW v d s hs
  obtain ⟨g1, g2, _⟩ := importRef_spec hW v d .fresh (cacheOk_nil W)
  exact ⟨by rw [h1, g1], by rw [h2, g2]; simp [LState.fresh], h3⟩

theorem steady_exec {W : World} (hW : PlainNames W) (d : Option Str) (v : PyVal) : Steady W (processExec W d v) := by
  unfold processExec
  split
  · split
    · exact steady_import hW _ _
    · split
      · exact steady_lift _
      · split
        · exact steady_lift _
        · exact steady_pure _
  · exact steady_raise _
  · exact steady_raise _

mutual
theorem steady_code {W : World} (hW : PlainNames W) (d : Option Str) : ∀ v : PyVal, Steady W (processCode W d v)
  | .dict kvs => by rw [processCode]; exact steady_bind (steady_items hW d kvs) fun _ => steady_pure _
  | .none => by rw [processCode]; exact steady_pure _
  | .bool b => by rw [processCode] <;> first | exact steady_exec hW d _ | simp
  | .int b => by rw [processCode] <;> first | exact steady_exec hW d _ | simp
  | .str b => by rw [processCode] <;> first | exact steady_exec hW d _ | simp
  | .bytes b => by rw [processCode] <;> first | exact steady_exec hW d _ | simp
  | .other b => by rw [processCode] <;> first | exact steady_exec hW d _ | simp
  | .list b => by rw [processCode] <;> first | exact steady_exec hW d _ | simp
theorem steady_items {W : World} (hW : PlainNames W) (d : Option Str) : ∀ kvs : List (Key × PyVal), Steady W (processItems W d kvs)
  | [] => by rw [processItems]; exact steady_pure _
  | e :: rest => by
    rw [processItems]
    exact steady_bind (steady_item hW d e) fun _ => steady_bind (steady_items hW d rest) fun _ => steady_pure _
theorem steady_item {W : World} (hW : PlainNames W) (d : Option Str) : ∀ e : Key × PyVal, Steady W (processItem W d e)
  | (k, v) => by rw [processItem]; exact steady_bind (steady_code hW d v) fun _ => steady_pure _
end

theorem steady_option {W : World} (hW : PlainNames W) (k : Key) (v : PyVal) : Steady W (processOption W k v) := by
  unfold processOption
  split
  · exact steady_code hW _ v
  · exact steady_pure _

theorem steady_options {W : World} (hW : PlainNames W) : ∀ d : Dict, Steady W (processOptions W d)
  | [] => steady_pure _
  | (k, v) :: rest =>
    steady_bind (steady_option hW k v) fun _ => steady_bind (steady_options hW rest) fun _ => steady_pure _

theorem steady_patterns {W : World} (hW : PlainNames W) (k : PatKind) (ps : List PyVal) (o : LoadOptions) :
    Steady W (loadPatterns W k ps o) := by
  refine steady_bind (steady_options hW _) fun opts => ?_
  split
  · exact steady_call _
  · exact steady_raise _

theorem steady_kind {W : World} (hW : PlainNames W) (o : LoadOptions) (d : Dict) (k : PatKind) : Steady W (loadKind W o d k) := by
  unfold loadKind
  split
  · exact steady_patterns hW _ _ _
  · exact steady_pure _

theorem steady_callEntry {W : World} (hW : PlainNames W) (v : PyVal) (e : Dict) : Steady W (callEntry W v e) := by
  refine steady_bind (steady_exec hW _ _) fun f => ?_
  split
  · exact steady_bind (steady_call _) fun _ => steady_lift _
  · exact steady_raise _

theorem steady_declare {W : World} (hW : PlainNames W) (o : LoadOptions) (k : Key) (e : PyVal) : Steady W (declareEntry W o k e) :=
  steady_bind (steady_lift _) fun _ => steady_bind (steady_kind hW _ _ _) fun _ =>
    steady_bind (steady_kind hW _ _ _) fun _ => steady_pure _

theorem steady_entry {W : World} (hW : PlainNames W) (o : LoadOptions) (k : Key) (e : PyVal) : Steady W (loadEntry W o k e) := by
  unfold loadEntry
  split
  · split
    · exact steady_bind (steady_callEntry hW _ _) fun _ => steady_pure _
    · exact steady_declare hW _ _ _
  · exact steady_declare hW _ _ _

theorem steady_entries {W : World} (hW : PlainNames W) (o : LoadOptions) (k : Key) : ∀ es, Steady W (loadEntries W o k es)
  | [] => steady_pure _
  | e :: es => steady_bind (steady_entry hW o k e) fun _ => steady_bind (steady_entries hW o k es) fun _ => steady_pure _

theorem steady_raw {W : World} (hW : PlainNames W) (o : LoadOptions) (k : Key) (r : PyVal) : Steady W (loadRaw W o k r) := by
  unfold loadRaw
  split
  · exact steady_bind (steady_entries hW o k _) fun _ => steady_pure _
  · exact steady_entry hW o k _

theorem steady_loadItems {W : World} (hW : PlainNames W) (o : LoadOptions) : ∀ d, Steady W (loadItems W o d)
  | [] => steady_pure _
  | (k, r) :: rest => steady_bind (steady_raw hW o k r) fun _ => steady_bind (steady_loadItems hW o rest) fun _ => steady_pure _

theorem steady_config {W : World} (hW : PlainNames W) (c : PyVal) (o : Option LoadOptions) :
    Steady W (loadConfigPatterns W c o) := by
  unfold loadConfigPatterns
  split
  · exact steady_loadItems hW _ _
  · exact steady_raise _

end Guessit
