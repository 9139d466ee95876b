import Verif.Proofs.Captures

/-! # What the groups of an expression, and of a chain of them, may capture -/

namespace Guessit
open Spec Re

variable {s : Str} {n : Nat} {Q : Nat → Nat → Prop}

/-- What the group `n` of the expression captures satisfies `Q`. -/
def Re.Marks (s : Str) (n : Nat) (Q : Nat → Nat → Prop) (r : Re) : Prop :=
  ∀ (i j : Nat) (c c' : Caps), (j, c') ∈ r.exec s i c → i ≤ s.length → ∀ a b, (n, (a, b)) ∈ c' → (n, (a, b)) ∈ c ∨ Q a b

theorem marks_none {r : Re} (h : n ∉ r.groupNos) : r.Marks s n Q := by
  intro i j c c' he hi a b hab
  rcases (exec_within r he hi).2.2 _ hab with h' | ⟨h', _⟩
  · exact Or.inl h'
  · exact absurd h' h

theorem marks_seq {a b : Re} (ha : a.Marks s n Q) (hb : b.Marks s n Q) : (Re.seq a b).Marks s n Q := by
  intro i j c c' he hi x y hxy
  obtain ⟨k, c1, h1, h2⟩ := mem_seq.1 he
  rcases hb _ _ _ _ h2 (exec_within a h1 hi).2.1 x y hxy with h | h
  · exact ha _ _ _ _ h1 hi x y h
  · exact Or.inr h

theorem marks_alt {a b : Re} (ha : a.Marks s n Q) (hb : b.Marks s n Q) : (Re.alt a b).Marks s n Q := by
  intro i j c c' he hi x y hxy
  rcases mem_alt.1 he with h | h
  · exact ha _ _ _ _ h hi x y hxy
  · exact hb _ _ _ _ h hi x y hxy

theorem marks_repExec {r : Re} (hr : r.Marks s n Q) : ∀ (f m : Nat) {i j : Nat} {c c' : Caps}, (j, c') ∈ repExec (r.exec s) f m i c → i ≤ s.length →
    ∀ a b, (n, (a, b)) ∈ c' → (n, (a, b)) ∈ c ∨ Q a b := by
  intro f
  induction f with
  | zero =>
    intro m i j c c' h hi a b hab
    simp only [repExec] at h
    split at h
    · simp only [List.mem_singleton, Prod.mk.injEq] at h
      obtain ⟨rfl, rfl⟩ := h
      exact Or.inl hab
    · simp at h
  | succ f ih =>
    intro m i j c c' h hi a b hab
    simp only [repExec, List.mem_append, List.mem_flatMap, List.mem_filter] at h
    rcases h with ⟨⟨k, c1⟩, ⟨h1, _⟩, h2⟩ | h
    · rcases ih (m - 1) h2 (exec_within r h1 hi).2.1 a b hab with h | h
      · exact hr _ _ _ _ h1 hi a b h
      · exact Or.inr h
    · split at h
      · simp only [List.mem_singleton, Prod.mk.injEq] at h
        obtain ⟨rfl, rfl⟩ := h
        exact Or.inl hab
      · simp at h

theorem marks_rep {r : Re} (hr : r.Marks s n Q) (m : Nat) (M : Option Nat) : (Re.rep r m M).Marks s n Q := by
  intro i j c c' h hi
  exact marks_repExec hr _ _ h hi

theorem marks_cat : ∀ {rs : List Re}, (∀ r ∈ rs, r.Marks s n Q) → (Re.cat rs).Marks s n Q
  | [], _ => marks_none (by simp [Re.cat, Re.groupNos])
  | _ :: _, h => marks_seq (h _ List.mem_cons_self) (marks_cat fun r hr => h r (List.mem_cons_of_mem _ hr))

/-- What the group captures in a match of the expression. -/
theorem marks_at {r : Re} (hr : r.Marks s n Q) {i j a b : Nat} {c : Caps} (h : r.matchAt s i = some (j, c)) (hi : i ≤ s.length) (hl : c.lookup n = some (a, b)) : Q a b := by
  rcases hr _ _ _ _ (matchAt_mem h) hi a b (lookup_in hl) with h | h
  · simp at h
  · exact h

/-! ### Chains -/

/-- The match is one of an expression of the list. -/
def HitOf (s : Str) (ps : List ChainPart) (h : RxHit) : Prop := ∃ p ∈ ps, h.start ≤ s.length ∧ p.re.matchAt s h.start = some (h.stop, h.caps)

theorem HitOf.mono {ps qs : List ChainPart} {h : RxHit} (hh : HitOf s ps h) (hsub : ∀ p ∈ ps, p ∈ qs) : HitOf s qs h :=
  hh.imp fun _ hp => ⟨hsub _ hp.1, hp.2⟩

theorem marked_run_of {p : ChainPart} : ∀ (f : Nat) {i : Nat}, i ≤ s.length → ∀ h ∈ p.re.run s f i, HitOf s [p] h
  | 0, i, hi => by simp [Re.run]
  | f + 1, i, hi => by
    rw [Re.run]
    cases hm : p.re.matchAt s i with
    | none => simp
    | some x =>
      obtain ⟨j, c⟩ := x
      intro h hh
      rcases List.mem_cons.1 hh with rfl | hh
      · exact ⟨p, List.mem_singleton_self _, hi, hm⟩
      · exact marked_run_of f (matchAt_in hm hi).stop h hh

theorem marked_tail_of : ∀ (ps : List ChainPart) {i : Nat}, i ≤ s.length → ∀ h ∈ chainTail s ps i, HitOf s ps h
  | [], _, _ => by simp [chainTail]
  | p :: ps, i, hi => by
    intro h hh
    rw [chainTail] at hh
    rcases List.mem_append.1 hh with hh | hh
    · exact (marked_run_of _ hi h hh).mono fun q hq => by
        rw [List.mem_singleton] at hq
        exact hq ▸ List.mem_cons_self
    · exact (marked_tail_of ps (run_in (r := p.re) (p.max.getD s.length) hi).2 h hh).mono fun q hq => List.mem_cons_of_mem _ hq

theorem marked_chain_of {first : ChainPart} {rest : List ChainPart} {a b : Nat} {c : Caps} (hm : first.re.matchAt s a = some (b, c)) (ha : a ≤ s.length) :
    ∀ h ∈ chainOf s first rest ⟨a, b, c⟩, HitOf s (first :: rest) h := by
  have h0 := matchAt_in hm ha
  intro h hh
  rw [chainOf] at hh
  rcases List.mem_append.1 hh with hh | hh
  · rcases List.mem_cons.1 hh with rfl | hh
    · exact ⟨first, List.mem_cons_self, ha, hm⟩
    · exact (marked_run_of _ h0.stop h hh).mono fun q hq => by
        rw [List.mem_singleton] at hq
        exact hq ▸ List.mem_cons_self
  · exact (marked_tail_of rest (run_in (r := first.re) (first.max.getD s.length - 1) h0.stop).2 h hh).mono fun q hq => List.mem_cons_of_mem _ hq

theorem marked_from_of {first : ChainPart} {rest : List ChainPart} : ∀ (f i : Nat), ∀ hs ∈ chainsFrom s first rest f i,
    ∀ h ∈ hs, HitOf s (first :: rest) h
  | 0, _ => by simp [chainsFrom]
  | f + 1, i => by
    intro hs hhs
    rw [chainsFrom] at hhs
    split at hhs
    · split at hhs
      · simp at hhs
      · rename_i hi _ a b c hsf
        obtain ⟨g1, g2, g3, _⟩ := searchFrom_some hsf
        rcases List.mem_cons.1 hhs with rfl | hhs
        · exact marked_chain_of g1 (by omega)
        · exact marked_from_of f _ hs hhs
    · simp at hhs

theorem marked_chains_of {first : ChainPart} {rest : List ChainPart} : ∀ hs ∈ chains s first rest, ∀ h ∈ hs, HitOf s (first :: rest) h :=
  marked_from_of _ _

/-- The group captures what it may. -/
def MarkedBy (n : Nat) (Q : Nat → Nat → Prop) (h : RxHit) : Prop := ∀ a b, h.caps.lookup n = some (a, b) → Q a b

theorem HitOf.marked {ps : List ChainPart} {h : RxHit} (hh : HitOf s ps h) (hp : ∀ p ∈ ps, p.re.Marks s n Q) : MarkedBy n Q h := by
  obtain ⟨p, hmem, hi, hm⟩ := hh
  exact fun a b hl => marks_at (hp p hmem) hm hi hl

end Guessit
