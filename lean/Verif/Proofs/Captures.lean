import Verif.Proofs.Recognise
import Verif.Model.Chain

/-! # Where a regular expression matches, and which groups take part -/

namespace Guessit
open Spec Re

/-- The numbers of the groups of an expression. -/
def Re.groupNos : Re → List Nat
  | .seq a b => a.groupNos ++ b.groupNos
  | .alt a b => a.groupNos ++ b.groupNos
  | .rep r _ _ => r.groupNos
  | .grp n r => n :: r.groupNos
  | .look r => r.groupNos
  | _ => []

/-- Captures that a match from `i` may add to `c`. -/
def CapsFrom (s : Str) (ns : List Nat) (i : Nat) (c c' : Caps) : Prop :=
  ∀ g ∈ c', g ∈ c ∨ (g.1 ∈ ns ∧ i ≤ g.2.1 ∧ g.2.1 ≤ g.2.2 ∧ g.2.2 ≤ s.length)

theorem CapsFrom.refl {s : Str} {ns : List Nat} {i : Nat} {c : Caps} : CapsFrom s ns i c c := fun _ h => Or.inl h

theorem CapsFrom.trans {s : Str} {ns ms : List Nat} {i k : Nat} {c c1 c2 : Caps} (h : CapsFrom s ns i c c1) (hik : i ≤ k) (h2 : CapsFrom s ms k c1 c2)
    {ls : List Nat} (hn : ∀ n ∈ ns, n ∈ ls) (hm : ∀ n ∈ ms, n ∈ ls) : CapsFrom s ls i c c2 := by
  intro g hg
  rcases h2 g hg with h3 | ⟨h3, h4, h5, h6⟩
  · rcases h g h3 with h4 | ⟨h4, h5⟩
    · exact Or.inl h4
    · exact Or.inr ⟨hn _ h4, h5⟩
  · exact Or.inr ⟨hm _ h3, by omega, h5, h6⟩

theorem repExec_within {s : Str} {ns : List Nat} {step : Nat → Caps → List (Nat × Caps)}
    (hs : ∀ {i c j c'}, (j, c') ∈ step i c → i ≤ s.length → i ≤ j ∧ j ≤ s.length ∧ CapsFrom s ns i c c') :
    ∀ (f m : Nat) {i j : Nat} {c c' : Caps}, (j, c') ∈ repExec step f m i c → i ≤ s.length → i ≤ j ∧ j ≤ s.length ∧ CapsFrom s ns i c c' := by
  intro f
  induction f with
  | zero =>
    intro m i j c c' h hi
    simp only [repExec] at h
    split at h
    · simp only [List.mem_singleton, Prod.mk.injEq] at h
      obtain ⟨rfl, rfl⟩ := h
      exact ⟨Nat.le_refl _, hi, CapsFrom.refl⟩
    · simp at h
  | succ f ih =>
    intro m i j c c' h hi
    simp only [repExec, List.mem_append, List.mem_flatMap, List.mem_filter] at h
    rcases h with ⟨⟨k, c1⟩, ⟨h1, _⟩, h2⟩ | h
    · obtain ⟨a1, a2, a3⟩ := hs h1 hi
      obtain ⟨b1, b2, b3⟩ := ih (m - 1) h2 a2
      exact ⟨Nat.le_trans a1 b1, b2, a3.trans a1 b3 (fun _ h => h) fun _ h => h⟩
    · split at h
      · simp only [List.mem_singleton, Prod.mk.injEq] at h
        obtain ⟨rfl, rfl⟩ := h
        exact ⟨Nat.le_refl _, hi, CapsFrom.refl⟩
      · simp at h

/-- A match is a stretch of the text, and what it captures are stretches of the text with the numbers of its groups. -/
theorem exec_within {s : Str} (r : Re) : ∀ {i j : Nat} {c c' : Caps}, (j, c') ∈ r.exec s i c → i ≤ s.length →
    i ≤ j ∧ j ≤ s.length ∧ CapsFrom s r.groupNos i c c' := by
  induction r with
  | eps =>
    intro i j c c' h hi
    obtain ⟨rfl, rfl⟩ := mem_eps.1 h
    exact ⟨Nat.le_refl _, hi, CapsFrom.refl⟩
  | fail => intro i j c c' h; simp [exec] at h
  | chr p =>
    intro i j c c' h hi
    obtain ⟨⟨x, hx, _⟩, rfl, rfl⟩ := mem_chr.1 h
    exact ⟨Nat.le_succ _, (List.getElem?_eq_some_iff.1 hx).1, CapsFrom.refl⟩
  | seq a b iha ihb =>
    intro i j c c' h hi
    obtain ⟨k, c1, h1, h2⟩ := mem_seq.1 h
    obtain ⟨a1, a2, a3⟩ := iha h1 hi
    obtain ⟨b1, b2, b3⟩ := ihb h2 a2
    exact ⟨Nat.le_trans a1 b1, b2, a3.trans a1 b3 (fun _ h => List.mem_append_left _ h) fun _ h => List.mem_append_right _ h⟩
  | alt a b iha ihb =>
    intro i j c c' h hi
    rcases mem_alt.1 h with h | h
    · obtain ⟨a1, a2, a3⟩ := iha h hi
      exact ⟨a1, a2, (CapsFrom.refl (ns := [])).trans (Nat.le_refl _) a3 (by simp) fun _ h => List.mem_append_left _ h⟩
    · obtain ⟨a1, a2, a3⟩ := ihb h hi
      exact ⟨a1, a2, (CapsFrom.refl (ns := [])).trans (Nat.le_refl _) a3 (by simp) fun _ h => List.mem_append_right _ h⟩
  | rep r m M ih =>
    intro i j c c' h hi
    exact repExec_within ih _ _ h hi
  | grp n r ih =>
    intro i j c c' h hi
    obtain ⟨c1, h1, rfl⟩ := mem_grp.1 h
    obtain ⟨a1, a2, a3⟩ := ih h1 hi
    refine ⟨a1, a2, fun g hg => ?_⟩
    rcases List.mem_cons.1 hg with rfl | hg
    · exact Or.inr ⟨List.mem_cons_self, Nat.le_refl _, a1, a2⟩
    · rcases a3 g hg with h | ⟨h, h2⟩
      · exact Or.inl h
      · exact Or.inr ⟨List.mem_cons_of_mem _ h, h2⟩
  | look r ih =>
    intro i j c c' h hi
    obtain ⟨rfl, k, h1⟩ := mem_look h
    exact ⟨Nat.le_refl _, hi, (ih h1 hi).2.2⟩
  | bol =>
    intro i j c c' h hi
    obtain ⟨_, rfl, rfl⟩ := mem_bol.1 h
    exact ⟨Nat.le_refl _, hi, CapsFrom.refl⟩
  | eol =>
    intro i j c c' h hi
    obtain ⟨_, rfl, rfl⟩ := mem_eol.1 h
    exact ⟨Nat.le_refl _, hi, CapsFrom.refl⟩

/-- A match object is a stretch of the text, and so are its groups. -/
structure HitIn (s : Str) (ns : List Nat) (h : RxHit) : Prop where
  le : h.start ≤ h.stop
  stop : h.stop ≤ s.length
  groups : ∀ g ∈ h.caps, g.1 ∈ ns ∧ g.2.1 ≤ g.2.2 ∧ g.2.2 ≤ s.length

theorem HitIn.mono {s : Str} {ns ms : List Nat} {h : RxHit} (hh : HitIn s ns h) (hn : ∀ n ∈ ns, n ∈ ms) : HitIn s ms h :=
  ⟨hh.le, hh.stop, fun g hg => ⟨hn _ (hh.groups g hg).1, (hh.groups g hg).2⟩⟩

theorem matchAt_in {r : Re} {s : Str} {i j : Nat} {c : Caps} (h : r.matchAt s i = some (j, c)) (hi : i ≤ s.length) : HitIn s r.groupNos ⟨i, j, c⟩ := by
  obtain ⟨a, b, d⟩ := exec_within r (matchAt_mem h) hi
  refine ⟨a, b, fun g hg => ?_⟩
  rcases d g hg with h | ⟨h1, h2, h3, h4⟩
  · simp at h
  · exact ⟨h1, h3, h4⟩

theorem hits_in {r : Re} {s : Str} {h : RxHit} (hh : h ∈ r.hits s) : HitIn s r.groupNos h := matchAt_in (hits_sound hh).1 (hits_sound hh).2

theorem lookup_in {β : Type} : ∀ {l : List (Nat × β)} {n : Nat} {v : β}, l.lookup n = some v → (n, v) ∈ l
  | [], _, _, h => by simp at h
  | (k, w) :: l, n, v, h => by
    rw [List.lookup_cons] at h
    split at h
    · rename_i hk
      cases h
      rw [beq_iff_eq] at hk
      subst hk
      exact List.mem_cons_self
    · exact List.mem_cons_of_mem _ (lookup_in h)

theorem HitIn.lookup {s : Str} {ns : List Nat} {h : RxHit} (hh : HitIn s ns h) {n a b : Nat} (hl : h.caps.lookup n = some (a, b)) :
    n ∈ ns ∧ a ≤ b ∧ b ≤ s.length := by
  have := hh.groups (n, (a, b)) (lookup_in hl)
  exact this

/-! ### Words have no groups -/

theorem word_nos {E : RxEnv} : ∀ w : Str, (E.word w).groupNos = []
  | [] => rfl
  | c :: w => by
    show (E.letter c).groupNos ++ (E.word w).groupNos = []
    rw [word_nos w]
    rfl

theorem alts_nos : ∀ rs : List Re, (∀ r ∈ rs, r.groupNos = []) → (Re.alts rs).groupNos = []
  | [], _ => rfl
  | [r], h => h r List.mem_cons_self
  | r :: r' :: rs, h => by
    show r.groupNos ++ (Re.alts (r' :: rs)).groupNos = []
    rw [h r List.mem_cons_self, alts_nos (r' :: rs) fun x hx => h x (List.mem_cons_of_mem _ hx)]
    rfl

theorem words_nos {E : RxEnv} (ws : List Str) : (E.words ws).groupNos = [] := by
  refine alts_nos _ fun r hr => ?_
  obtain ⟨w, _, rfl⟩ := List.mem_map.1 hr
  exact word_nos w

/-! ### Chains -/

theorem run_in {r : Re} {s : Str} : ∀ (f : Nat) {i : Nat}, i ≤ s.length → (∀ h ∈ r.run s f i, HitIn s r.groupNos h) ∧ lastStop i (r.run s f i) ≤ s.length
  | 0, i, hi => ⟨by simp [Re.run], by simpa [Re.run, lastStop] using hi⟩
  | f + 1, i, hi => by
    rw [Re.run]
    cases hm : r.matchAt s i with
    | none => exact ⟨by simp, by simpa [lastStop] using hi⟩
    | some x =>
      obtain ⟨j, c⟩ := x
      have h1 := matchAt_in hm hi
      obtain ⟨h2, h3⟩ := run_in f (r := r) (i := j) h1.stop
      refine ⟨fun h hh => ?_, h3⟩
      rcases List.mem_cons.1 hh with rfl | hh
      · exact h1
      · exact h2 h hh

/-- The groups of some parts of a chain. -/
def partNos (ps : List ChainPart) : List Nat := ps.flatMap fun p => p.re.groupNos

theorem chainTail_in {s : Str} : ∀ (ps : List ChainPart) {i : Nat}, i ≤ s.length → ∀ h ∈ chainTail s ps i, HitIn s (partNos ps) h
  | [], _, _ => by simp [chainTail]
  | p :: ps, i, hi => by
    obtain ⟨h1, h2⟩ := run_in (r := p.re) (p.max.getD s.length) hi
    intro h hh
    rw [chainTail] at hh
    rcases List.mem_append.1 hh with hh | hh
    · exact (h1 h hh).mono fun n hn => by simp [partNos, hn]
    · exact (chainTail_in ps h2 h hh).mono fun n hn => by
        rw [partNos, List.flatMap_cons]
        exact List.mem_append_right _ hn

theorem chainOf_in {s : Str} {first : ChainPart} {rest : List ChainPart} {a b : Nat} {c : Caps} (hm : first.re.matchAt s a = some (b, c)) (ha : a ≤ s.length) :
    ∀ h ∈ chainOf s first rest ⟨a, b, c⟩, HitIn s (partNos (first :: rest)) h := by
  have h0 := matchAt_in hm ha
  obtain ⟨h1, h2⟩ := run_in (r := first.re) (first.max.getD s.length - 1) h0.stop
  have hl : ∀ n ∈ first.re.groupNos, n ∈ partNos (first :: rest) := fun n hn => by simp [partNos, hn]
  intro h hh
  rw [chainOf] at hh
  rcases List.mem_append.1 hh with hh | hh
  · rcases List.mem_cons.1 hh with rfl | hh
    · exact h0.mono hl
    · exact (h1 h hh).mono hl
  · exact (chainTail_in rest h2 h hh).mono fun n hn => by
      rw [partNos, List.flatMap_cons]
      exact List.mem_append_right _ hn

theorem chainsFrom_in {s : Str} {first : ChainPart} {rest : List ChainPart} : ∀ (f i : Nat), ∀ hs ∈ chainsFrom s first rest f i,
    ∀ h ∈ hs, HitIn s (partNos (first :: rest)) h
  | 0, _ => by simp [chainsFrom]
  | f + 1, i => by
    intro hs hhs
    rw [chainsFrom] at hhs
    split at hhs
    · split at hhs
      · simp at hhs
      · rename_i hi _ a b c hsf
        obtain ⟨g1, g2, g3, _⟩ := searchFrom_some hsf
        rcases List.mem_cons.1 hhs with rfl | hhs
        · exact chainOf_in g1 (by omega)
        · exact chainsFrom_in f _ hs hhs
    · simp at hhs

theorem chains_in {s : Str} {first : ChainPart} {rest : List ChainPart} : ∀ hs ∈ chains s first rest, ∀ h ∈ hs, HitIn s (partNos (first :: rest)) h :=
  chainsFrom_in _ _

theorem mem_keepHits {broken : List RxHit → Bool} : ∀ {hs acc : List RxHit} {h : RxHit}, h ∈ keepHits broken acc hs → h ∈ acc ∨ h ∈ hs
  | [], acc, h, hh => Or.inl hh
  | x :: hs, acc, h, hh => by
    rw [keepHits] at hh
    split at hh
    · rcases mem_keepHits hh with h1 | h1
      · exact Or.inl h1
      · exact Or.inr (List.mem_cons_of_mem _ h1)
    · rcases mem_keepHits hh with h1 | h1
      · rcases List.mem_append.1 h1 with h1 | h1
        · exact Or.inl h1
        · exact Or.inr (List.mem_cons.2 (Or.inl (List.mem_singleton.1 h1)))
      · exact Or.inr (List.mem_cons_of_mem _ h1)

theorem mem_trimChain {valid : List RxHit → Bool} : ∀ {l : List RxHit} {h : RxHit}, h ∈ trimChain valid l → h ∈ l
  | [], h, hh => by simp [trimChain] at hh
  | x :: r, h, hh => by
    rw [trimChain] at hh
    split at hh
    · rcases List.mem_append.1 hh with hh | hh
      · exact List.mem_cons_of_mem _ (List.mem_reverse.1 hh)
      · exact List.mem_cons.2 (Or.inl (List.mem_singleton.1 hh))
    · exact List.mem_cons_of_mem _ (mem_trimChain hh)

theorem mem_trimmed {valid broken : List RxHit → Bool} {hs : List RxHit} {h : RxHit} (hh : h ∈ trimChain valid (keepHits broken [] hs).reverse) : h ∈ hs := by
  rcases mem_keepHits (List.mem_reverse.1 (mem_trimChain hh)) with h1 | h1
  · simp at h1
  · exact h1

end Guessit
