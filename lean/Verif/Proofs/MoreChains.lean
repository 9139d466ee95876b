import Verif.Proofs.Chain
import Verif.Model.MoreChains

/-! # What is kept of a chain, for any validator -/

namespace Guessit
open Spec Re

/-- A valid beginning of a chain is kept. -/
theorem trimmed_of {broken valid : List RxHit → Bool} {hs p q : List RxHit} (hpq : hs = p ++ q) (hne : p ≠ [])
    (hb : ∀ n, n < p.length → broken (p.take (n + 1)) = false) (hv : valid p = true) {h : RxHit} (hh : h ∈ p) :
    h ∈ trimChain valid (keepHits broken [] hs).reverse := by
  rw [hpq, keepHits_whole p [] q (by simpa using hb), List.nil_append]
  obtain ⟨l, h1, _⟩ := keepHits_prefix (broken := broken) q p
  rw [h1, List.reverse_append]
  obtain ⟨l', h2⟩ := trimChain_complete hv l.reverse hne
  rw [h2]
  simp [hh]

/-- What is kept of a chain: its first match, and some of the next ones. -/
theorem trimmed_within {broken valid : List RxHit → Bool} {h0 h : RxHit} {hs : List RxHit} (hb : broken [h0] = false)
    (hh : h ∈ trimChain valid (keepHits broken [] (h0 :: hs)).reverse) : ∃ p, valid (h0 :: p) = true ∧ p.Sublist hs ∧ h ∈ h0 :: p ∧
      trimChain valid (keepHits broken [] (h0 :: hs)).reverse = h0 :: p := by
  have hkeep : keepHits broken [] (h0 :: hs) = keepHits broken [h0] hs := by
    rw [keepHits, List.nil_append, hb]; rfl
  obtain ⟨l, h8, h9⟩ := keepHits_prefix (broken := broken) hs [h0]
  rw [hkeep, h8, List.singleton_append] at hh ⊢
  obtain ⟨⟨t, g1⟩, g2⟩ := trimChain_sound (valid := valid) (h0 :: l).reverse
  have g3 := g2 (List.ne_nil_of_mem hh)
  rw [List.reverse_reverse] at g1
  generalize trimChain valid (h0 :: l).reverse = p at hh g1 g3
  cases p with
  | nil => cases hh
  | cons p0 p =>
    rw [List.cons_append, List.cons.injEq] at g1
    obtain ⟨rfl, g4⟩ := g1
    refine ⟨p, g3, List.Sublist.trans ?_ h9, hh, rfl⟩
    rw [g4]; exact List.sublist_append_left _ _

theorem follow_left_part {i : Nat} {l m : List RxHit} (h : Follow i (l ++ m)) : Follow i l := by
  induction l generalizing i with
  | nil => trivial
  | cons x l ih => exact ⟨h.1, ih h.2⟩

/-- Some matches of a chain lie in a beginning of it that ends where they do. -/
theorem sublist_within {i : Nat} {p hs : List RxHit} (hf : Follow i hs) (hp : p.Sublist hs) : ∃ ws more, hs = ws ++ more ∧ Follow i ws ∧
    lastStop i ws = lastStop i p ∧ ∀ x ∈ p, x ∈ ws := by
  rcases List.eq_nil_or_concat p with rfl | ⟨p1, q, rfl⟩
  · exact ⟨[], hs, rfl, trivial, rfl, by simp⟩
  · rw [List.concat_eq_append] at hp ⊢
    obtain ⟨L1, L2, rfl, g7, g8⟩ := List.append_sublist_iff.1 hp
    obtain ⟨u, v, rfl⟩ := List.append_of_mem (List.singleton_sublist.1 g8)
    have e1 : lastStop i (L1 ++ u ++ [q]) = q.stop := by rw [lastStop_append]; rfl
    have e2 : lastStop i (p1 ++ [q]) = q.stop := by rw [lastStop_append]; rfl
    refine ⟨L1 ++ u ++ [q], v, by simp, ?_, by rw [e1, e2], ?_⟩
    · have : L1 ++ (u ++ q :: v) = (L1 ++ u ++ [q]) ++ v := by simp
      rw [this] at hf
      exact follow_left_part hf
    · intro x hx
      rcases List.mem_append.1 hx with h | h
      · have := g7.subset h
        simp [this]
      · simp only [List.mem_singleton] at h
        simp [h]

/-- Following matches end at `i` at most, when each match that starts before `i` does and none starts at `i`. -/
theorem follow_upto {s : Str} {res : List Re} {i : Nat} (hc : ∀ r ∈ res, ∀ i' j' c', i' < i → r.matchAt s i' = some (j', c') → j' ≤ i)
    (hn : ∀ r ∈ res, r.matchAt s i = none) : ∀ (hs : List RxHit) (k : Nat), k ≤ i → Follow k hs → Of s res hs → lastStop k hs ≤ i
  | [], k, hk, _, _ => hk
  | h :: hs, k, hk, hf, ho => by
    obtain ⟨r, h1, h2⟩ := ho h (by simp)
    have : h.stop ≤ i := by
      rw [hf.1] at h2
      rcases Nat.lt_or_ge k i with hlt | hge
      · exact hc r h1 k h.stop h.caps hlt h2
      · obtain rfl : k = i := by omega
        rw [hn r h1] at h2; cases h2
    exact follow_upto hc hn hs h.stop this hf.2 fun x hx => ho x (by simp [hx])

/-- A match of the first pattern, which is not repeated, begins a chain when every match that starts before it ends at its start at most, and no other pattern matches at
its start. -/
theorem chains_complete_upto {s : Str} {first : ChainPart} {rest : List ChainPart} (hf1 : first.max = some 1) (he : Moves s (first.re :: rest.map ChainPart.re)) {i j : Nat}
    {c : Caps} (hm : first.re.matchAt s i = some (j, c)) (hi : i < s.length)
    (hc : ∀ r ∈ first.re :: rest.map ChainPart.re, ∀ i' j' c', i' < i → r.matchAt s i' = some (j', c') → j' ≤ i)
    (hn : ∀ r ∈ rest.map ChainPart.re, r.matchAt s i = none) :
    ∀ (f k : Nat), k ≤ i → s.length + 1 ≤ k + f → chainOf s first rest ⟨i, j, c⟩ ∈ chainsFrom s first rest f k
  | 0, k, hk, hf => by omega
  | f + 1, k, hk, hf => by
    unfold chainsFrom
    rw [if_pos (by omega)]
    split
    · rename_i hs
      have := Re.searchFrom_none hs i hk (by omega)
      rw [this] at hm; cases hm
    · rename_i a b cc hs
      obtain ⟨g1, g2, g3, g4⟩ := Re.searchFrom_some hs
      by_cases ha : a = i
      · subst ha
        rw [hm] at g1; cases g1
        exact List.mem_cons_self
      · have hlt : a < i := by
          rcases Nat.lt_trichotomy a i with h | h | h
          · exact h
          · exact absurd h ha
          · rw [g4 i hk h] at hm; cases hm
        have hb := hc _ (by simp) a b cc hlt g1
        have hab := he _ (by simp) a b cc g1
        have e1 : chainOf s first rest ⟨a, b, cc⟩ = ⟨a, b, cc⟩ :: chainTail s rest b := by
          simp [chainOf, hf1, Re.run, lastStop]
        have hl := follow_upto (res := rest.map ChainPart.re) (fun r hr => hc r (List.mem_cons_of_mem _ hr)) hn (chainTail s rest b) b hb (tail_follow _ _) (tail_of _ _)
        have hg := follow_ge (res := rest.map ChainPart.re) (fun r hr => he r (List.mem_cons_of_mem _ hr)) (chainTail s rest b) b (tail_follow _ _) (tail_of _ _)
        refine List.mem_cons_of_mem _ (chains_complete_upto hf1 he hm hi hc hn f _ ?_ ?_)
        · rw [e1]; simp only [lastStop]; omega
        · rw [e1]; simp only [lastStop]; omega

end Guessit
