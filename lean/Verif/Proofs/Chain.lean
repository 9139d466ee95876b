import Verif.Spec.Chain
import Verif.Proofs.Recognise

/-! # Chains of patterns -/

namespace Guessit
open Spec Re

theorem lastStop_append (i : Nat) (l m : List RxHit) : lastStop i (l ++ m) = lastStop (lastStop i l) m := by
  induction l generalizing i with
  | nil => rfl
  | cons h l ih => simp only [List.cons_append, lastStop]; exact ih _

/-- Matches that follow one another from `i`. -/
def Follow (i : Nat) : List RxHit → Prop
  | [] => True
  | h :: hs => h.start = i ∧ Follow h.stop hs

theorem Follow.append {i : Nat} {l m : List RxHit} (hl : Follow i l) (hm : Follow (lastStop i l) m) : Follow i (l ++ m) := by
  induction l generalizing i with
  | nil => exact hm
  | cons h l ih => exact ⟨hl.1, ih hl.2 hm⟩

/-- Every match of a run is one of the pattern. -/
def Of (s : Str) (res : List Re) (hs : List RxHit) : Prop := ∀ h ∈ hs, ∃ r ∈ res, r.matchAt s h.start = some (h.stop, h.caps)

theorem run_follow {r : Re} {s : Str} : ∀ (f i : Nat), Follow i (r.run s f i)
  | 0, _ => trivial
  | f + 1, i => by
    unfold Re.run
    split
    · exact ⟨rfl, run_follow f _⟩
    · trivial

theorem run_of {r : Re} {s : Str} : ∀ (f i : Nat), ∀ h ∈ r.run s f i, r.matchAt s h.start = some (h.stop, h.caps)
  | 0, _, h, hh => by cases hh
  | f + 1, i, h, hh => by
    unfold Re.run at hh
    split at hh
    · rename_i j c hm
      rcases List.mem_cons.1 hh with rfl | hh
      · exact hm
      · exact run_of f j h hh
    · cases hh

theorem tail_follow {s : Str} (ps : List ChainPart) (i : Nat) : Follow i (chainTail s ps i) := by
  induction ps generalizing i with
  | nil => trivial
  | cons p ps ih => exact (run_follow _ _).append (ih _)

theorem tail_of {s : Str} (ps : List ChainPart) (i : Nat) : Of s (ps.map ChainPart.re) (chainTail s ps i) := by
  induction ps generalizing i with
  | nil => intro h hh; cases hh
  | cons p ps ih =>
    intro h hh
    rcases List.mem_append.1 hh with hh | hh
    · exact ⟨p.re, by simp, run_of _ _ h hh⟩
    · obtain ⟨r, h1, h2⟩ := ih _ h hh
      exact ⟨r, by simp_all, h2⟩

theorem chainOf_cons (s : Str) (first : ChainPart) (rest : List ChainPart) (h : RxHit) : ∃ hs, chainOf s first rest h = h :: hs ∧ Follow h.stop hs ∧
    Of s (first.re :: rest.map ChainPart.re) hs := by
  refine ⟨_, rfl, (run_follow _ _).append (tail_follow _ _), ?_⟩
  intro x hx
  rcases List.mem_append.1 hx with hx | hx
  · exact ⟨first.re, by simp, run_of _ _ x hx⟩
  · obtain ⟨r, h1, h2⟩ := tail_of _ _ x hx
    exact ⟨r, by simp_all, h2⟩

/-- The chains of a name: each begins with a match of the first pattern. -/
theorem chains_sound {s : Str} {first : ChainPart} {rest : List ChainPart} {hs : List RxHit} : ∀ (f i : Nat), hs ∈ chainsFrom s first rest f i →
    ∃ h, first.re.matchAt s h.start = some (h.stop, h.caps) ∧ hs = chainOf s first rest h
  | 0, _, hh => by cases hh
  | f + 1, i, hh => by
    unfold chainsFrom at hh
    split at hh
    · split at hh
      · cases hh
      · rename_i a b c hs
        rcases List.mem_cons.1 hh with rfl | hh
        · exact ⟨⟨a, b, c⟩, (Re.searchFrom_some hs).1, rfl⟩
        · exact chains_sound f _ hh
    · cases hh

/-- Following matches end before `i` when each match that starts before `i`, where a match may end, does. -/
theorem follow_before_of {s : Str} {res : List Re} {i : Nat} {Q : Nat → Prop}
    (hc : ∀ r ∈ res, ∀ i' j' c', i' < i → Q i' → r.matchAt s i' = some (j', c') → j' < i ∧ Q j') :
    ∀ (hs : List RxHit) (k : Nat), k < i → Q k → Follow k hs → Of s res hs → lastStop k hs < i
  | [], k, hk, _, _, _ => hk
  | h :: hs, k, hk, hq, hf, ho => by
    obtain ⟨r, h1, h2⟩ := ho h (by simp)
    have := hc r h1 h.start h.stop h.caps (by rw [hf.1]; exact hk) (by rw [hf.1]; exact hq) h2
    exact follow_before_of hc hs h.stop this.1 this.2 hf.2 fun x hx => ho x (by simp [hx])

/-- The patterns never match the empty text. -/
def Moves (s : Str) (res : List Re) : Prop := ∀ r ∈ res, ∀ i j c, r.matchAt s i = some (j, c) → i < j

theorem follow_ge {s : Str} {res : List Re} (he : Moves s res) : ∀ (hs : List RxHit) (k : Nat), Follow k hs → Of s res hs → k ≤ lastStop k hs
  | [], _, _, _ => by simp [lastStop]
  | h :: hs, k, hf, ho => by
    obtain ⟨r, h1, h2⟩ := ho h (by simp)
    have h3 := he r h1 h.start h.stop h.caps h2
    rw [hf.1] at h3
    have := follow_ge he hs h.stop hf.2 fun x hx => ho x (by simp [hx])
    rw [lastStop]
    omega

/-- A match of the first pattern begins a chain when every chain that starts before it ends before it; `Q` holds where matches end. -/
theorem chains_complete_of {s : Str} {first : ChainPart} {rest : List ChainPart} (he : Moves s (first.re :: rest.map ChainPart.re)) {i j : Nat} {c : Caps} {Q : Nat → Prop}
    (hm : first.re.matchAt s i = some (j, c)) (hi : i < s.length)
    (h0 : ∀ i' j' c', i' < i → first.re.matchAt s i' = some (j', c') → j' < i ∧ Q j')
    (hc : ∀ r ∈ first.re :: rest.map ChainPart.re, ∀ i' j' c', i' < i → Q i' → r.matchAt s i' = some (j', c') → j' < i ∧ Q j') :
    ∀ (f k : Nat), k ≤ i → s.length + 1 ≤ k + f → chainOf s first rest ⟨i, j, c⟩ ∈ chainsFrom s first rest f k
  | 0, k, hk, hf => by omega
  | f + 1, k, hk, hf => by
    unfold chainsFrom
    rw [if_pos (by omega)]
    split
    · rename_i hs
      have := Re.searchFrom_none hs i hk (by omega)
      rw [this] at hm; cases hm
    · rename_i a b cc hs
      obtain ⟨g1, g2, g3, g4⟩ := Re.searchFrom_some hs
      by_cases ha : a = i
      · subst ha
        rw [hm] at g1; cases g1
        exact List.mem_cons_self
      · have hlt : a < i := by
          rcases Nat.lt_trichotomy a i with h | h | h
          · exact h
          · exact absurd h ha
          · rw [g4 i hk h] at hm; cases hm
        have hb := h0 a b cc hlt g1
        have hab := he _ (by simp) a b cc g1
        obtain ⟨hs, e1, e2, e3⟩ := chainOf_cons s first rest ⟨a, b, cc⟩
        have hl := follow_before_of hc hs b hb.1 hb.2 e2 e3
        have hg := follow_ge he hs b e2 e3
        refine List.mem_cons_of_mem _ (chains_complete_of he hm hi h0 hc f _ ?_ ?_)
        · rw [e1]; simp only [lastStop]; omega
        · rw [e1]; simp only [lastStop]; omega

/-- A match of the first pattern begins a chain when every match that starts before it ends before it. -/
theorem chains_complete {s : Str} {first : ChainPart} {rest : List ChainPart} (he : Moves s (first.re :: rest.map ChainPart.re)) {i j : Nat} {c : Caps}
    (hm : first.re.matchAt s i = some (j, c)) (hi : i < s.length)
    (hc : ∀ r ∈ first.re :: rest.map ChainPart.re, ∀ i' j' c', i' < i → r.matchAt s i' = some (j', c') → j' < i)
    (f k : Nat) (hk : k ≤ i) (hf : s.length + 1 ≤ k + f) : chainOf s first rest ⟨i, j, c⟩ ∈ chainsFrom s first rest f k :=
  chains_complete_of (Q := fun _ => True) he hm hi (fun i' j' c' h1 h2 => ⟨hc _ (by simp) i' j' c' h1 h2, trivial⟩)
    (fun r hr i' j' c' h1 _ h2 => ⟨hc r hr i' j' c' h1 h2, trivial⟩) f k hk hf

/-! ## What is kept of a chain -/

theorem keepHits_prefix {broken : List RxHit → Bool} : ∀ (hs acc : List RxHit), ∃ l, keepHits broken acc hs = acc ++ l ∧ l.Sublist hs
  | [], acc => ⟨[], by simp [keepHits]⟩
  | h :: hs, acc => by
    unfold keepHits
    split
    · obtain ⟨l, h1, h2⟩ := keepHits_prefix hs acc
      exact ⟨l, h1, h2.cons h⟩
    · obtain ⟨l, h1, h2⟩ := keepHits_prefix hs (acc ++ [h])
      exact ⟨h :: l, by rw [h1]; simp, h2.cons_cons h⟩

/-- A beginning of the chain to which the chain breaker does not object is kept. -/
theorem keepHits_whole {broken : List RxHit → Bool} : ∀ (hs acc more : List RxHit), (∀ n, n < hs.length → broken (acc ++ hs.take (n + 1)) = false) →
    keepHits broken acc (hs ++ more) = keepHits broken (acc ++ hs) more
  | [], acc, more, _ => by simp
  | h :: hs, acc, more, hb => by
    rw [List.cons_append, keepHits]
    have h0 := hb 0 (by simp)
    simp only [List.take_succ_cons, List.take_zero] at h0
    rw [h0, if_neg (by simp), keepHits_whole hs (acc ++ [h]) more]
    · simp
    · intro n hn
      have := hb (n + 1) (by simpa using hn)
      simpa using this

/-- What remains is a beginning of the chain, valid unless nothing remains. -/
theorem trimChain_sound {valid : List RxHit → Bool} : ∀ (r : List RxHit), (∃ l, r.reverse = trimChain valid r ++ l) ∧
    (trimChain valid r ≠ [] → valid (trimChain valid r) = true)
  | [] => ⟨⟨[], by simp [trimChain]⟩, fun h => absurd rfl h⟩
  | h :: r => by
    unfold trimChain
    split
    · rename_i hv
      exact ⟨⟨[], by simp⟩, fun _ => hv⟩
    · obtain ⟨⟨l, h1⟩, h2⟩ := trimChain_sound (valid := valid) r
      exact ⟨⟨l ++ [h], by rw [List.reverse_cons, h1]; simp⟩, h2⟩

/-- A valid beginning of the chain remains. -/
theorem trimChain_complete {valid : List RxHit → Bool} {p : List RxHit} (hp : valid p = true) : ∀ (q : List RxHit), p ≠ [] →
    ∃ l, trimChain valid (q ++ p.reverse) = p ++ l
  | [], hne => by
    have : p = p.dropLast ++ [p.getLast hne] := (List.dropLast_append_getLast hne).symm
    refine ⟨[], ?_⟩
    rw [List.nil_append, this, List.reverse_append, List.reverse_singleton, List.singleton_append, trimChain, List.reverse_reverse, ← this, if_pos hp]
    simp
  | h :: q, hne => by
    rw [List.cons_append, trimChain]
    split
    · exact ⟨q.reverse ++ [h], by simp⟩
    · exact trimChain_complete hp q hne

end Guessit
