import Verif.Model.Rules
import Verif.Spec.Rules
import Verif.Proofs.Matches
import Mathlib.Data.List.Nodup
import Mathlib.Data.List.Induction
import Mathlib.Data.List.Perm.Subperm

/-! # C39–C41: screen sizes, years and proper counts -/

namespace Guessit
open Spec

theorem mem_rangeNamed {input : Str} {live : List Mt} (hwf : Stretched input live) {part m : Mt} {n : Str}
    (hsep : n ≠ c!"episodeSeparator" ∧ n ≠ c!"seasonSeparator" := by decide) :
    m ∈ rangeOf input live part.start part.stop (fun m => m.name = some n) ↔ m ∈ live ∧ Overlaps part m ∧ m.name = some n := by
  constructor
  · intro h
    have := mem_rangeOf.1 h
    exact ⟨this.1, ⟨this.2.2.1, this.2.2.2.1⟩, by simpa using this.2.2.2.2⟩
  · rintro ⟨h1, h2, h3⟩
    exact (mem_rangeOf' (hwf.named h1 (by rw [h3]; simpa using hsep.1) (by rw [h3]; simpa using hsep.2))).2 ⟨h1, h2.1, h2.2, by simpa using h3⟩

/-! ## C39 -/

theorem countDistinct_le_one {α : Type} [DecidableEq α] {l : List α} (h : countDistinct l ≤ 1) : ∀ x ∈ l, ∀ y ∈ l, x = y := by
  have pos : ∀ l : List α, l ≠ [] → 0 < countDistinct l := by
    intro l
    induction l with
    | nil => intro h; exact absurd rfl h
    | cons x l ih =>
      intro _
      simp only [countDistinct]
      split
      · rename_i hx; exact ih (List.ne_nil_of_mem hx)
      · omega
  induction l with
  | nil => simp
  | cons x l ih =>
    simp only [countDistinct] at h
    split at h
    · rename_i hx
      have := ih h
      intro a ha b hb
      have hx' : ∀ z ∈ x :: l, z ∈ l := by
        intro z hz
        rcases List.mem_cons.1 hz with h | h
        · rw [h]; exact hx
        · exact h
      exact this a (hx' a ha) b (hx' b hb)
    · have hl : l = [] := by
        refine Classical.byContradiction fun hne => ?_
        have := pos l hne
        omega
      subst hl; simp

theorem rangeOf_sorted (input : Str) (l : List Mt) (a b : Nat) (p : Mt → Bool) :
    (rangeOf input l a b p).Pairwise fun x y => Mt.lt y x = false := (sortBy_sorted Mt.lt_strictWeak l).filter _

theorem rangeOf_nodup {input : Str} {l : List Mt} (h : l.Nodup) (a b : Nat) (p : Mt → Bool) : (rangeOf input l a b p).Nodup :=
  ((sortBy_perm Mt.lt l).nodup_iff.2 h).filter _

/-- C39: only screen sizes are removed, and afterwards all the screen sizes of a path part have the same value. -/
theorem C39_one_value (s : Ms) (hwf : Stretched s.input s.live) :
    (screenSizeOnlyOne s).live.Sublist s.live ∧
    (∀ m ∈ s.live, m.name ≠ some c!"screen_size" → m ∈ (screenSizeOnlyOne s).live) ∧
    ∀ part ∈ s.markers, part.name = some c!"path" →
      ∀ a ∈ (screenSizeOnlyOne s).live, ∀ b ∈ (screenSizeOnlyOne s).live,
        a.name = some c!"screen_size" → b.name = some c!"screen_size" → Overlaps part a → Overlaps part b →
        a.value s.input = b.value s.input := by
  refine ⟨removeAll_sublist _ _ _, ?_, ?_⟩
  · intro m hm hn
    refine removeAll_stays hm ?_
    intro x hx hk
    obtain ⟨part, _, hx⟩ := List.mem_flatMap.1 hx
    unfold onlyOnePart at hx
    simp only at hx
    split at hx
    · have h1 := List.mem_reverse.1 (List.mem_of_mem_drop hx)
      exact hn ((congrArg MtKey.name hk).symm.trans ((mem_rangeNamed hwf).1 h1).2.2)
    · simp at hx
  · intro part hp hpn
    -- the matches of the part that survive all equal the kept one
    have key : ∃ v, ∀ a ∈ (screenSizeOnlyOne s).live, a.name = some c!"screen_size" → Overlaps part a → a.value s.input = v := by
      by_cases hd : countDistinct ((rangeOf s.input s.live part.start part.stop fun m => m.name = some c!"screen_size").reverse.map (Mt.value s.input)) > 1
      · cases hsz : (rangeOf s.input s.live part.start part.stop fun m => m.name = some c!"screen_size").reverse with
        | nil => rw [hsz] at hd; simp [countDistinct] at hd
        | cons k rest =>
          refine ⟨k.value s.input, ?_⟩
          intro a ha hn ho
          have hal := removeAll_subset ha
          refine Classical.byContradiction fun hne => ?_
          have hkk : a.key s.input ≠ k.key s.input := fun h => hne (congrArg MtKey.value h)
          refine removeAll_gone (x := a) ?_ a ha rfl
          -- every match equal to `a` is in `rest`
          have hone : onlyOnePart s part = rest := by
            unfold onlyOnePart
            simp only
            rw [hsz] at hd ⊢
            have hlen : (k :: rest).length > 1 := by
              cases rest with
              | nil => simp [countDistinct] at hd
              | cons y r => simp
            rw [if_pos (by rw [Bool.and_eq_true, decide_eq_true_eq, decide_eq_true_eq]; exact ⟨hlen, hd⟩)]
            rfl
          have c1 : countKey s.input (a.key s.input) s.live ≤ countKey s.input (a.key s.input) rest := by
            have e1 : countKey s.input (a.key s.input) s.live =
                countKey s.input (a.key s.input) (rangeOf s.input s.live part.start part.stop fun m => m.name = some c!"screen_size") := by
              unfold countKey rangeOf
              rw [List.countP_filter, ((sortBy_perm Mt.lt s.live)).countP_eq]
              apply List.countP_congr
              intro m hm
              simp only [Bool.and_eq_true, decide_eq_true_eq]
              constructor
              · intro hk
                refine ⟨hk, ⟨?_, ?_⟩, ?_⟩
                · have e1 : m.start = a.start := congrArg MtKey.start hk
                  rw [e1, Nat.lt_min]
                  have := (maxEnd_ge s.input s.live).2 a hal
                  have := hwf.named hal (by rw [hn]; decide) (by rw [hn]; decide)
                  exact ⟨by omega, ho.1⟩
                · have e2 : m.stop = a.stop := congrArg MtKey.stop hk
                  rw [e2]; exact ho.2
                · exact (congrArg MtKey.name hk).trans hn
              · exact fun h => h.1
            have e2 : countKey s.input (a.key s.input) (rangeOf s.input s.live part.start part.stop fun m => m.name = some c!"screen_size") =
                countKey s.input (a.key s.input) (k :: rest) := by
              rw [← hsz]; unfold countKey; rw [List.countP_reverse]
            rw [e1, e2, countKey_cons, if_neg (fun h => hkk h.symm)]
            exact Nat.le_refl _
          refine Nat.le_trans c1 ?_
          rw [← hone]
          unfold countKey
          have hmem : part ∈ named s.markers c!"path" := mem_named.2 ⟨hp, hpn⟩
          obtain ⟨pre, post, hsplit⟩ := List.append_of_mem hmem
          rw [hsplit, List.flatMap_append, List.flatMap_cons, List.countP_append, List.countP_append]
          omega
      · have hle : countDistinct ((rangeOf s.input s.live part.start part.stop fun m => m.name = some c!"screen_size").reverse.map (Mt.value s.input)) ≤ 1 := by omega
        have hall := countDistinct_le_one hle
        by_cases hex : ∃ b ∈ (screenSizeOnlyOne s).live, b.name = some c!"screen_size" ∧ Overlaps part b
        · obtain ⟨b, hb, hbn, hbo⟩ := hex
          refine ⟨b.value s.input, fun a ha hn ho => hall _ ?_ _ ?_⟩
          · exact List.mem_map_of_mem (List.mem_reverse.2 ((mem_rangeNamed hwf).2 ⟨removeAll_subset ha, ho, hn⟩))
          · exact List.mem_map_of_mem (List.mem_reverse.2 ((mem_rangeNamed hwf).2 ⟨removeAll_subset hb, hbo, hbn⟩))
        · exact ⟨.int 0, fun a ha hn ho => absurd ⟨a, ha, hn, ho⟩ hex⟩
    obtain ⟨v, hv⟩ := key
    intro a ha b hb hn hn' ho ho'
    rw [hv a ha hn ho, hv b hb hn' ho']

/-- C39: the screen size kept in a part is its last one (no two matches being equal, and no screen size lying in two
parts); in a part whose screen sizes agree nothing is removed. -/
theorem C39_keeps_last (s : Ms) (hwf : Stretched s.input s.live) (hnd : (s.live.map (Mt.key s.input)).Nodup)
    (hone : ∀ m ∈ s.live, m.name = some c!"screen_size" → ∀ p ∈ s.markers, ∀ q ∈ s.markers, p.name = some c!"path" →
      q.name = some c!"path" → Overlaps p m → Overlaps q m → p = q)
    (part : Mt) (hp : part ∈ s.markers) (hpn : part.name = some c!"path") :
    ((∃ m ∈ s.live, m.name = some c!"screen_size" ∧ Overlaps part m) →
      ∃ k ∈ (screenSizeOnlyOne s).live, k.name = some c!"screen_size" ∧ Overlaps part k ∧
        ∀ m ∈ s.live, m.name = some c!"screen_size" → Overlaps part m →
          m.start < k.start ∨ (m.start = k.start ∧ m.stop ≤ k.stop)) ∧
    ((∀ a ∈ s.live, ∀ b ∈ s.live, a.name = some c!"screen_size" → b.name = some c!"screen_size" → Overlaps part a → Overlaps part b →
        a.value s.input = b.value s.input) →
      ∀ m ∈ s.live, m.name = some c!"screen_size" → Overlaps part m → m ∈ (screenSizeOnlyOne s).live) := by
  have hlnd : s.live.Nodup := List.Nodup.of_map _ hnd
  have hin : ∀ m ∈ s.live, m.name = some c!"screen_size" → Overlaps part m →
      (m ∈ (screenSizeOnlyOne s).live ↔ m ∉ onlyOnePart s part) := by
    intro m hm hn ho
    unfold screenSizeOnlyOne
    simp only
    rw [mem_removeAll_nodup hnd]
    constructor
    · rintro ⟨_, h⟩ hmem
      exact h m (List.mem_flatMap.2 ⟨part, mem_named.2 ⟨hp, hpn⟩, hmem⟩) rfl
    · intro h
      refine ⟨hm, ?_⟩
      intro x hx hk
      obtain ⟨q, hq, hxq⟩ := List.mem_flatMap.1 hx
      have hxr : x ∈ rangeOf s.input s.live q.start q.stop (fun m => m.name = some c!"screen_size") := by
        unfold onlyOnePart at hxq
        simp only at hxq
        split at hxq
        · exact List.mem_reverse.1 (List.mem_of_mem_drop hxq)
        · simp at hxq
      have hxl := (mem_rangeNamed hwf).1 hxr
      have : x = m := List.inj_on_of_nodup_map hnd hxl.1 hm hk
      subst this
      have : part = q := hone x hm hn part hp q (mem_named.1 hq).1 hpn (mem_named.1 hq).2 ho hxl.2.1
      subst this
      exact h hxq
  constructor
  · rintro ⟨m, hm, hn, ho⟩
    have hsort := rangeOf_sorted s.input s.live part.start part.stop (fun m => m.name = some c!"screen_size")
    have hndr := rangeOf_nodup (input := s.input) hlnd part.start part.stop (fun m => m.name = some c!"screen_size")
    have hmr := (mem_rangeNamed hwf).2 ⟨hm, ho, hn⟩
    cases hsz : (rangeOf s.input s.live part.start part.stop fun m => m.name = some c!"screen_size").reverse with
    | nil => rw [List.reverse_eq_nil_iff] at hsz; rw [hsz] at hmr; simp at hmr
    | cons k rest =>
      have hk : k ∈ rangeOf s.input s.live part.start part.stop (fun m => m.name = some c!"screen_size") := by
        rw [← List.mem_reverse, hsz]; simp
      obtain ⟨k1, k2, k3⟩ := (mem_rangeNamed hwf).1 hk
      refine ⟨k, (hin k k1 k3 k2).2 ?_, k3, k2, ?_⟩
      · intro hmem
        unfold onlyOnePart at hmem
        simp only [hsz] at hmem
        split at hmem
        · rw [← List.nodup_reverse, hsz, List.nodup_cons] at hndr
          exact hndr.1 (by simpa using hmem)
        · simp at hmem
      · intro x hx hxn hxo
        have hxr := (mem_rangeNamed hwf).2 ⟨hx, hxo, hxn⟩
        rw [← List.pairwise_reverse, hsz] at hsort
        rw [← List.mem_reverse, hsz] at hxr
        rcases List.mem_cons.1 hxr with rfl | hxr
        · exact Or.inr ⟨rfl, Nat.le_refl _⟩
        · have := (List.pairwise_cons.1 hsort).1 x hxr
          simp only [Mt.lt, Bool.or_eq_false_iff, Bool.and_eq_false_iff, decide_eq_false_iff_not] at this
          omega
  · intro hsame m hm hn ho
    refine (hin m hm hn ho).2 ?_
    intro hmem
    unfold onlyOnePart at hmem
    simp only at hmem
    split at hmem
    · rename_i hc
      rw [Bool.and_eq_true, decide_eq_true_eq, decide_eq_true_eq] at hc
      have hallsame : ∀ x ∈ (rangeOf s.input s.live part.start part.stop fun m => m.name = some c!"screen_size").reverse.map (Mt.value s.input),
          x = m.value s.input := by
        intro x hx
        obtain ⟨y, hy, rfl⟩ := List.mem_map.1 hx
        obtain ⟨y1, y2, y3⟩ := (mem_rangeNamed hwf).1 (List.mem_reverse.1 hy)
        exact hsame y y1 m hm y3 hn y2 ho
      have hle : ∀ l : List MVal, (∀ x ∈ l, x = m.value s.input) → countDistinct l ≤ 1 := by
        intro l
        induction l with
        | nil => simp [countDistinct]
        | cons x l ih =>
          intro h
          have ih := ih (fun y hy => h y (by simp [hy]))
          simp only [countDistinct]
          split
          · exact ih
          · rename_i hx
            cases l with
            | nil => simp [countDistinct]
            | cons y l =>
              exfalso; apply hx
              rw [h x (by simp), h y (by simp)]; simp
      have := hle _ hallsame
      omega
    · simp at hmem

/-- Two sizes in a part: the second stays. -/
def screenExample : Ms :=
  ⟨c!"720p1080p", [{ id := 0, start := 0, stop := 4, name := some c!"screen_size" }, { id := 1, start := 4, stop := 9, name := some c!"screen_size" }],
    [{ id := 2, start := 0, stop := 9, name := some c!"path" }]⟩

example : (screenSizeOnlyOne screenExample).live.map Mt.id = [1] := by decide
example : WellFormed screenExample.input screenExample.live ∧ (screenExample.live.map (Mt.key screenExample.input)).Nodup := by
  constructor
  · intro m hm
    simp only [screenExample, List.mem_cons, List.not_mem_nil, or_false] at hm
    rcases hm with rfl | rfl <;> decide
  · decide

/-! ## C40 -/

/-- A bracketed group contains the first or the last character of the match. -/
def Spec.InBrackets (s : Ms) (y : Mt) : Prop :=
  ∃ g ∈ s.markers, g.name = some c!"group" ∧ ((g.start ≤ y.start ∧ y.start < g.stop) ∨ (g.start < y.stop ∧ y.stop ≤ g.stop))

theorem atSpan_mem {input : Str} {l : List Mt} {a b : Nat} (p : Mt → Bool) (hp : ∀ x y : Mt, x.key input = y.key input → p x = p y) :
    ((atSpan input l a b).filter p).isEmpty = false ↔ ∃ g ∈ l, p g = true ∧ ((g.start ≤ a ∧ a < g.stop) ∨ (b ≠ 0 ∧ g.start ≤ b - 1 ∧ b - 1 < g.stop)) := by
  rw [List.isEmpty_eq_false_iff_exists_mem]
  unfold atSpan
  have gen : ∀ (xs acc : List Mt), ∀ x, x ∈ xs.foldl (fun acc m => if acc.any (Mt.eqv input m) then acc else acc ++ [m]) acc →
      x ∈ acc ∨ x ∈ xs := by
    intro xs
    induction xs with
    | nil => intro acc x h; exact Or.inl h
    | cons y xs ih =>
      intro acc x h
      rcases ih _ x h with h | h
      · dsimp only at h
        split at h
        · exact Or.inl h
        · rcases List.mem_append.1 h with h | h
          · exact Or.inl h
          · exact Or.inr (by simp at h; simp [h])
      · exact Or.inr (by simp [h])
  have gen2 : ∀ (xs acc : List Mt), ∀ x, (x ∈ acc ∨ x ∈ xs) →
      ∃ y ∈ xs.foldl (fun acc m => if acc.any (Mt.eqv input m) then acc else acc ++ [m]) acc, y.key input = x.key input := by
    intro xs
    induction xs with
    | nil => intro acc x h; exact ⟨x, by simpa using h, rfl⟩
    | cons y xs ih =>
      intro acc x h
      rcases h with h | h
      · refine ih _ x (Or.inl ?_)
        dsimp only; split <;> simp [h]
      · rcases List.mem_cons.1 h with rfl | h
        · by_cases hc : acc.any (Mt.eqv input x) = true
          · obtain ⟨z, hz, he⟩ := List.any_eq_true.1 hc
            obtain ⟨w, hw, hk⟩ := ih acc z (Or.inl hz)
            refine ⟨w, ?_, hk.trans (eqv_iff.1 he).symm⟩
            simp only [List.foldl_cons, hc, if_true]; exact hw
          · refine ih _ x (Or.inl ?_)
            dsimp only; rw [if_neg hc]; simp
        · exact ih _ x (Or.inr h)
  constructor
  · rintro ⟨g, hg⟩
    obtain ⟨h1, h2⟩ := List.mem_filter.1 hg
    rcases gen _ _ g h1 with h | h
    · simp only [atIndex, List.mem_filter, Bool.and_eq_true, decide_eq_true_eq] at h
      exact ⟨g, h.1, h2, Or.inl h.2⟩
    · split at h
      · simp at h
      · rename_i hb
        simp only [atIndex, List.mem_filter, Bool.and_eq_true, decide_eq_true_eq] at h
        exact ⟨g, h.1, h2, Or.inr ⟨hb, h.2⟩⟩
  · rintro ⟨g, hg, hpg, h⟩
    have hin : g ∈ atIndex l a ∨ g ∈ (if b = 0 then [] else atIndex l (b - 1)) := by
      rcases h with h | ⟨hb, h⟩
      · exact Or.inl (by simp [atIndex, hg, h])
      · exact Or.inr (by rw [if_neg hb]; simp [atIndex, hg, h])
    obtain ⟨y, hy, hk⟩ := gen2 _ _ g hin
    exact ⟨y, List.mem_filter.2 ⟨hy, (hp y g hk).trans hpg⟩⟩

theorem inGroup_iff {s : Ms} {y : Mt} (hy : y.start < y.stop) : inGroup s y = true ↔ InBrackets s y := by
  unfold inGroup atMatch
  rw [Bool.not_eq_true', atSpan_mem]
  · constructor
    · rintro ⟨g, h1, h2, h3⟩
      refine ⟨g, h1, by simpa using h2, ?_⟩
      rcases h3 with h3 | h3
      · exact Or.inl h3
      · exact Or.inr (by omega)
    · rintro ⟨g, h1, h2, h3⟩
      refine ⟨g, h1, by simpa using h2, ?_⟩
      rcases h3 with h3 | h3
      · exact Or.inl h3
      · exact Or.inr (by omega)
  · intro x y hk
    have : x.name = y.name := congrArg MtKey.name hk
    simp only [this]

theorem keepMarkedPart_mem {s : Ms} {years : List Mt} {y : Mt} (h : y ∈ keepMarkedPart s years) : y ∈ years := by
  unfold keepMarkedPart at h
  simp only at h
  repeat' split at h
  · rcases List.mem_append.1 h with h | h
    · exact (List.mem_filter.1 h).1
    · exact (List.mem_filter.1 (List.mem_of_mem_drop h)).1
  · rcases List.mem_append.1 h with h | h
    · exact (List.mem_filter.1 (List.mem_of_mem_take h)).1
    · exact (List.mem_filter.1 (List.mem_of_mem_drop h)).1
  · rcases List.mem_append.1 h with h | h
    · exact (List.mem_filter.1 (List.mem_of_mem_take h)).1
    · simp at h
  · simp at h
  · simp at h

/-- C40: what is kept in a path part, `years` being its years in the order of their positions (no two matches being equal and
no year lying in two parts).  With bracketed and bare years, only the first bracketed one is kept; with bare years only,
only the second one; bracketed years only are all kept, and so is a single year.  Nothing but years is removed. -/
theorem C40_kept (s : Ms) (hwf : Stretched s.input s.live) (hnd : (s.live.map (Mt.key s.input)).Nodup)
    (hone : ∀ m ∈ s.live, m.name = some c!"year" → ∀ p ∈ s.markers, ∀ q ∈ s.markers, p.name = some c!"path" →
      q.name = some c!"path" → Overlaps p m → Overlaps q m → p = q) :
    (keepMarkedYear s).live.Sublist s.live ∧
    (∀ m ∈ s.live, m.name ≠ some c!"year" → m ∈ (keepMarkedYear s).live) ∧
    ∀ part ∈ s.markers, part.name = some c!"path" → ∀ years : List Mt,
      years = rangeOf s.input s.live part.start part.stop (fun m => m.name = some c!"year") →
      (∀ y, years = [y] → y ∈ (keepMarkedYear s).live) ∧
      (∀ pre b post, years = pre ++ b :: post → InBrackets s b → (∀ x ∈ pre, ¬ InBrackets s x) → (∃ x ∈ years, ¬ InBrackets s x) →
        ∀ y ∈ years, (y ∈ (keepMarkedYear s).live ↔ y = b)) ∧
      (∀ y1 y2 rest, years = y1 :: y2 :: rest → (∀ x ∈ years, ¬ InBrackets s x) →
        ∀ y ∈ years, (y ∈ (keepMarkedYear s).live ↔ y = y2)) ∧
      ((∀ x ∈ years, InBrackets s x) → ∀ y ∈ years, y ∈ (keepMarkedYear s).live) := by
  have hlnd : s.live.Nodup := List.Nodup.of_map _ hnd
  have hyear : ∀ x ∈ keepMarkedWhen s, x ∈ s.live ∧ x.name = some c!"year" ∧ ∃ q ∈ s.markers, q.name = some c!"path" ∧ Overlaps q x ∧
      x ∈ keepMarkedPart s (rangeOf s.input s.live q.start q.stop fun m => m.name = some c!"year") := by
    intro x hx
    unfold keepMarkedWhen at hx
    split at hx
    · obtain ⟨q, hq, hx⟩ := List.mem_flatMap.1 hx
      have := (mem_rangeNamed hwf).1 (keepMarkedPart_mem hx)
      exact ⟨this.1, this.2.2, q, (mem_named.1 hq).1, (mem_named.1 hq).2, this.2.1, hx⟩
    · simp at hx
  refine ⟨removeAll_sublist _ _ _, ?_, ?_⟩
  · intro m hm hn
    refine removeAll_stays hm ?_
    intro x hx hk
    exact hn ((congrArg MtKey.name hk).symm.trans (hyear x hx).2.1)
  · intro part hp hpn years hyears
    have hmemy : ∀ y, y ∈ years ↔ y ∈ s.live ∧ Overlaps part y ∧ y.name = some c!"year" := by
      intro y; rw [hyears]; exact mem_rangeNamed hwf
    have hyn : years.Nodup := by rw [hyears]; exact rangeOf_nodup hlnd _ _ _
    have hin : ∀ y ∈ years, (y ∈ (keepMarkedYear s).live ↔ y ∉ keepMarkedPart s years) := by
      intro y hy
      obtain ⟨h1, h2, h3⟩ := (hmemy y).1 hy
      unfold keepMarkedYear
      simp only
      rw [mem_removeAll_nodup hnd]
      constructor
      · rintro ⟨_, h⟩ hmem
        refine h y ?_ rfl
        unfold keepMarkedWhen
        rw [if_pos]
        · exact List.mem_flatMap.2 ⟨part, mem_named.2 ⟨hp, hpn⟩, hyears ▸ hmem⟩
        · have hlen : years.length > 1 := by
            unfold keepMarkedPart at hmem
            split at hmem
            · assumption
            · simp at hmem
          have hsub : years.length ≤ (named s.live c!"year").length := by
            have : years.Subperm (named s.live c!"year") := by
              refine List.subperm_of_subset hyn ?_
              intro x hx
              have := (hmemy x).1 hx
              exact mem_named.2 ⟨this.1, this.2.2⟩
            exact this.length_le
          omega
      · intro h
        refine ⟨h1, ?_⟩
        intro x hx hk
        obtain ⟨x1, x2, q, hq, hqn, ho, hxq⟩ := hyear x hx
        have : x = y := List.inj_on_of_nodup_map hnd x1 h1 hk
        subst this
        have : part = q := hone x h1 h3 part hp q hq hpn hqn h2 ho
        subst this
        rw [← hyears] at hxq
        exact h hxq
    have hb : ∀ y ∈ years, (inGroup s y = true ↔ InBrackets s y) := fun y hy => inGroup_iff (hwf.named ((hmemy y).1 hy).1 (by rw [((hmemy y).1 hy).2.2]; decide) (by rw [((hmemy y).1 hy).2.2]; decide))
    refine ⟨?_, ?_, ?_, ?_⟩
    · intro y hy
      rw [hin y (by simp [hy])]
      simp [keepMarkedPart, hy]
    · intro pre b post hsplit hbb hpre hex y hy
      rw [hin y hy]
      obtain ⟨u, hu, hub⟩ := hex
      have hbmem : b ∈ years := by rw [hsplit]; simp
      have hgb : inGroup s b = true := (hb b hbmem).2 hbb
      have hgpre : ∀ x ∈ pre, inGroup s x = false := by
        intro x hx
        rw [← Bool.not_eq_true]
        exact fun h => hpre x hx ((hb x (by rw [hsplit]; simp [hx])).1 h)
      have hgu : inGroup s u = false := by
        rw [← Bool.not_eq_true]; exact fun h => hub ((hb u hu).1 h)
      have hgroup : years.filter (inGroup s) = b :: post.filter (inGroup s) := by
        rw [hsplit, List.filter_append, List.filter_cons, if_pos hgb]
        have : pre.filter (inGroup s) = [] := List.filter_eq_nil_iff.2 fun x hx => by rw [hgpre x hx]; simp
        rw [this, List.nil_append]
      have hbare : u ∈ years.filter (fun y => !inGroup s y) := by simp [hu, hgu]
      have hlen : years.length > 1 := by
        have hne : u ≠ b := by rintro rfl; rw [hgu] at hgb; simp at hgb
        match hy' : years with
        | [] => simp at hu
        | [x] => simp only [List.mem_singleton] at hu hbmem; exact absurd (hu.trans hbmem.symm) hne
        | _ :: _ :: _ => simp
      have hres : keepMarkedPart s years = years.filter (fun y => !inGroup s y) ++ post.filter (inGroup s) := by
        unfold keepMarkedPart
        simp only
        rw [if_pos hlen, hgroup, if_pos]
        · rfl
        · have : (years.filter (fun y => !inGroup s y)).isEmpty = false := List.isEmpty_eq_false_iff_exists_mem.2 ⟨u, hbare⟩
          simp [this]
      rw [hres, List.mem_append, List.mem_filter, List.mem_filter]
      rw [hsplit, List.nodup_append, List.nodup_cons] at hyn
      constructor
      · intro h
        rw [hsplit] at hy
        rcases List.mem_append.1 hy with hy' | hy'
        · exact absurd (Or.inl ⟨by rw [hsplit]; simp [hy'], by simp [hgpre y hy']⟩) h
        · rcases List.mem_cons.1 hy' with rfl | hy'
          · rfl
          · exfalso
            apply h
            cases hg : inGroup s y with
            | true => exact Or.inr ⟨hy', rfl⟩
            | false => exact Or.inl ⟨by rw [hsplit]; simp [hy'], rfl⟩
      · rintro rfl h
        rcases h with ⟨_, h⟩ | ⟨h, _⟩
        · rw [hgb] at h; simp at h
        · exact hyn.2.1.1 h
    · intro y1 y2 rest hsplit hno y hy
      rw [hin y hy]
      have hg : ∀ x ∈ years, inGroup s x = false := by
        intro x hx; rw [← Bool.not_eq_true]; exact fun h => hno x hx ((hb x hx).1 h)
      have e1 : years.filter (inGroup s) = [] := List.filter_eq_nil_iff.2 fun x hx => by rw [hg x hx]; simp
      have e2 : years.filter (fun y => !inGroup s y) = years := List.filter_eq_self.2 fun x hx => by rw [hg x hx]; rfl
      have hres : keepMarkedPart s years = y1 :: rest := by
        unfold keepMarkedPart
        simp only
        rw [e1, e2, hsplit]
        cases rest with
        | nil => simp
        | cons z rest => simp
      rw [hres]
      rw [hsplit] at hyn hy
      simp only [List.nodup_cons, List.mem_cons, not_or] at hyn hy ⊢
      constructor
      · rintro ⟨h1, h2⟩
        rcases hy with hy | hy | hy
        · exact absurd hy h1
        · exact hy
        · exact absurd hy h2
      · rintro rfl
        exact ⟨fun h => hyn.1.1 h.symm, hyn.2.1⟩
    · intro hall y hy
      rw [hin y hy]
      have hg : ∀ x ∈ years, inGroup s x = true := fun x hx => (hb x hx).2 (hall x hx)
      have e1 : years.filter (inGroup s) = years := List.filter_eq_self.2 hg
      have e2 : years.filter (fun y => !inGroup s y) = [] := List.filter_eq_nil_iff.2 fun x hx => by rw [hg x hx]; simp
      unfold keepMarkedPart
      simp only
      rw [e1, e2]
      have hne : years.isEmpty = false := List.isEmpty_eq_false_iff_exists_mem.2 ⟨y, hy⟩
      simp [hne]

/-- C40: a path part that has a year still has one afterwards. -/
theorem C40_never_last (s : Ms) (hwf : Stretched s.input s.live) (hnd : (s.live.map (Mt.key s.input)).Nodup)
    (hone : ∀ m ∈ s.live, m.name = some c!"year" → ∀ p ∈ s.markers, ∀ q ∈ s.markers, p.name = some c!"path" →
      q.name = some c!"path" → Overlaps p m → Overlaps q m → p = q)
    (part : Mt) (hp : part ∈ s.markers) (hpn : part.name = some c!"path")
    (h : ∃ y ∈ s.live, y.name = some c!"year" ∧ Overlaps part y) :
    ∃ y ∈ (keepMarkedYear s).live, y.name = some c!"year" ∧ Overlaps part y := by
  obtain ⟨_, _, hk⟩ := C40_kept s hwf hnd hone
  obtain ⟨h1, h2, h3, h4⟩ := hk part hp hpn _ rfl
  have hm : ∀ y, y ∈ rangeOf s.input s.live part.start part.stop (fun m => m.name = some c!"year") ↔ y ∈ s.live ∧ Overlaps part y ∧ y.name = some c!"year" :=
    fun y => mem_rangeNamed hwf
  obtain ⟨y, hy, hyn, hyo⟩ := h
  have hy' := (hm y).2 ⟨hy, hyo, hyn⟩
  have fin : ∀ z ∈ rangeOf s.input s.live part.start part.stop (fun m => m.name = some c!"year"), z ∈ (keepMarkedYear s).live →
      ∃ y ∈ (keepMarkedYear s).live, y.name = some c!"year" ∧ Overlaps part y :=
    fun z hz hz' => ⟨z, hz', ((hm z).1 hz).2.2, ((hm z).1 hz).2.1⟩
  generalize hY : rangeOf s.input s.live part.start part.stop (fun m => m.name = some c!"year") = Y at *
  by_cases hall : ∀ x ∈ Y, InBrackets s x
  · exact fin y hy' (h4 hall y hy')
  · by_cases hex : ∃ x ∈ Y, InBrackets s x
    · have first : ∀ l : List Mt, (∃ x ∈ l, InBrackets s x) → ∃ pre b post, l = pre ++ b :: post ∧ InBrackets s b ∧ ∀ x ∈ pre, ¬ InBrackets s x := by
        intro l
        induction l with
        | nil => rintro ⟨x, hx, _⟩; simp at hx
        | cons z l ih =>
          intro h
          by_cases hz : InBrackets s z
          · exact ⟨[], z, l, rfl, hz, by simp⟩
          · obtain ⟨x, hx, hxb⟩ := h
            rcases List.mem_cons.1 hx with rfl | hx
            · exact absurd hxb hz
            · obtain ⟨pre, b, post, e, hb, hpre⟩ := ih ⟨x, hx, hxb⟩
              refine ⟨z :: pre, b, post, by rw [e]; rfl, hb, ?_⟩
              intro w hw
              rcases List.mem_cons.1 hw with rfl | hw
              · exact hz
              · exact hpre w hw
      obtain ⟨pre, b, post, e, hb, hpre⟩ := first Y hex
      have hbY : b ∈ Y := by rw [e]; simp
      refine fin b hbY ((h2 pre b post e hb hpre ?_ b hbY).2 rfl)
      refine Classical.byContradiction fun hn => hall fun x hx => ?_
      exact Classical.byContradiction fun hxn => hn ⟨x, hx, hxn⟩
    · match hYe : Y with
      | [] => simp at hy'
      | [z] => exact fin z (by simp) (h1 z rfl)
      | z1 :: z2 :: rest => exact fin z2 (by simp) ((h3 z1 z2 rest rfl (fun x hx hb => hex ⟨x, hx, hb⟩) z2 (by simp)).2 rfl)

/-- `2001.(2010)`: the bracketed year stays; `1984.2010`: the second. -/
def yearExample (brackets : Bool) : Ms :=
  ⟨c!"2001.(2010)", [{ id := 0, start := 0, stop := 4, name := some c!"year", val := some (.int 2001) }, { id := 1, start := 6, stop := 10, name := some c!"year", val := some (.int 2010) }],
    { id := 2, start := 0, stop := 11, name := some c!"path" } :: if brackets then [{ id := 3, start := 5, stop := 11, name := some c!"group" }] else []⟩

example : (keepMarkedYear (yearExample true)).live.map Mt.id = [1] ∧ (keepMarkedYear (yearExample false)).live.map Mt.id = [1] := by decide

/-! ## C41 -/

/-- The last match of a list with that spelling. -/
def Spec.LastSpelling (spell : Mt → Str) (l : List Mt) (r : Mt) : Prop := ∃ pre post, l = pre ++ r :: post ∧ ∀ x ∈ post, spell x ≠ spell r

theorem putRaw_spec (k : Str) (m : Mt) (l : List (Str × Mt)) :
    (putRaw l k m).map Prod.fst = (if k ∈ l.map Prod.fst then l.map Prod.fst else l.map Prod.fst ++ [k]) ∧
    ∀ p, p ∈ putRaw l k m → p = (k, m) ∨ (p ∈ l) := by
  induction l with
  | nil => simp [putRaw]
  | cons x l ih =>
    obtain ⟨k', m'⟩ := x
    simp only [putRaw]
    split
    · rename_i h; subst h
      refine ⟨by simp, ?_⟩
      intro p hp
      rcases List.mem_cons.1 hp with rfl | hp
      · exact Or.inl rfl
      · exact Or.inr (by simp [hp])
    · rename_i h
      refine ⟨?_, ?_⟩
      · simp only [List.map_cons, ih.1, List.mem_cons, show ¬ (k = k') from fun e => h e.symm, false_or]
        split <;> simp
      · intro p hp
        rcases List.mem_cons.1 hp with rfl | hp
        · exact Or.inr (by simp)
        · rcases ih.2 p hp with h | h
          · exact Or.inl h
          · exact Or.inr (by simp [h])

theorem putRaw_get (k : Str) (m : Mt) (l : List (Str × Mt)) (hnd : (l.map Prod.fst).Nodup) :
    ∀ x, (k, x) ∈ putRaw l k m → x = m := by
  induction l with
  | nil => simp [putRaw]
  | cons y l ih =>
    obtain ⟨k', m'⟩ := y
    rw [List.map_cons, List.nodup_cons] at hnd
    simp only [putRaw]
    intro x hx
    split at hx
    · rename_i h; subst h
      rcases List.mem_cons.1 hx with h | h
      · exact (Prod.mk.inj h).2
      · exact absurd (List.mem_map.2 ⟨_, h, rfl⟩) hnd.1
    · rename_i h
      rcases List.mem_cons.1 hx with h' | h'
      · exact absurd (Prod.mk.inj h').1.symm h
      · exact ih hnd.2 x h'

theorem rawsFold (spell : Mt → Str) : ∀ (ps : List Mt),
    let raws := ps.foldl (fun r m => putRaw r (spell m) m) []
    (raws.map Prod.fst).Nodup ∧ (∀ p ∈ raws, p.1 = spell p.2 ∧ LastSpelling spell ps p.2) ∧
      ∀ m ∈ ps, spell m ∈ raws.map Prod.fst := by
  intro ps
  induction ps using List.reverseRecOn with
  | nil => simp
  | append_singleton ps m ih =>
    intro raws
    obtain ⟨i1, i2, i3⟩ := ih
    have hraws : raws = putRaw (ps.foldl (fun r m => putRaw r (spell m) m) []) (spell m) m := by simp [raws, List.foldl_append]
    rw [hraws]
    generalize hold : ps.foldl (fun r m => putRaw r (spell m) m) [] = old at i1 i2 i3
    obtain ⟨p1, p2⟩ := putRaw_spec (spell m) m old
    have p3 := putRaw_get (spell m) m old i1
    refine ⟨?_, ?_, ?_⟩
    · rw [p1]
      split
      · exact i1
      · rename_i h
        rw [List.nodup_append]
        exact ⟨i1, by simp, by rintro a ha b hb rfl; simp at hb; exact h (hb ▸ ha)⟩
    · rintro ⟨k, x⟩ hx
      by_cases hk : k = spell m
      · subst hk
        have := p3 x hx
        subst this
        exact ⟨rfl, ps, [], rfl, by simp⟩
      · rcases p2 _ hx with h | h
        · exact absurd (Prod.mk.inj h).1 hk
        · obtain ⟨e, pre, post, hs, hp⟩ := i2 _ h
          refine ⟨e, pre, post ++ [m], by rw [hs]; simp, ?_⟩
          intro y hy
          rcases List.mem_append.1 hy with hy | hy
          · exact hp y hy
          · simp only [List.mem_singleton] at hy
            subst hy
            intro h'; exact hk (e.trans h'.symm)
    · intro x hx
      rw [p1]
      rcases List.mem_append.1 hx with hx | hx
      · have := i3 x hx
        split
        · exact this
        · exact List.mem_append_left _ this
      · simp only [List.mem_singleton] at hx
        subst hx
        split
        · assumption
        · simp

theorem lastSpelling_inj {spell : Mt → Str} {l : List Mt} {a b : Mt} (ha : LastSpelling spell l a) (hb : LastSpelling spell l b)
    (h : spell a = spell b) : a = b := by
  obtain ⟨p1, q1, e1, h1⟩ := ha
  obtain ⟨p2, q2, e2, h2⟩ := hb
  rw [e1] at e2
  rcases List.append_eq_append_iff.1 e2 with ⟨c, hc1, hc2⟩ | ⟨c, hc1, hc2⟩
  · cases c with
    | nil => simp at hc2; exact hc2.1
    | cons x c =>
      simp only [List.cons_append, List.cons.injEq] at hc2
      exact absurd h.symm (h1 b (by rw [hc2.2]; simp))
  · cases c with
    | nil => simp at hc2; exact hc2.1.symm
    | cons x c =>
      simp only [List.cons_append, List.cons.injEq] at hc2
      exact absurd h (h2 a (by rw [hc2.2]; simp))

theorem sum_perm {a b : List Int} (h : a.Perm b) : a.sum = b.sum := by
  induction h with
  | nil => rfl
  | cons x _ ih => simp [ih]
  | swap x y l => simp only [List.sum_cons]; omega
  | trans _ _ ih1 ih2 => exact ih1.trans ih2

theorem properSum (count : Mt → Option Int) (spell : Mt → Str) (propers reps : List Mt) (hnd : (reps.map spell).Nodup)
    (hcov : ∀ p ∈ propers, ∃ r ∈ reps, spell r = spell p) (hlast : ∀ r ∈ reps, LastSpelling spell propers r) :
    (((propers.foldl (fun r m => putRaw r (spell m) m) []).map Prod.snd).map (properWeight count)).sum =
      (reps.map fun r => match count r with
          | some n => n
          | none => if c!"real" ∈ r.tags then 2 else 1).sum := by
  obtain ⟨r1, r2, r3⟩ := rawsFold spell propers
  have hperm : ((propers.foldl (fun r m => putRaw r (spell m) m) []).map Prod.snd).Perm reps := by
    refine (List.perm_ext_iff_of_nodup ?_ (List.Nodup.of_map _ hnd)).2 ?_
    · have e : (propers.foldl (fun r m => putRaw r (spell m) m) []).map Prod.fst =
          ((propers.foldl (fun r m => putRaw r (spell m) m) []).map Prod.snd).map spell := by
        rw [List.map_map]
        exact List.map_congr_left fun p hp => (r2 p hp).1
      rw [e] at r1
      exact List.Nodup.of_map _ r1
    · intro x
      constructor
      · intro hx
        obtain ⟨p, hp, rfl⟩ := List.mem_map.1 hx
        obtain ⟨e, hl⟩ := r2 p hp
        have hmem : p.2 ∈ propers := by obtain ⟨a, b, e, _⟩ := hl; rw [e]; simp
        obtain ⟨r, hr, he⟩ := hcov p.2 hmem
        have := lastSpelling_inj (hlast r hr) hl he
        rw [← this]; exact hr
      · intro hx
        have hl := hlast x hx
        have hmem : x ∈ propers := by obtain ⟨a, b, e, _⟩ := hl; rw [e]; simp
        obtain ⟨p, hp, he⟩ := List.mem_map.1 (r3 x hmem)
        obtain ⟨e, hl'⟩ := r2 p hp
        have := lastSpelling_inj hl' hl (e.symm.trans he)
        rw [← this]; exact List.mem_map_of_mem hp
  have hw : properWeight count = fun r => match count r with
      | some n => n
      | none => if c!"real" ∈ r.tags then 2 else 1 := by
    funext r
    unfold properWeight
    cases count r <;> simp
  rw [← hw]
  exact sum_perm (hperm.map _)

/-- C41: without a Proper match nothing is added.  Otherwise one match named `proper_count` is added (or is there already),
whose explicit value is the sum, over the distinct normalised spellings of the Proper matches (the last match of each
spelling counting), of the number written in the match, else 2 for `real`, else 1. -/
theorem C41_count (u : Uni) (count : Mt → Option Int) (s : Ms) :
    let propers := s.live.filter fun m => decide (m.name = some c!"other") && decide (m.value s.input = .str c!"Proper")
    let spell := fun m : Mt => rawCleanup u.lower (m.raw s.input)
    (propers = [] → properCount u count s = s) ∧
    (propers ≠ [] → ∃ m, properCount u count s = { s with live := appendAll s.input s.live [m] } ∧ m.name = some c!"proper_count" ∧
      ∀ reps : List Mt, (reps.map spell).Nodup → (∀ p ∈ propers, ∃ r ∈ reps, spell r = spell p) → (∀ r ∈ reps, LastSpelling spell propers r) →
        m.val = some (.int ((reps.map fun r => match count r with
          | some n => n
          | none => if c!"real" ∈ r.tags then 2 else 1).sum))) := by
  intro propers spell
  have hprop : (named s.live c!"other").filter (fun m => m.value s.input = .str c!"Proper") = propers := by
    simp only [propers, named, List.filter_filter]
    apply List.filter_congr
    intro x _
    exact Bool.and_comm _ _
  unfold properCount
  simp only [hprop]
  constructor
  · intro h; simp [h]
  · intro h
    have hne : propers.isEmpty = false := by simpa using h
    rw [hne]
    simp only [Bool.false_eq_true, if_false]
    refine ⟨_, rfl, rfl, ?_⟩
    intro reps hnd hcov hlast
    exact congrArg (fun n => some (MVal.int n)) (properSum count spell propers reps hnd hcov hlast)

/-- C41: such representatives exist. -/
theorem C41_representatives (spell : Mt → Str) (propers : List Mt) :
    ∃ reps : List Mt, (reps.map spell).Nodup ∧ (∀ p ∈ propers, ∃ r ∈ reps, spell r = spell p) ∧ ∀ r ∈ reps, LastSpelling spell propers r := by
  obtain ⟨r1, r2, r3⟩ := rawsFold spell propers
  refine ⟨(propers.foldl (fun r m => putRaw r (spell m) m) []).map Prod.snd, ?_, ?_, ?_⟩
  · have e : (propers.foldl (fun r m => putRaw r (spell m) m) []).map Prod.fst =
        ((propers.foldl (fun r m => putRaw r (spell m) m) []).map Prod.snd).map spell := by
      rw [List.map_map]
      exact List.map_congr_left fun p hp => (r2 p hp).1
    rw [← e]; exact r1
  · intro p hp
    obtain ⟨q, hq, he⟩ := List.mem_map.1 (r3 p hp)
    exact ⟨q.2, List.mem_map_of_mem hq, (r2 q hq).1.symm.trans he⟩
  · intro r hr
    obtain ⟨p, hp, rfl⟩ := List.mem_map.1 hr
    exact (r2 p hp).2

/-- C41, what does not hold: the reported value is not always that sum.  The written count 0 (`Repack0`) gives the sum 0,
and a match whose explicit value is 0 reports its raw text. -/
theorem C41_zero_counterexample (u : Uni) :
    ∃ (count : Mt → Option Int) (s : Ms) (m : Mt), m ∈ (properCount u count s).live ∧ m.name = some c!"proper_count" ∧
      m.val = some (.int 0) ∧ m.value s.input = .str c!"Repack0" := by
  let p : Mt := { id := 0, start := 0, stop := 7, name := some c!"other", val := some (.str c!"Proper") }
  refine ⟨fun _ => some 0, ⟨c!"Repack0", [p], []⟩,
    { id := 1, start := 0, stop := 7, name := some c!"proper_count", val := some (.int 0) }, ?_, rfl, rfl, by decide⟩
  have h : ∀ k : Mt → Str, (([p].foldl (fun r m => putRaw r (k m) m) []).map Prod.snd) = [p] := fun _ => rfl
  have h2 : (named [p] c!"other").filter (fun m => m.value c!"Repack0" = .str c!"Proper") = [p] := rfl
  unfold properCount
  simp only [h2, h]
  refine List.mem_append_right [p] ?_
  exact List.mem_singleton.2 rfl

/-- Two spellings, one of them `real`: 3. -/
example : let a : Mt := { id := 0, start := 0, stop := 6, name := some c!"other", val := some (.str c!"Proper") }
    let b : Mt := { id := 1, start := 7, stop := 13, name := some c!"other", val := some (.str c!"Proper"), tags := [c!"real"] }
    (properCount ⟨fun _ => none, fun _ => false, id, id⟩ (fun _ => none) ⟨c!"proper.repack", [a, b], []⟩).live.map Mt.val =
      [some (.str c!"Proper"), some (.str c!"Proper"), some (.int 3)] := by
  decide +kernel

/-! ## C54: the span of the proper count -/

theorem startFold : ∀ (raws : List Mt) (o : Option Nat), (∀ m ∈ raws, 0 < m.start) → (∀ a, o = some a → 0 < a) →
    (raws ≠ [] ∨ o ≠ none) →
    ∃ a, raws.foldl properStart o = some a ∧ 0 < a ∧ (∀ m ∈ raws, a ≤ m.start) ∧ (∀ b, o = some b → a ≤ b) ∧
      ((∃ m ∈ raws, m.start = a) ∨ o = some a) := by
  intro raws
  induction raws with
  | nil =>
    intro o _ h2 h3
    cases o with
    | none => simp at h3
    | some a => exact ⟨a, rfl, h2 a rfl, by simp, by simp, Or.inr rfl⟩
  | cons m raws ih =>
    intro o h1 h2 _
    have hm := h1 m (by simp)
    have hstep : ∃ c, properStart o m = some c ∧ 0 < c ∧ c ≤ m.start ∧ (∀ b, o = some b → c ≤ b) ∧ (c = m.start ∨ o = some c) := by
      cases o with
      | none => exact ⟨m.start, rfl, hm, Nat.le_refl _, by simp, Or.inl rfl⟩
      | some a =>
        have ha := h2 a rfl
        cases a with
        | zero => omega
        | succ a =>
          simp only [properStart]
          split
          · rename_i h
            exact ⟨m.start, rfl, hm, Nat.le_refl _, by rintro b ⟨⟩; omega, Or.inl rfl⟩
          · exact ⟨a + 1, rfl, ha, by omega, by rintro b ⟨⟩; omega, Or.inr rfl⟩
    obtain ⟨c, e, c1, c2, c3, c4⟩ := hstep
    rw [List.foldl_cons, e]
    obtain ⟨a, r1, r2, r3, r4, r5⟩ := ih (some c) (fun x hx => h1 x (by simp [hx])) (by rintro a ⟨⟩; exact c1) (Or.inr (by simp))
    have hac := r4 c rfl
    refine ⟨a, r1, r2, ?_, fun b hb => Nat.le_trans hac (c3 b hb), ?_⟩
    · intro x hx
      rcases List.mem_cons.1 hx with rfl | hx
      · omega
      · exact r3 x hx
    · rcases r5 with ⟨x, hx, hh⟩ | h
      · exact Or.inl ⟨x, by simp [hx], hh⟩
      · cases h
        rcases c4 with h | h
        · exact Or.inl ⟨m, by simp, h.symm⟩
        · exact Or.inr h

theorem stopFold : ∀ (raws : List Mt) (o : Option Nat), (∀ m ∈ raws, 0 < m.stop) → (∀ a, o = some a → 0 < a) →
    (raws ≠ [] ∨ o ≠ none) →
    ∃ a, raws.foldl properStop o = some a ∧ 0 < a ∧ (∀ m ∈ raws, m.stop ≤ a) ∧ (∀ b, o = some b → b ≤ a) ∧
      ((∃ m ∈ raws, m.stop = a) ∨ o = some a) := by
  intro raws
  induction raws with
  | nil =>
    intro o _ h2 h3
    cases o with
    | none => simp at h3
    | some a => exact ⟨a, rfl, h2 a rfl, by simp, by simp, Or.inr rfl⟩
  | cons m raws ih =>
    intro o h1 h2 _
    have hm := h1 m (by simp)
    have hstep : ∃ c, properStop o m = some c ∧ 0 < c ∧ m.stop ≤ c ∧ (∀ b, o = some b → b ≤ c) ∧ (c = m.stop ∨ o = some c) := by
      cases o with
      | none => exact ⟨m.stop, rfl, hm, Nat.le_refl _, by simp, Or.inl rfl⟩
      | some a =>
        have ha := h2 a rfl
        cases a with
        | zero => omega
        | succ a =>
          simp only [properStop]
          split
          · rename_i h
            exact ⟨m.stop, rfl, hm, Nat.le_refl _, by rintro b ⟨⟩; omega, Or.inl rfl⟩
          · exact ⟨a + 1, rfl, ha, by omega, by rintro b ⟨⟩; omega, Or.inr rfl⟩
    obtain ⟨c, e, c1, c2, c3, c4⟩ := hstep
    rw [List.foldl_cons, e]
    obtain ⟨a, r1, r2, r3, r4, r5⟩ := ih (some c) (fun x hx => h1 x (by simp [hx])) (by rintro a ⟨⟩; exact c1) (Or.inr (by simp))
    have hac := r4 c rfl
    refine ⟨a, r1, r2, ?_, fun b hb => Nat.le_trans (c3 b hb) hac, ?_⟩
    · intro x hx
      rcases List.mem_cons.1 hx with rfl | hx
      · omega
      · exact r3 x hx
    · rcases r5 with ⟨x, hx, hh⟩ | h
      · exact Or.inl ⟨x, by simp [hx], hh⟩
      · cases h
        rcases c4 with h | h
        · exact Or.inl ⟨m, by simp, h.symm⟩
        · exact Or.inr h

/-- C54, partially: if no Proper match starts at the very beginning of the input, the `proper_count` match begins with the
first counted match and ends with the last.  Missing: a Proper match at position 0 (see the counterexample). -/
theorem C54_span_partial (u : Uni) (count : Mt → Option Int) (s : Ms)
    (hpos : ∀ m ∈ s.live, m.name = some c!"other" → 0 < m.start ∧ m.start < m.stop) :
    let propers := s.live.filter fun m => decide (m.name = some c!"other") && decide (m.value s.input = .str c!"Proper")
    let spell := fun m : Mt => rawCleanup u.lower (m.raw s.input)
    propers ≠ [] → ∃ m, properCount u count s = { s with live := appendAll s.input s.live [m] } ∧ m.name = some c!"proper_count" ∧
      (∀ p ∈ propers, LastSpelling spell propers p → m.start ≤ p.start ∧ p.stop ≤ m.stop) ∧
      (∃ p ∈ propers, p.start = m.start) ∧ ∃ p ∈ propers, p.stop = m.stop := by
  intro propers spell hne
  have hprop : (named s.live c!"other").filter (fun m => m.value s.input = .str c!"Proper") = propers := by
    simp only [propers, named, List.filter_filter]
    apply List.filter_congr
    intro x _
    exact Bool.and_comm _ _
  have hother : ∀ p ∈ propers, 0 < p.start ∧ p.start < p.stop := by
    intro p hp
    have := List.mem_filter.1 hp
    simp only [Bool.and_eq_true, decide_eq_true_eq] at this
    exact hpos p this.1 this.2.1
  obtain ⟨r1, r2, r3⟩ := rawsFold spell propers
  have hmem : ∀ x ∈ (propers.foldl (fun r m => putRaw r (spell m) m) []).map Prod.snd, x ∈ propers := by
    intro x hx
    obtain ⟨p, hp, rfl⟩ := List.mem_map.1 hx
    obtain ⟨_, a, b, e, _⟩ := r2 p hp
    rw [e]; simp
  have hcov : ∀ p ∈ propers, LastSpelling spell propers p → p ∈ (propers.foldl (fun r m => putRaw r (spell m) m) []).map Prod.snd := by
    intro p hp hl
    obtain ⟨q, hq, he⟩ := List.mem_map.1 (r3 p hp)
    have := lastSpelling_inj (r2 q hq).2 hl ((r2 q hq).1.symm.trans he)
    rw [← this]; exact List.mem_map_of_mem hq
  have hrne : (propers.foldl (fun r m => putRaw r (spell m) m) []).map Prod.snd ≠ [] := by
    intro h
    obtain ⟨p, hp⟩ := List.exists_mem_of_ne_nil _ hne
    have := r3 p hp
    have h2 : propers.foldl (fun r m => putRaw r (spell m) m) [] = [] := List.map_eq_nil_iff.1 h
    rw [h2] at this; simp at this
  obtain ⟨a, a1, _, a2, _, a3⟩ := startFold _ none (fun m hm => (hother m (hmem m hm)).1) (by simp) (Or.inl hrne)
  obtain ⟨b, b1, _, b2, _, b3⟩ := stopFold _ none (fun m hm => by have := hother m (hmem m hm); omega) (by simp) (Or.inl hrne)
  unfold properCount
  simp only [hprop]
  have hemp : propers.isEmpty = false := by simpa using hne
  rw [hemp]
  simp only [Bool.false_eq_true, if_false]
  refine ⟨_, rfl, rfl, ?_, ?_, ?_⟩
  · intro p hp hl
    have := hcov p hp hl
    constructor
    · show (List.foldl properStart none _).getD 0 ≤ p.start
      rw [show List.foldl properStart none _ = some a from a1]
      exact a2 p this
    · show p.stop ≤ (List.foldl properStop none _).getD 0
      rw [show List.foldl properStop none _ = some b from b1]
      exact b2 p this
  · rcases a3 with ⟨m, hm, h⟩ | h
    · refine ⟨m, hmem m hm, ?_⟩
      show m.start = (List.foldl properStart none _).getD 0
      rw [show List.foldl properStart none _ = some a from a1]; exact h
    · simp at h
  · rcases b3 with ⟨m, hm, h⟩ | h
    · refine ⟨m, hmem m hm, ?_⟩
      show m.stop = (List.foldl properStop none _).getD 0
      rw [show List.foldl properStop none _ = some b from b1]; exact h
    · simp at h

/-- C54: a Proper match at position 0 is forgotten by the span (0 counts as "not set yet"). -/
theorem C54_span_counterexample :
    ∃ (u : Uni) (s : Ms) (m p : Mt), m ∈ (properCount u (fun _ => none) s).live ∧ m.name = some c!"proper_count" ∧
      p ∈ s.live ∧ p.name = some c!"other" ∧ p.value s.input = .str c!"Proper" ∧ p.start = 0 ∧ m.start = 7 ∧ m.val = some (.int 2) := by
  let a : Mt := { id := 0, start := 0, stop := 6, name := some c!"other", val := some (.str c!"Proper") }
  let b : Mt := { id := 1, start := 7, stop := 13, name := some c!"other", val := some (.str c!"Proper") }
  let pc : Mt := { id := 2, start := 7, stop := 13, name := some c!"proper_count", val := some (.int 2) }
  let u : Uni := ⟨fun _ => none, fun _ => false, id, id⟩
  refine ⟨u, ⟨c!"proper.repack", [a, b], []⟩, pc, a, ?_, rfl, by simp, rfl, by decide, rfl, rfl, rfl⟩
  have e : (properCount u (fun _ => none) ⟨c!"proper.repack", [a, b], []⟩).live = [a, b, pc] := by
    have h2 : (named [a, b] c!"other").filter (fun m => m.value c!"proper.repack" = .str c!"Proper") = [a, b] := rfl
    have hk : rawCleanup u.lower (a.raw c!"proper.repack") ≠ rawCleanup u.lower (b.raw c!"proper.repack") := by decide +kernel
    unfold properCount
    simp only [h2]
    have h3 : ([a, b].foldl (fun r m => putRaw r (rawCleanup u.lower (m.raw c!"proper.repack")) m) []).map Prod.snd = [a, b] := by
      simp only [List.foldl_cons, List.foldl_nil, putRaw, if_neg hk, List.map_cons, List.map_nil]
    rw [h3]
    rfl
  rw [e]; simp

end Guessit
