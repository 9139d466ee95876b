import Verif.Model.EpisodeTitle
import Verif.Proofs.Title

/-! # What `Matches.holes` returns -/

namespace Guessit
open Spec

/-- The holes of the loop, the last one closed at the end. -/
def allHoles (covered sep : Nat → Bool) (start : Nat) : Nat → Nat → Option Nat → List (Nat × Nat)
  | 0, i, o => match o with
    | some a => [(a, i)]
    | none => []
  | f + 1, i, o => match o with
    | some a => if sep i || covered i then (a, i) :: allHoles covered sep start f (i + 1) none
      else allHoles covered sep start f (i + 1) (some a)
    | none => if covered i then allHoles covered sep start f (i + 1) none
      else allHoles covered sep start f (i + 1) (some (max i start))

theorem holeLoop_all (covered sep : Nat → Bool) (start : Nat) : ∀ f i o,
    (holeLoop covered sep start f i o).1 ++ (match (holeLoop covered sep start f i o).2 with
      | some s => [(s, i + f)]
      | none => []) = allHoles covered sep start f i o := by
  intro f
  induction f with
  | zero => intro i o; cases o <;> simp [holeLoop, allHoles]
  | succ f ih =>
    intro i o
    have e : i + (f + 1) = i + 1 + f := by omega
    cases o with
    | none =>
      unfold holeLoop allHoles
      simp only
      split <;> rw [e] <;> exact ih ..
    | some a =>
      unfold holeLoop allHoles
      simp only
      split
      · rw [e, ← ih (i + 1) none]
        simp
      · rw [e]; exact ih ..

/-- A hole that is still open at the end was not covered at the last position. -/
theorem holeLoop_open (covered sep : Nat → Bool) (start : Nat) : ∀ f i o s, 0 < f → (holeLoop covered sep start f i o).2 = some s →
    covered (i + f - 1) = false := by
  intro f
  induction f with
  | zero => intro i o s h; omega
  | succ f ih =>
    intro i o s _ h
    have e : i + (f + 1) - 1 = i + 1 + f - 1 := by omega
    by_cases hf : f = 0
    · subst hf
      have e' : i + (0 + 1) - 1 = i := by omega
      rw [e']
      unfold holeLoop at h
      cases o with
      | none =>
        simp only at h
        split at h
        · simp [holeLoop] at h
        · rename_i hc; simpa using hc
      | some a =>
        simp only at h
        split at h
        · simp [holeLoop] at h
        · rename_i hc
          rw [Bool.or_eq_true, not_or] at hc
          simpa using hc.2
    · rw [e]
      unfold holeLoop at h
      cases o with
      | none =>
        simp only at h
        split at h <;> exact ih _ _ s (by omega) h
      | some a =>
        simp only at h
        split at h <;> exact ih _ _ s (by omega) h

theorem holeEnd_ge {l : List Mt} {ignore : Mt → Bool} : ∀ f i, i ≤ holeEnd l ignore f i := by
  intro f
  induction f with
  | zero => intro i; exact Nat.le_refl _
  | succ f ih =>
    intro i
    unfold holeEnd
    split
    · exact Nat.le_refl _
    · have := ih (i + 1); omega

theorem holeStart_spec {l : List Mt} {ignore : Mt → Bool} : ∀ a, holeStart l ignore a ≤ a ∧
    ∀ m ∈ l, ignore m = false → m.start < a → m.start ≤ holeStart l ignore a := by
  intro a
  induction a with
  | zero => exact ⟨Nat.le_refl _, fun m _ _ h => absurd h (by omega)⟩
  | succ p ih =>
    unfold holeStart
    split
    · refine ⟨by omega, fun m _ _ h => by omega⟩
    · rename_i hn
      refine ⟨by omega, fun m hm hi h => ?_⟩
      refine ih.2 m hm hi ?_
      by_contra hcon
      have : m.start = p := by omega
      exact hn (List.any_eq_true.2 ⟨m, by unfold starting; exact List.mem_filter.2 ⟨hm, by simp [this]⟩, by simp [hi]⟩)

/-- The covered positions. -/
def coveredBy (l : List Mt) (ignore : Mt → Bool) (i : Nat) : Bool := (atIndex l i).any fun m => !ignore m

/-- The position is one of the separators. -/
def sepIn (input seps : Str) (i : Nat) : Bool := (input[i]?).any seps.contains

theorem coveredBy_iff {l : List Mt} {ignore : Mt → Bool} {i : Nat} : coveredBy l ignore i = true ↔ ∃ m ∈ l, ignore m = false ∧ Covers m i := by
  unfold coveredBy
  rw [List.any_eq_true]
  constructor
  · rintro ⟨m, h1, h2⟩
    obtain ⟨h3, h4⟩ := mem_atIndex.1 h1
    exact ⟨m, h3, by simpa using h2, h4⟩
  · rintro ⟨m, h1, h2, h3⟩
    exact ⟨m, mem_atIndex.2 ⟨h1, h3⟩, by simp [h2]⟩

theorem coveredBy_false {l : List Mt} {ignore : Mt → Bool} {i : Nat} :
    coveredBy l ignore i = false ↔ ∀ m ∈ l, ignore m = false → ¬ Covers m i := by
  rw [← Bool.not_eq_true, coveredBy_iff]
  constructor
  · intro h m h1 h2 h3; exact h ⟨m, h1, h2, h3⟩
  · rintro h ⟨m, h1, h2, h3⟩; exact h m h1 h2 h3

theorem holeSpans_all {input : Str} {l : List Mt} (hwf : WellFormed input l) (ignore : Mt → Bool) (seps : Str) (a b : Nat) :
    holeSpans input l ignore seps a b = allHoles (coveredBy l ignore) (sepIn input seps) a (min input.length b - holeStart l ignore a)
      (holeStart l ignore a) none := by
  unfold holeSpans
  simp only
  rw [maxEnd_eq hwf]
  rw [← holeLoop_all]
  change (holeLoop (coveredBy l ignore) (sepIn input seps) a (min input.length b - holeStart l ignore a) (holeStart l ignore a) none).1 ++
    (match (holeLoop (coveredBy l ignore) (sepIn input seps) a (min input.length b - holeStart l ignore a) (holeStart l ignore a) none).2 with
      | some s => [(s, min (holeEnd l ignore (input.length - (min input.length b - 1)) (min input.length b - 1)) (min input.length b))]
      | none => []) = _
  cases ho : (holeLoop (coveredBy l ignore) (sepIn input seps) a (min input.length b - holeStart l ignore a) (holeStart l ignore a) none).2 with
  | none => rfl
  | some s =>
    simp only
    have hpos : 0 < min input.length b - holeStart l ignore a := by
      by_contra hcon
      have : min input.length b - holeStart l ignore a = 0 := by omega
      rw [this] at ho
      simp [holeLoop] at ho
    have hc := holeLoop_open _ _ _ _ _ _ s hpos ho
    have e : holeStart l ignore a + (min input.length b - holeStart l ignore a) = min input.length b := by omega
    rw [e] at hc
    rw [e]
    have hend : min (holeEnd l ignore (input.length - (min input.length b - 1)) (min input.length b - 1)) (min input.length b) = min input.length b := by
      have : 0 < input.length - (min input.length b - 1) := by omega
      obtain ⟨n, hn⟩ : ∃ n, input.length - (min input.length b - 1) = n + 1 := ⟨_, (by omega : _ = (input.length - (min input.length b - 1) - 1) + 1)⟩
      rw [hn]
      unfold holeEnd
      split
      · rename_i hst
        exfalso
        obtain ⟨m, hm, hi⟩ := List.any_eq_true.1 hst
        unfold starting at hm
        obtain ⟨hm, hs⟩ := List.mem_filter.1 hm
        have hs := of_decide_eq_true hs
        rw [coveredBy_false] at hc
        exact hc m hm (by simpa using hi) ⟨by omega, by have := (hwf m hm).1; omega⟩
      · have := holeEnd_ge (l := l) (ignore := ignore) n (min input.length b - 1 + 1)
        omega
    rw [hend]

/-- What is true of the holes of the loop. -/
theorem allHoles_mem (covered sep : Nat → Bool) (start : Nat) : ∀ f i o,
    (∀ a, o = some a → start ≤ a ∧ (a = start ∨ a < i) ∧ (∀ k, a ≤ k → k < i → covered k = false ∧ (a < k → sep k = false))) →
    ∀ h ∈ allHoles covered sep start f i o, start ≤ h.1 ∧ h.2 ≤ i + f ∧
      (∀ k, h.1 ≤ k → k < h.2 → covered k = false ∧ (h.1 < k → sep k = false)) ∧ (h.2 = i + f ∨ covered h.2 = true ∨ sep h.2 = true) ∧
      ((∃ a, o = some a ∧ h.1 = a ∧ i ≤ h.2) ∨ (i ≤ h.1 ∧ i < h.2)) := by
  intro f
  induction f with
  | zero =>
    intro i o hinv h hh
    cases o with
    | none => simp [allHoles] at hh
    | some a =>
      simp only [allHoles, List.mem_singleton] at hh
      subst hh
      obtain ⟨h1, _, h2⟩ := hinv a rfl
      exact ⟨h1, by simp, h2, .inl (by simp), .inl ⟨a, rfl, rfl, Nat.le_refl _⟩⟩
  | succ f ih =>
    intro i o hinv h hh
    have e : i + (f + 1) = i + 1 + f := by omega
    have lift : ∀ o', (∀ a, o' = some a → (o = some a) ∨ a = max i start) →
        (∀ a, o' = some a → start ≤ a ∧ (a = start ∨ a < i + 1) ∧ (∀ k, a ≤ k → k < i + 1 → covered k = false ∧ (a < k → sep k = false))) →
        h ∈ allHoles covered sep start f (i + 1) o' → start ≤ h.1 ∧ h.2 ≤ i + (f + 1) ∧
        (∀ k, h.1 ≤ k → k < h.2 → covered k = false ∧ (h.1 < k → sep k = false)) ∧
        (h.2 = i + (f + 1) ∨ covered h.2 = true ∨ sep h.2 = true) ∧ ((∃ a, o = some a ∧ h.1 = a ∧ i ≤ h.2) ∨ (i ≤ h.1 ∧ i < h.2)) := by
      intro o' ho' hinv' hh'
      obtain ⟨k1, k2, k3, k4, k5⟩ := ih (i + 1) o' hinv' h hh'
      refine ⟨k1, by omega, k3, by rw [e]; exact k4, ?_⟩
      rcases k5 with ⟨a, ha, ha1, ha2⟩ | k5
      · rcases ho' a ha with h' | h'
        · exact .inl ⟨a, h', ha1, by omega⟩
        · exact .inr ⟨by omega, by omega⟩
      · exact .inr ⟨by omega, by omega⟩
    cases o with
    | none =>
      unfold allHoles at hh
      simp only at hh
      split at hh
      · exact lift none (by simp) (by simp) hh
      · rename_i hc
        refine lift (some (max i start)) (by rintro a ha; cases ha; exact .inr rfl) ?_ hh
        rintro a ha
        cases ha
        refine ⟨by omega, by omega, ?_⟩
        intro k k1 k2
        have : k = i := by omega
        subst this
        exact ⟨by simpa using hc, by omega⟩
    | some a =>
      obtain ⟨h1, h1', h2⟩ := hinv a rfl
      unfold allHoles at hh
      simp only at hh
      split at hh
      · rename_i hc
        rcases List.mem_cons.1 hh with rfl | hh
        · refine ⟨h1, by show i ≤ _; omega, h2, ?_, .inl ⟨a, rfl, rfl, Nat.le_refl _⟩⟩
          rcases Bool.or_eq_true_iff.1 hc with h | h
          · exact .inr (.inr h)
          · exact .inr (.inl h)
        · exact lift none (by simp) (by simp) hh
      · rename_i hc
        rw [Bool.or_eq_true, not_or] at hc
        refine lift (some a) (by rintro a' ha; exact .inl ha) ?_ hh
        rintro a' ha
        cases ha
        refine ⟨h1, by omega, ?_⟩
        intro k k1 k2
        by_cases hk : k = i
        · subst hk; exact ⟨by simpa using hc.2, fun _ => by simpa using hc.1⟩
        · exact h2 k k1 (by omega)

/-- A position that is free and no separator is in a hole. -/
theorem allHoles_covers (covered sep : Nat → Bool) (start : Nat) : ∀ f i o k, start ≤ k → k < i + f → covered k = false → sep k = false →
    (i ≤ k ∨ ∃ a, o = some a ∧ a ≤ k) → (∀ a, o = some a → start ≤ a ∧ (a = start ∨ a < i)) → ∃ h ∈ allHoles covered sep start f i o, h.1 ≤ k ∧ k < h.2 := by
  intro f
  induction f with
  | zero =>
    intro i o k h1 h2 _ _ h5 _
    rcases h5 with h5 | ⟨a, rfl, h5⟩
    · omega
    · exact ⟨(a, i), by simp [allHoles], h5, h2⟩
  | succ f ih =>
    intro i o k h1 h2 h3 h4 h5 h6
    cases o with
    | none =>
      have hik : i ≤ k := by
        rcases h5 with h5 | ⟨a, h, _⟩
        · exact h5
        · cases h
      unfold allHoles
      simp only
      split
      · rename_i hc
        have : k ≠ i := by rintro rfl; rw [hc] at h3; cases h3
        exact ih (i + 1) none k h1 (by omega) h3 h4 (.inl (by omega)) (by simp)
      · exact ih (i + 1) _ k h1 (by omega) h3 h4 (.inr ⟨_, rfl, by omega⟩) (by rintro a ha; cases ha; constructor <;> omega)
    | some a =>
      have ha := h6 a rfl
      unfold allHoles
      simp only
      split
      · rename_i hc
        by_cases hk : k < i
        · rcases h5 with h5 | ⟨a', h, h5⟩
          · omega
          · cases h
            exact ⟨(a, i), List.mem_cons_self .., h5, hk⟩
        · have : k ≠ i := by
            rintro rfl
            rw [h3, h4] at hc; cases hc
          obtain ⟨h, hh, hk'⟩ := ih (i + 1) none k h1 (by omega) h3 h4 (.inl (by omega)) (by simp)
          exact ⟨h, List.mem_cons_of_mem _ hh, hk'⟩
      · refine ih (i + 1) (some a) k h1 (by omega) h3 h4 ?_ (by rintro a' ha'; cases ha'; constructor <;> omega)
        rcases h5 with h5 | h5
        · by_cases hk : k = i
          · by_cases hak : a ≤ k
            · exact .inr ⟨a, rfl, hak⟩
            · exfalso
              omega
          · exact .inl (by omega)
        · exact .inr h5

/-- Holes come from left to right. -/
theorem allHoles_sorted (covered sep : Nat → Bool) (start : Nat) : ∀ f i o, 
    (∀ a, o = some a → start ≤ a ∧ (a = start ∨ a < i) ∧ (∀ k, a ≤ k → k < i → covered k = false ∧ (a < k → sep k = false))) →
    (allHoles covered sep start f i o).Pairwise fun p q => p.2 ≤ q.1 := by
  intro f
  induction f with
  | zero => intro i o _; cases o <;> simp [allHoles]
  | succ f ih =>
    intro i o hinv
    cases o with
    | none =>
      unfold allHoles
      simp only
      split
      · exact ih _ none (by simp)
      · rename_i hc
        refine ih _ _ ?_
        rintro a ha
        cases ha
        refine ⟨by omega, by omega, ?_⟩
        intro k k1 k2
        have : k = i := by omega
        subst this
        exact ⟨by simpa using hc, by omega⟩
    | some a =>
      obtain ⟨h1, h1', h2⟩ := hinv a rfl
      unfold allHoles
      simp only
      split
      · refine List.pairwise_cons.2 ⟨?_, ih _ none (by simp)⟩
        intro q hq
        obtain ⟨_, _, _, _, k5⟩ := allHoles_mem covered sep start f (i + 1) none (by simp) q hq
        show i ≤ q.1
        rcases k5 with ⟨a, ha, _⟩ | k5
        · cases ha
        · omega
      · rename_i hc
        rw [Bool.or_eq_true, not_or] at hc
        refine ih _ (some a) ?_
        rintro a' ha
        cases ha
        refine ⟨h1, by omega, ?_⟩
        intro k k1 k2
        by_cases hk : k = i
        · subst hk; exact ⟨by simpa using hc.2, fun _ => by simpa using hc.1⟩
        · exact h2 k k1 (by omega)

/-! ## Without separators -/

/-- From the start on, the holes are the runs of free positions. -/
theorem allHoles_runs (covered sep : Nat → Bool) (hsep : ∀ i, sep i = false) (start : Nat) : ∀ f i o, start ≤ i →
    allHoles covered sep start f i o = runsFrom (fun i => !covered i) f i o := by
  intro f
  induction f with
  | zero => intro i o _; cases o <;> rfl
  | succ f ih =>
    intro i o hi
    have hmax : max i start = i := by omega
    cases o with
    | none =>
      unfold allHoles runsFrom
      cases hc : covered i
      · simp [ih _ _ (by omega : start ≤ i + 1), hmax]
      · simp [ih _ _ (by omega : start ≤ i + 1)]
    | some a =>
      unfold allHoles runsFrom
      cases hc : covered i
      · simp [hsep, ih _ _ (by omega : start ≤ i + 1)]
      · simp [ih _ _ (by omega : start ≤ i + 1)]

/-- Before the start nothing is closed. -/
theorem allHoles_before (covered sep : Nat → Bool) (hsep : ∀ i, sep i = false) (start : Nat) (f : Nat) : ∀ n i, i + n = start →
    (∀ k k', i ≤ k' → k' ≤ k → k < start → covered k = true → covered k' = true) →
    allHoles covered sep start (n + f) i none = allHoles covered sep start f start (if 0 < n ∧ covered (start - 1) = false then some start else none) := by
  intro n
  induction n with
  | zero =>
    intro i hi _
    have : i = start := by omega
    subst this
    simp
  | succ n ih =>
    intro i hi hdown
    have e : n + 1 + f = (n + f) + 1 := by omega
    rw [e, allHoles]
    have hopen : ∀ m j, j + m = start → (∀ k, j ≤ k → k < start → covered k = false) →
        allHoles covered sep start (m + f) j (some start) = allHoles covered sep start f start (some start) := by
      intro m
      induction m with
      | zero => intro j hj _; have : j = start := by omega
                subst this; simp
      | succ m ihm =>
        intro j hj hfree
        have e : m + 1 + f = (m + f) + 1 := by omega
        rw [e]
        rw [allHoles]
        rw [if_neg (by rw [hsep, hfree j (Nat.le_refl _) (by omega)]; simp)]
        exact ihm (j + 1) (by omega) (fun k k1 k2 => hfree k (by omega) k2)
    split
    · rename_i hc
      rw [ih (i + 1) (by omega) (fun k k' h1 h2 h3 h4 => hdown k k' (by omega) h2 h3 h4)]
      by_cases hn : n = 0
      · subst hn
        have : start - 1 = i := by omega
        rw [this, hc]
        simp
      · have h1 : 0 < n := by omega
        have h2 : 0 < n + 1 := by omega
        simp only [h1, h2, true_and]
    · rename_i hc
      have hfree : ∀ k, i ≤ k → k < start → covered k = false := by
        intro k k1 k2
        cases hk : covered k with
        | false => rfl
        | true => exact absurd (hdown k i (Nat.le_refl _) k1 k2 hk) hc
      have hmax : max i start = start := by omega
      rw [hmax, hopen n (i + 1) (by omega) (fun k k1 k2 => hfree k (by omega) k2)]
      rw [if_pos ⟨by omega, hfree (start - 1) (by omega) (by omega)⟩]

/-- Without separators, `holes` returns the maximal free stretches, and before them an empty hole when the position before the
start is free and the start is not (or nothing is left). -/
theorem holes_plain {input : Str} {l : List Mt} (hwf : WellFormed input l) (ignore : Mt → Bool) {a b : Nat} (hab : a ≤ min input.length b) :
    holeSpans input l ignore [] a b =
      (if 0 < a ∧ coveredBy l ignore (a - 1) = false ∧ (a = min input.length b ∨ coveredBy l ignore a = true) then [(a, a)] else []) ++
      runsFrom (fun i => !coveredBy l ignore i) (min input.length b - a) a none := by
  rw [holeSpans_all hwf]
  have hsep : ∀ i, sepIn input [] i = false := by
    intro i; unfold sepIn
    cases input[i]? <;> simp
  obtain ⟨hs1, hs2⟩ := holeStart_spec (l := l) (ignore := ignore) a
  have e : min input.length b - holeStart l ignore a = (a - holeStart l ignore a) + (min input.length b - a) := by omega
  rw [e, allHoles_before _ _ hsep a _ (a - holeStart l ignore a) (holeStart l ignore a) (by omega) ?_]
  · by_cases ha : 0 < a
    · have hlt : holeStart l ignore a < a := by
        obtain ⟨n, rfl⟩ : ∃ n, a = n + 1 := ⟨a - 1, by omega⟩
        unfold holeStart
        split
        · omega
        · have := (holeStart_spec (l := l) (ignore := ignore) n).1; omega
      by_cases hc : coveredBy l ignore (a - 1) = false
      · rw [if_pos ⟨by omega, hc⟩]
        by_cases he : a = min input.length b
        · rw [if_pos ⟨ha, hc, .inl he⟩]
          have : min input.length b - a = 0 := by omega
          rw [this]
          simp [allHoles, runsFrom]
        · obtain ⟨n, hn⟩ : ∃ n, min input.length b - a = n + 1 := ⟨min input.length b - a - 1, by omega⟩
          rw [hn]
          cases hca : coveredBy l ignore a with
          | true =>
            rw [if_pos ⟨ha, hc, .inr rfl⟩]
            unfold allHoles
            simp only [hca, Bool.or_true, if_true]
            rw [allHoles_runs _ _ hsep _ _ _ _ (by omega)]
            conv_rhs => unfold runsFrom
            simp [hca]
          | false =>
            rw [if_neg (by rintro ⟨_, _, h | h⟩ <;> [exact he h; cases h])]
            rw [allHoles_runs _ _ hsep _ _ _ _ (Nat.le_refl _)]
            unfold runsFrom
            simp [hca]
      · rw [if_neg (fun h => hc h.2), if_neg (fun h => hc h.2.1)]
        rw [allHoles_runs _ _ hsep _ _ _ _ (Nat.le_refl _)]
        rfl
    · rw [if_neg (by omega), if_neg (fun h => ha h.1)]
      rw [allHoles_runs _ _ hsep _ _ _ _ (Nat.le_refl _)]
      rfl
  · intro k k' h1 h2 h3 h4
    obtain ⟨m, m1, m2, m3⟩ := coveredBy_iff.1 h4
    have := hs2 m m1 m2 (by have := m3.1; omega)
    exact coveredBy_iff.2 ⟨m, m1, m2, by omega, by have := m3.2; omega⟩

end Guessit
