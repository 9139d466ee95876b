import Verif.Model.Rules
import Verif.Spec.Rules
import Verif.Proofs.Matches
import Mathlib.Data.List.Nodup

/-! # Properties of the rules: C31, C33, C34, C35 -/

namespace Guessit
open Spec

theorem has_iff {s : Ms} {n : Str} : has s n = true ↔ Found s.live n := by
  unfold has Found
  rw [Bool.not_eq_true', List.isEmpty_eq_false_iff_exists_mem]
  constructor
  · rintro ⟨m, hm⟩; exact ⟨m, (mem_named.1 hm).1, (mem_named.1 hm).2⟩
  · rintro ⟨m, h1, h2⟩; exact ⟨m, mem_named.2 ⟨h1, h2⟩⟩

/-! ## C31 -/

/-- C31: the type is the `type` option when there is one, else `episode` exactly when there is evidence for it, else
`movie`. -/
theorem C31_decision (o : Option Str) (s : Ms) :
    (∀ t, o = some t → t ≠ [] → typeWhen o s = t) ∧
    ((o = none ∨ o = some []) →
      (EpisodeEvidence s.live → typeWhen o s = c!"episode") ∧ (¬ EpisodeEvidence s.live → typeWhen o s = c!"movie")) := by
  constructor
  · rintro t rfl ht
    cases t with
    | nil => exact absurd rfl ht
    | cons c t => rfl
  · intro ho
    have hf : ∀ n, has s n = false ↔ ¬ Found s.live n := by intro n; rw [← has_iff]; simp
    have hanime : (named s.live c!"release_group").any (fun m => m.tags.contains c!"anime") = true ↔
        ∃ m ∈ s.live, m.name = some c!"release_group" ∧ c!"anime" ∈ m.tags := by
      simp [List.any_eq_true, mem_named, and_assoc]
    have key : typeWhen o s = c!"episode" ↔ EpisodeEvidence s.live := by
      unfold EpisodeEvidence
      simp only [← has_iff, ← hanime]
      have e : typeWhen o s = if has s c!"episode" || has s c!"season" || has s c!"episode_details" || has s c!"absolute_episode" then c!"episode"
          else if has s c!"film" then c!"movie"
          else if has s c!"date" && !has s c!"year" then c!"episode"
          else if has s c!"bonus" && !has s c!"year" then c!"episode"
          else if has s c!"crc32" && (named s.live c!"release_group").any (fun m => m.tags.contains c!"anime") then c!"episode"
          else c!"movie" := by rcases ho with rfl | rfl <;> rfl
      rw [e]
      generalize has s c!"episode" = b1
      generalize has s c!"season" = b2
      generalize has s c!"episode_details" = b3
      generalize has s c!"absolute_episode" = b4
      generalize has s c!"film" = b5
      generalize has s c!"date" = b6
      generalize has s c!"year" = b7
      generalize has s c!"bonus" = b8
      generalize has s c!"crc32" = b9
      generalize (named s.live c!"release_group").any (fun m => m.tags.contains c!"anime") = b10
      have ne : ¬ (c!"movie" = c!"episode") := by decide
      cases b1 <;> cases b2 <;> cases b3 <;> cases b4 <;> simp [ne]
      cases b5 <;> cases b6 <;> cases b7 <;> cases b8 <;> cases b9 <;> cases b10 <;> simp [ne]
    have two : typeWhen o s = c!"episode" ∨ typeWhen o s = c!"movie" := by
      rcases ho with rfl | rfl <;> (simp only [typeWhen]; repeat' split) <;> simp
    refine ⟨key.2, fun h => ?_⟩
    rcases two with h2 | h2
    · exact absurd (key.1 h2) h
    · exact h2

/-- C31: the rule adds one match named `type` with that value and changes nothing else; if there was none before, there is
exactly one. -/
theorem C31_exactly_one (o : Option Str) (s : Ms) (hno : ¬ Found s.live c!"type") :
    ∃ m, (typeProcessor o s).live = s.live ++ [m] ∧ m.name = some c!"type" ∧
      m.value s.input = .str (typeWhen o s) ∧ ∀ m' ∈ (typeProcessor o s).live, m'.name = some c!"type" → m' = m := by
  refine ⟨endMatch s c!"type" (typeWhen o s), rfl, rfl, ?_, ?_⟩
  · have : (MVal.str (typeWhen o s)).truthy = true := by
      have hne : typeWhen o s ≠ [] := by
        cases o with
        | none => simp only [typeWhen]; repeat' split
                  all_goals decide
        | some t => cases t with
          | nil => simp only [typeWhen]; repeat' split
                   all_goals decide
          | cons c t => simp [typeWhen]
      simpa [MVal.truthy] using hne
    simp only [Mt.value, endMatch, this, if_true]
  · intro m' hm hn
    simp only [typeProcessor, List.mem_append, List.mem_singleton] at hm
    rcases hm with hm | hm
    · exact absurd ⟨m', hm, hn⟩ hno
    · exact hm

/-- A name with a date and a year: a movie; the same without the year: an episode. -/
example : let d : Mt := { id := 0, start := 0, stop := 4, name := some c!"date" }
    let y : Mt := { id := 1, start := 5, stop := 9, name := some c!"year" }
    typeWhen none ⟨c!"date.2010", [d, y], []⟩ = c!"movie" ∧ typeWhen none ⟨c!"date.2010", [d], []⟩ = c!"episode" := by
  decide

/-! ## C34 -/

theorem countDistinct_card {α : Type} [DecidableEq α] (xs : List α) : IsCard (fun x => x ∈ xs) (countDistinct xs) := by
  induction xs with
  | nil => exact ⟨[], .nil, by simp, rfl⟩
  | cons x xs ih =>
    obtain ⟨l, h1, h2, h3⟩ := ih
    simp only [countDistinct]
    split
    · rename_i hx
      refine ⟨l, h1, ?_, h3⟩
      intro y; rw [h2]; show y ∈ xs ↔ y ∈ x :: xs
      rw [List.mem_cons]
      constructor
      · exact Or.inr
      · rintro (rfl | h)
        · exact hx
        · exact h
    · rename_i hx
      refine ⟨x :: l, List.nodup_cons.2 ⟨fun h => hx ((h2 x).1 h), h1⟩, ?_, by simp [h3]⟩
      intro y; show y ∈ x :: l ↔ y ∈ x :: xs
      rw [List.mem_cons, List.mem_cons, h2]

theorem IsCard.unique {α : Type} {S : α → Prop} {m n : Nat} (h1 : IsCard S m) (h2 : IsCard S n) : m = n := by
  obtain ⟨l, a1, a2, a3⟩ := h1
  obtain ⟨k, b1, b2, b3⟩ := h2
  have : l.Perm k := (List.perm_ext_iff_of_nodup a1 b1).2 fun x => by rw [a2, b2]
  rw [← a3, ← b3, this.length_eq]

theorem markerPredicate_iff {input : Str} {m : Mt} : markerPredicate input m = true ↔ CountsForPart input m := by
  unfold markerPredicate CountsForPart
  cases m.priv <;> by_cases h1 : m.name = some c!"proper_count" <;> by_cases h2 : m.name = some c!"title" <;>
    by_cases h3 : m.name = some c!"container" <;> by_cases h4 : c!"extension" ∈ m.tags <;>
    by_cases h5 : m.name = some c!"other" <;> by_cases h6 : m.value input = .str c!"Rip" <;>
    simp [h1, h2, h3, h4, h5, h6]

/-- C34: the value of a part is the number of distinct property names found in it (not counting titles and the like). -/
theorem C34_weight (input : Str) (live : List Mt) (hwf : Stretched input live) (part : Mt) :
    IsCard (fun n : Option Str => ∃ m ∈ live, Overlaps part m ∧ CountsForPart input m ∧ m.name = n)
      (markerWeight input live part (markerPredicate input)) := by
  obtain ⟨l, h1, h2, h3⟩ := countDistinct_card ((rangeOf input live part.start part.stop (markerPredicate input)).map Mt.name)
  refine ⟨l, h1, ?_, h3⟩
  intro n
  rw [h2]
  show n ∈ List.map _ _ ↔ _
  rw [List.mem_map]
  constructor
  · rintro ⟨m, hm, rfl⟩
    rw [mem_rangeOf] at hm
    exact ⟨m, hm.1, ⟨hm.2.2.1, hm.2.2.2.1⟩, markerPredicate_iff.1 hm.2.2.2.2, rfl⟩
  · rintro ⟨m, hm, ho, hc, rfl⟩
    exact ⟨m, (mem_rangeOf' (hwf.pos hm hc.1)).2 ⟨hm, ho.1, ho.2, markerPredicate_iff.2 hc⟩, rfl⟩

theorem markerLt_iff {input : Str} {live markers : List Mt} {p : Mt → Bool} {a b : Mt} :
    markerLt input live markers p a b = true ↔
      markerWeight input live b p < markerWeight input live a p ∨
      (markerWeight input live a p = markerWeight input live b p ∧ markerIndex input markers b < markerIndex input markers a) := by
  unfold markerLt
  simp only
  split <;> rw [decide_eq_true_eq] <;> omega

theorem markerLt_strictWeak (input : Str) (live markers : List Mt) (p : Mt → Bool) :
    StrictWeak (markerLt input live markers p) where
  asymm := by
    intro a b h
    rw [markerLt_iff] at h
    rw [← Bool.not_eq_true, markerLt_iff]
    omega
  trans := by
    intro a b c h1 h2
    rw [← Bool.not_eq_true, markerLt_iff] at *
    omega

/-- C34: sorting keeps exactly the given parts. -/
theorem C34_permutation (input : Str) (live markers : List Mt) (p : Mt → Bool) :
    (markerSorted input live markers p).Perm markers := sortBy_perm _ _

theorem markerIndex_get {input : Str} {markers : List Mt} (hnd : (markers.map (Mt.key input)).Nodup) {i : Nat} {m : Mt}
    (h : markers[i]? = some m) : markerIndex input markers m = i := by
  obtain ⟨hlt, hm⟩ := List.getElem?_eq_some_iff.1 h
  unfold markerIndex
  rw [List.findIdx_eq hlt]
  refine ⟨by rw [hm, eqv_iff], ?_⟩
  intro j hj
  rw [← Bool.not_eq_true, eqv_iff]
  intro hk
  have hk' : (markers.map (Mt.key input))[j]'(by simp; omega) = (markers.map (Mt.key input))[i]'(by simpa using hlt) := by
    simp only [List.getElem_map]; rw [← hk, hm]
  have := (List.Nodup.getElem_inj_iff hnd).1 hk'
  omega

/-- C34: the parts are ordered by decreasing value, and among parts of the same value the rightmost (last given) comes
first. -/
theorem C34_order (input : Str) (live markers : List Mt) (p : Mt → Bool) (hnd : (markers.map (Mt.key input)).Nodup)
    (i j : Nat) (a b : Mt) (ha : markers[i]? = some a) (hb : markers[j]? = some b) :
    (∃ pre mid post, markerSorted input live markers p = pre ++ a :: mid ++ b :: post) →
      markerWeight input live b p < markerWeight input live a p ∨
        (markerWeight input live b p = markerWeight input live a p ∧ j < i) := by
  rintro ⟨pre, mid, post, h⟩
  have hs := sortBy_sorted (markerLt_strictWeak input live markers p) markers
  have hab : markerLt input live markers p b a = false := by
    unfold markerSorted at h
    rw [h, List.append_assoc, List.pairwise_append] at hs
    have := hs.2.1
    rw [List.cons_append, List.pairwise_cons] at this
    exact this.1 b (by simp)
  have hne : i ≠ j := by
    rintro rfl
    rw [ha] at hb; cases hb
    have hperm := C34_permutation input live markers p
    have : (markerSorted input live markers p).Nodup := by
      have := (hperm.map (Mt.key input)).nodup_iff.2 hnd
      exact List.Nodup.of_map _ this
    rw [h, List.append_assoc, List.nodup_append] at this
    have h2 := this.2.1
    rw [List.cons_append, List.nodup_cons] at h2
    exact h2.1 (by simp)
  rw [← Bool.not_eq_true, markerLt_iff, markerIndex_get hnd ha, markerIndex_get hnd hb] at hab
  omega

/-- C34: the order is total, so the outcome does not depend on how the sort proceeds: any arrangement of the (distinct)
parts in that order is the one returned. -/
theorem C34_unique (input : Str) (live markers : List Mt) (p : Mt → Bool) (hnd : (markers.map (Mt.key input)).Nodup)
    (l : List Mt) (hperm : l.Perm markers) (hl : l.Pairwise fun a b =>
      markerWeight input live b p < markerWeight input live a p ∨
        (markerWeight input live b p = markerWeight input live a p ∧ markerIndex input markers b ≤ markerIndex input markers a)) :
    l = markerSorted input live markers p := by
  have hs := sortBy_sorted (markerLt_strictWeak input live markers p) markers
  have hp := C34_permutation input live markers p
  refine List.Perm.eq_of_pairwise (le := fun a b =>
      markerWeight input live b p < markerWeight input live a p ∨
        (markerWeight input live b p = markerWeight input live a p ∧ markerIndex input markers b ≤ markerIndex input markers a))
      ?_ hl ?_ (hperm.trans hp.symm)
  · intro a b ha hb h1 h2
    obtain ⟨i, hi⟩ := List.mem_iff_getElem?.1 (hperm.mem_iff.1 ha)
    obtain ⟨j, hj⟩ := List.mem_iff_getElem?.1 (hp.mem_iff.1 hb)
    rw [markerIndex_get hnd hi, markerIndex_get hnd hj] at h1 h2
    have : i = j := by omega
    subst this
    rw [hi] at hj; exact Option.some.inj hj
  · refine hs.imp ?_
    intro a b h
    rw [← Bool.not_eq_true, markerLt_iff] at h
    omega

end Guessit
