import Verif.Props.SceneGroup
import Verif.Props.Markers
import Verif.Spec.Title
import Verif.Model.Marks

/-!
# The markers as the engine makes them

The theorems about rules assume that markers are laid out as the engine does (`Laid`, `PartsApart`, `PlainGroups`, `GroupsInOrder`).
Here these hypotheses are proved of the markers that `mark_path` and `mark_groups` return for an arbitrary input.
-/

namespace Guessit

open Spec

theorem mem_pathMarks {context : Dict} {opening closing input : Str} {m : Mt} (hm : m ∈ marksOf context opening closing input)
    (hn : m.name = some c!"path") : ∃ p ∈ markPath context input, p.1 < p.2 ∧ m = mark c!"path" p.1.toNat p.2.toNat := by
  rcases List.mem_append.1 hm with h | h
  · obtain ⟨p, hp, rfl⟩ := List.mem_map.1 h
    rw [List.mem_filter, decide_eq_true_eq] at hp
    exact ⟨p, hp.1, hp.2, rfl⟩
  · obtain ⟨p, hp, rfl⟩ := List.mem_map.1 h
    exact absurd hn (by show ¬ some c!"group" = some c!"path"; decide)

theorem mem_groupMarks {context : Dict} {opening closing input : Str} {m : Mt} (hm : m ∈ marksOf context opening closing input)
    (hn : m.name = some c!"group") : ∃ p ∈ markGroups opening closing input, m = mark c!"group" p.1 p.2 := by
  rcases List.mem_append.1 hm with h | h
  · obtain ⟨p, hp, rfl⟩ := List.mem_map.1 h
    exact absurd hn (by show ¬ some c!"path" = some c!"group"; decide)
  · obtain ⟨p, hp, rfl⟩ := List.mem_map.1 h
    exact ⟨p, hp, rfl⟩

theorem path_bounds {context : Dict} {input : Str} {p : Int × Int} (hp : p ∈ markPath context input) :
    0 ≤ p.1 ∧ p.2 ≤ input.length ∧ (p.2 = input.length ∨ ∃ c, input[p.2.toNat]? = some c ∧ (c = '/' ∨ c = '\\')) := by
  by_cases h : NameOnly context
  · rw [C23_name_only context input h, List.mem_singleton] at hp
    subst hp
    exact ⟨Int.le_refl _, Int.le_refl _, .inl rfl⟩
  · obtain ⟨i, j, h1, h2, hel⟩ := (C23_elements context input h p.1 p.2).1 hp
    have := hel.le
    have := hel.inside
    refine ⟨by omega, by omega, ?_⟩
    rcases hel.right with hr | ⟨c, hc, hsl⟩
    · left; omega
    · right
      refine ⟨c, ?_, hsl⟩
      rw [h2]
      exact hc

theorem marks_kind {context : Dict} {opening closing input : Str} {m : Mt} (hm : m ∈ marksOf context opening closing input) :
    m.name = some c!"path" ∨ m.name = some c!"group" := by
  rcases List.mem_append.1 hm with h | h
  · obtain ⟨p, _, rfl⟩ := List.mem_map.1 h
    exact .inl rfl
  · obtain ⟨p, _, rfl⟩ := List.mem_map.1 h
    exact .inr rfl

/-- C23: whatever the input, the markers the engine makes are non-empty stretches of the input, no two equal; path elements end with the
input or before a path separator and do not touch one another; bracketed groups have no value but their text and come in the order of
their closing brackets.  These are the hypotheses the theorems about rules make on markers. -/
theorem C23_state_laid (context : Dict) (opening closing : Str) (hdis : ∀ c ∈ opening, c ∉ closing) (s : Ms) (hs : Sound s)
    (hm : s.markers = marksOf context opening closing s.input) : Laid s ∧ PartsApart s ∧ PlainGroups s ∧ GroupsInOrder s := by
  have hord := C23_ordered context s.input
  have hnest := C24_well_nested opening closing s.input
  have hwf : ∀ m ∈ s.markers, m.start < m.stop ∧ m.stop ≤ s.input.length := by
    intro m h
    rw [hm] at h
    rcases marks_kind h with hn | hn
    · obtain ⟨p, hp, hlt, rfl⟩ := mem_pathMarks h hn
      have := path_bounds hp
      simp only [mark]
      omega
    · obtain ⟨p, hp, rfl⟩ := mem_groupMarks h hn
      have := C24_delimited opening closing s.input hdis p.1 p.2 hp
      simp only [mark]
      omega
  have hgroups : s.markers.filter (fun m => decide (m.name = some c!"group")) =
      (markGroups opening closing s.input).map fun p => mark c!"group" p.1 p.2 := by
    rw [hm, marksOf, List.filter_append, List.filter_eq_nil_iff.2, List.nil_append, List.filter_eq_self]
    · intro m h
      obtain ⟨p, _, rfl⟩ := List.mem_map.1 h
      exact decide_eq_true rfl
    · intro m h
      obtain ⟨p, _, rfl⟩ := List.mem_map.1 h
      show ¬ decide (some c!"path" = some c!"group") = true
      decide
  refine ⟨⟨hs, hwf, ?_, ?_⟩, ?_, ?_, ?_⟩
  · rw [hm, marksOf, List.map_append, List.nodup_append]
    refine ⟨?_, ?_, ?_⟩
    · rw [List.map_map]
      have : ((markPath context s.input).filter fun p => decide (p.1 < p.2)).Pairwise (fun x y => x.2 < y.1) := hord.filter _
      have h2 : ((markPath context s.input).filter fun p => decide (p.1 < p.2)).Pairwise (fun x y => x.2 < y.1 ∧ 0 ≤ x.1 ∧ x.1 < x.2 ∧ 0 ≤ y.1) := by
        refine List.Pairwise.imp_of_mem (fun {a b} ha hb hab => ?_) this
        rw [List.mem_filter, decide_eq_true_eq] at ha hb
        exact ⟨hab, (path_bounds ha.1).1, ha.2, (path_bounds hb.1).1⟩
      unfold List.Nodup
      rw [List.pairwise_map]
      refine h2.imp fun {a b} hab heq => ?_
      have : a.1.toNat = b.1.toNat := congrArg MtKey.start heq
      omega
    · rw [List.map_map]
      unfold List.Nodup
      rw [List.pairwise_map]
      refine hnest.imp fun {a b} hab heq => ?_
      have : a.2 = b.2 := congrArg MtKey.stop heq
      omega
    · rintro k hk k' hk' rfl
      obtain ⟨m, hm1, rfl⟩ := List.mem_map.1 hk
      obtain ⟨m', hm2, he⟩ := List.mem_map.1 hk'
      obtain ⟨p, _, rfl⟩ := List.mem_map.1 hm1
      obtain ⟨p', _, rfl⟩ := List.mem_map.1 hm2
      have : some c!"group" = some c!"path" := congrArg MtKey.name he
      revert this
      decide
  · intro part hpart
    have h := hpart.1
    rw [hm] at h
    obtain ⟨p, hp, hlt, rfl⟩ := mem_pathMarks h hpart.2
    obtain ⟨h1, h2, h3⟩ := path_bounds hp
    rcases h3 with h3 | h3
    · left
      simp only [mark]
      omega
    · exact .inr h3
  · intro a b ha hb hne
    have h1 := ha.1
    have h2 := hb.1
    rw [hm] at h1 h2
    obtain ⟨p, hp, hplt, rfl⟩ := mem_pathMarks h1 ha.2
    obtain ⟨q, hq, hqlt, rfl⟩ := mem_pathMarks h2 hb.2
    have hb1 := path_bounds hp
    have hb2 := path_bounds hq
    have : p.2 < q.1 ∨ q.2 < p.1 := by
      rcases List.getElem_of_mem hp with ⟨i, hi, rfl⟩
      rcases List.getElem_of_mem hq with ⟨j, hj, rfl⟩
      rw [List.pairwise_iff_getElem] at hord
      rcases Nat.lt_trichotomy i j with h | h | h
      · exact .inl (hord i j hi hj h)
      · subst h
        exact absurd rfl hne
      · exact .inr (hord j i hj hi h)
    simp only [mark]
    clear hne
    omega
  · intro g hg
    have h := hg.1
    rw [hm] at h
    obtain ⟨p, _, rfl⟩ := mem_groupMarks h hg.2
    exact ⟨rfl, rfl, rfl, rfl⟩
  · intro g h hg hh hsub
    have hsub' := hsub.filter fun m => decide (m.name = some c!"group")
    rw [hgroups, List.filter_eq_self.2] at hsub'
    · have hp : ((markGroups opening closing s.input).map fun p => mark c!"group" p.1 p.2).Pairwise fun x y => x.stop < y.stop := by
        rw [List.pairwise_map]
        exact hnest.imp fun {a b} hab => hab.1
      have := hp.sublist hsub'
      rw [List.pairwise_pair] at this
      exact Nat.le_of_lt this
    · intro m hm'
      rw [decide_eq_true_eq]
      rcases List.mem_cons.1 hm' with rfl | hm'
      · exact hg.2
      · rw [List.mem_singleton] at hm'
        exact hm' ▸ hh.2

end Guessit
