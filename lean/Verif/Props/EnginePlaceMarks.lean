import Verif.Props.EnginePlaceRun
import Verif.Props.EngineMarks
import Verif.Props.EnginePlaceExamples

/-! # C152 with the markers the engine makes -/

namespace Guessit
open Spec

theorem marksOf_marked {context : Dict} {opening closing : Str} (hdis : ∀ c ∈ opening, c ∉ closing) (hsep : ∀ c ∈ opening ++ closing, c ∈ seps) {s : Ms}
    (hm : s.markers = marksOf context opening closing s.input) : Marked s := by
  have hgroup : ∀ g, InGroups s g → ∃ p ∈ markGroups opening closing s.input, g = mark c!"group" p.1 p.2 := by
    rintro g ⟨hg, hn⟩
    rw [hm] at hg
    exact mem_groupMarks hg hn
  refine ⟨?_, ?_, ?_⟩
  · intro m h
    rw [hm] at h
    rcases marks_kind h with hn | hn
    · obtain ⟨p, hp, hlt, rfl⟩ := mem_pathMarks h hn
      have := path_bounds hp
      simp only [mark]
      omega
    · obtain ⟨p, hp, rfl⟩ := mem_groupMarks h hn
      have := C24_delimited opening closing s.input hdis p.1 p.2 hp
      simp only [mark]
      omega
  · intro g hg
    obtain ⟨p, _, rfl⟩ := hgroup g hg
    exact ⟨rfl, rfl, rfl, rfl⟩
  · intro g hg i hi c hc
    obtain ⟨p, hp, rfl⟩ := hgroup g hg
    obtain ⟨h1, h2, ⟨o, ho, ho2⟩, ⟨d, hd, hd2⟩⟩ := C24_delimited opening closing s.input hdis p.1 p.2 hp
    rcases hi with hi | hi
    · have : i = p.1 := hi
      subst this
      rw [ho2] at hc
      cases hc
      exact hsep _ (List.mem_append_left _ ho)
    · have : i = p.2 - 1 := by
        have : i + 1 = p.2 := hi
        omega
      subst this
      rw [hd2] at hc
      cases hc
      exact hsep _ (List.mem_append_right _ hd)

theorem marksOf_groups {context : Dict} {opening closing input : Str} : named (marksOf context opening closing input) c!"group" =
    (markGroups opening closing input).map fun p => mark c!"group" p.1 p.2 := by
  unfold named
  rw [marksOf, List.filter_append, List.filter_eq_nil_iff.2, List.nil_append, List.filter_eq_self]
  · intro m h
    obtain ⟨p, _, rfl⟩ := List.mem_map.1 h
    exact decide_eq_true rfl
  · intro m h
    obtain ⟨p, _, rfl⟩ := List.mem_map.1 h
    show ¬ decide (some c!"path" = some c!"group") = true
    decide

/-- What the patterns found: distinct objects, non-empty stretches of the name. -/
structure Fresh (input : Str) (found : List Mt) : Prop where
  ids : (found.map Mt.id).Nodup
  raw : ∀ m ∈ found, m.rawStart = none ∧ m.rawStop = none
  spans : ∀ m ∈ found, m.start < m.stop ∧ m.stop ≤ input.length

theorem marksOf_before {context : Dict} {opening closing : Str} (hdis : ∀ c ∈ opening, c ∉ closing) {s : Ms}
    (hm : s.markers = marksOf context opening closing s.input) (hf : Fresh s.input s.live) : Early s := by
  have hd := C24_delimited opening closing s.input hdis
  have hnest := C24_well_nested opening closing s.input
  refine ⟨hf.ids, hf.raw, ?_, ?_, ?_⟩
  · intro g hg hn
    rw [hm] at hg
    obtain ⟨p, hp, rfl⟩ := mem_groupMarks hg hn
    have := hd p.1 p.2 hp
    simp only [mark]
    omega
  · rw [hm, marksOf_groups, List.map_map]
    unfold List.Nodup
    rw [List.pairwise_map]
    refine List.Pairwise.imp_of_mem (fun {a b} ha hb hab heq => ?_) hnest
    have h1 : a.1 = b.1 := heq
    have := hd a.1 a.2 ha
    omega
  · rw [hm, marksOf_groups, List.map_map]
    unfold List.Nodup
    rw [List.pairwise_map]
    refine hnest.imp fun {a b} hab heq => ?_
    have h1 : a.2 = b.2 := heq
    omega

/-- C152 for the markers that guessit makes of the name: whatever is reported is a non-empty stretch of the name of the file, except the
`type` and the `mimetype`, which are at its end. -/
theorem C152_name (e : RuleEnv) (he : Natural e) (context : Dict) (opening closing input : Str) (hdis : ∀ c ∈ opening, c ∉ closing)
    (hsep : ∀ c ∈ opening ++ closing, c ∈ seps) (found : List Mt) (hf : PatternsGive context input found) (hfresh : Fresh input found)
    (hi : Inside e input) (s' : Ms)
    (h : engine e context { input := input, live := found, markers := marksOf context opening closing input } = .ok s') :
    ∀ m ∈ s'.live, (m.name ≠ some c!"type" → m.name ≠ some c!"mimetype" → m.start < m.stop ∧ m.stop ≤ input.length) ∧
      (m.name = some c!"type" ∨ m.name = some c!"mimetype" → m.start = input.length ∧ m.stop = input.length) :=
  C152_place e he context { input := input, live := found, markers := marksOf context opening closing input } s' hf hi
    (marksOf_marked hdis hsep rfl) (marksOf_before hdis rfl hfresh) hfresh.spans h

theorem bracketed_fresh : Fresh bracketed.input bracketed.live where
  ids := bracketed_before.ids
  raw := bracketed_before.raw
  spans := by decide

/-- The hypotheses hold of `[GRP].Pilot.720p.mkv`, with the brackets of the shipped configuration. -/
example (s' : Ms) (h : engine asciiEnv [] { input := bracketed.input, live := bracketed.live, markers := marksOf [] c!"([{" c!")]}" bracketed.input } = .ok s') :
    ∀ m ∈ s'.live, (m.name ≠ some c!"type" → m.name ≠ some c!"mimetype" → m.start < m.stop ∧ m.stop ≤ 20) ∧
      (m.name = some c!"type" ∨ m.name = some c!"mimetype" → m.start = 20 ∧ m.stop = 20) :=
  C152_name asciiEnv asciiEnv_natural [] c!"([{" c!")]}" bracketed.input (by decide) (by decide) bracketed.live bracketed_given bracketed_fresh
    (asciiEnv_inside _) s' h

end Guessit
