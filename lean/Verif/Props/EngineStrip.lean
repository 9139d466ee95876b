import Verif.Props.EnginePlaceRun
import Verif.Props.EnginePlaceExamples

/-! # C37 for what is reported -/

namespace Guessit
open Spec

/-- A text that begins with a separator other than a bracket only if it reads like an acronym there: the third character is such a separator too. -/
def Spec.BareFront (t : Str) : Prop := ∀ c rest, t = c :: rest → BareSep c → ∃ x y z more, t = x :: y :: z :: more ∧ BareSep z

theorem frontStep_fixed {t : Str} (h : frontStep t = t) : BareFront t := by
  rintro c rest rfl hc
  match rest with
  | [] =>
    rw [frontStep, if_pos (by simp [List.contains_iff_mem.1 (bareSep_iff.2 hc)])] at h
    simp at h
  | [d] =>
    rw [frontStep, if_pos (by simp [List.contains_iff_mem.1 (bareSep_iff.2 hc)])] at h
    simp at h
  | d :: z :: more =>
    refine ⟨c, d, z, more, rfl, ?_⟩
    by_contra hz
    have hz' : z ∉ sepsNoGroups := fun hh => hz (bareSep_iff.1 (List.contains_iff_mem.2 hh))
    rw [frontStep, if_pos (by simp [List.contains_iff_mem.1 (bareSep_iff.2 hc), hz'])] at h
    have := congrArg List.length h
    simp at this

/-- After two steps there is nothing left to do. -/
theorem frontStep_stable (t : Str) (ht : frontStep (frontStep t) ≠ []) : frontStep (frontStep (frontStep t)) = frontStep (frontStep t) := by
  rcases frontStep_eq (frontStep t) with h | ⟨c, h, hc⟩
  · rw [h, h]
  · rcases frontStep_eq t with h' | ⟨d, h', hd⟩
    · simp only [h']
    · generalize hu : frontStep (frontStep t) = u at *
      rw [h] at h'
      match u, ht with
      | x :: rest, _ =>
        subst h'
        have hx : ¬ BareSep x := by
          intro hx
          have h1 : frontStep (d :: c :: x :: rest) = d :: c :: x :: rest := by
            rw [frontStep, if_neg (by simp [List.contains_iff_mem.1 (bareSep_iff.2 hx)])]
          rw [h1] at h
          have := congrArg List.length h
          simp at this
        rw [frontStep, if_neg]
        simp only [Bool.and_eq_true, not_and]
        intro hh
        exact absurd (bareSep_iff.1 hh) hx

/-- Stripping the end keeps the front clean. -/
theorem frontStep_end {t : Str} (h : BareFront t) (hn : (frontStep t.reverse).reverse ≠ []) : BareFront (frontStep t.reverse).reverse := by
  rcases frontStep_eq t.reverse with h1 | ⟨c, h1, hc⟩
  · rw [h1, List.reverse_reverse]; exact h
  · have ht : t = (frontStep t.reverse).reverse ++ [c] := by
      have := congrArg List.reverse h1
      simpa using this
    rintro x rest hx hxs
    obtain ⟨p, q, z, more, h2, hz⟩ := h x (rest ++ [c]) (by rw [ht, hx]; rfl) hxs
    rw [hx] at ht
    rw [ht, List.cons_append, List.cons.injEq] at h2
    obtain ⟨rfl, h2⟩ := h2
    match rest with
    | [] => simp at h2
    | [d] =>
      simp only [List.cons_append, List.nil_append, List.cons.injEq] at h2
      obtain ⟨rfl, rfl, _⟩ := h2
      subst ht
      simp only [List.cons_append, List.nil_append, List.reverse_cons, List.reverse_nil] at h1
      have : frontStep [c, d, x] = [c, d, x] := by
        rw [frontStep, if_neg (by simp [List.contains_iff_mem.1 (bareSep_iff.2 hxs)])]
      simp [this] at h1
    | d :: z' :: more' =>
      simp only [List.cons_append, List.cons.injEq] at h2
      obtain ⟨rfl, rfl, _⟩ := h2
      exact ⟨x, d, z', more', hx, hz⟩

/-- A text that was stripped: it is not empty, and a separator other than a bracket is at one of its ends only in an acronym. -/
structure Spec.Bare (t : Str) : Prop where
  some : t ≠ []
  front : BareFront t
  back : BareFront t.reverse

theorem stripMatch_bare {input : Str} {m m' : Mt} (hb : m.rawB ≤ input.length) (h : stripMatch input m = .ok m') : Bare (m'.raw input) := by
  obtain ⟨_, h2, h3⟩ := stripMatch_spec input m hb
  obtain ⟨a, b, e, hr⟩ := h2 m' h
  have hok : ¬ ∃ x, stripMatch input m = .error x := by rintro ⟨x, hx⟩; rw [h] at hx; cases hx
  rw [h3] at hok
  have hmore := mt (C37_fails_iff input m hb).2.2 (by rw [h3]; exact hok)
  simp only [not_or] at hok
  obtain ⟨k1, k2, k3, k4⟩ := hok
  generalize hu : frontStep (frontStep (m.raw input)) = u at *
  have hst : stripText (m.raw input) = (frontStep (frontStep u.reverse)).reverse := by rw [stripText, hu]
  have hfu : BareFront u := frontStep_fixed (by rw [← hu]; exact frontStep_stable _ (by rw [hu]; exact k3))
  have hf1 : BareFront (frontStep u.reverse).reverse := frontStep_end hfu (by simpa using k4)
  have hne : frontStep (frontStep u.reverse) ≠ [] := by
    intro hh
    rcases frontStep_nil.1 hh with h5 | ⟨c, h5, hc⟩
    · exact k4 h5
    · have := hf1 c [] (by rw [h5]; rfl) hc
      rw [h5] at this
      obtain ⟨x, y, z, more, h6, _⟩ := this
      simp at h6
  rw [hr, hst]
  refine ⟨by simpa using hne, ?_, ?_⟩
  · have := frontStep_end (t := (frontStep u.reverse).reverse) hf1 (by simpa using hne)
    simpa using this
  · rw [List.reverse_reverse]
    exact frontStep_fixed (frontStep_stable _ hne)

/-- C37 for what is reported: the text of a match is not empty, and neither begins nor ends with a separator that is not a bracket, unless
it is an acronym there. -/
theorem C37_reported (e : RuleEnv) (he : Natural e) (context : Dict) (s s' : Ms) (hi : Inside e s.input)
    (hk : Marked s) (hb : Early s) (hw : WellFormed s.input s.live) (h : engine e context s = .ok s') :
    ∀ m ∈ s'.live, m.name ≠ some c!"type" → m.name ≠ some c!"mimetype" → Bare (m.raw s.input) := by
  obtain ⟨xs, ys, t, u, hxs, h1, ht, h3, hfol, h4, _⟩ := strip_split he hi hk hb hw h
  have hti := (run_input he h1).1
  have hu : ∀ m ∈ u.live, Bare (m.raw s.input) := by
    have h5 : stripSeparators t = .ok u := h3
    unfold stripSeparators at h5
    split at h5
    · cases h5
    · rename_i l hl
      cases h5
      intro m hm
      obtain ⟨x, hx, hs⟩ := stripAll_mem hl m hm
      have := stripMatch_bare (ht.2 x hx) hs
      rwa [hti] at this
  refine run_keeps (P := fun t => ∀ m ∈ t.live, m.name ≠ some c!"type" → m.name ≠ some c!"mimetype" → Bare (m.raw s.input)) ?_ h4 fun m hm _ _ => hu m hm
  intro d hd a b hab ha
  rcases hfol d hd with rfl | rfl | rfl
  · cases hab
    unfold renameEpisodeTitleWhenMovie
    split
    · intro m hm
      rcases renameEach_mem hm with h | ⟨x, hx, rfl⟩
      · exact ha m h
      · have hx' := mem_named.1 hx
        intro _ _
        exact ha x hx'.1 (by rw [hx'.2]; decide) (by rw [hx'.2]; decide)
    · exact ha
  · cases hab
    unfold mimetypeRule
    split
    · intro m hm
      rcases List.mem_append.1 hm with hm | hm
      · exact ha m hm
      · rw [List.mem_singleton] at hm
        subst hm
        exact fun _ h2 => absurd rfl h2
    · exact ha
  · cases hab
    unfold typeProcessor
    intro m hm
    rcases List.mem_append.1 hm with hm | hm
    · exact ha m hm
    · rw [List.mem_singleton] at hm
      subst hm
      exact fun h1 => absurd rfl h1

/-- The hypotheses hold of `[GRP].Pilot.720p.mkv`. -/
example (s' : Ms) (h : engine asciiEnv [] bracketed = .ok s') :
    ∀ m ∈ s'.live, m.name ≠ some c!"type" → m.name ≠ some c!"mimetype" → Bare (m.raw bracketed.input) :=
  C37_reported asciiEnv asciiEnv_natural [] bracketed s' (asciiEnv_inside _) bracketed_marked bracketed_before
    (by unfold WellFormed; decide) h

end Guessit
