import Verif.Props.Whole

/-! # C153 to C157: what `guessit` returns -/

namespace Guessit
open Spec

section
variable (O : Outside) (base : RuleEnv) (hl : ∀ t, base.uni.lower t = [] ↔ t = []) (obj : Nat → PyVal) (sh : Str → Except PyErr (List Str))
  (pa : List Str → Except PyErr Dict) (int : Dict → Except PyErr PyVal) (env : Env) (st : Api Unit) (name : NameArg) (o : OptArg) (d opts : Dict)
  (ho : optionsInForce (guessitSys O base obj sh pa int) env st o = .ok opts)
  (h : (st.guessit (guessitSys O base obj sh pa int) env name o).2 = .value (.dict d))
include hl ho h

/-- C153: whatever the name, the options, the configuration files and the calls made before, every key of the dictionary that `guessit` returns is a
documented property, one of three that are not documented, `input_string`, or `another` where `other` is excluded. -/
theorem C153_keys : ∀ k v, d.get? k = some v → ∃ n, k = .str n ∧ (n ∈ documented ++ undocumented ∨ n = c!"input_string" ∨
    n = c!"another" ∧ isDisabled opts c!"other" = true) := by
  obtain ⟨gs, text, s, ha⟩ := guess_answers ho h
  intro k v hk
  rcases ha.keys k v hk with ⟨n, hn, m, hm, hmn⟩ | hn
  · obtain ⟨n', hn', hd⟩ := C146_names_partial _ (program_natural hl ha.grown) opts _ s (grown_gives ha.grown) ha.run m hm
    rw [hmn] at hn'
    cases hn'
    refine ⟨n, hn, ?_⟩
    rcases hd with hd | hd
    · exact Or.inl hd
    · exact Or.inr (Or.inr hd)
  · exact ⟨_, hn, Or.inr (Or.inl rfl)⟩

/-- C154: for each of the properties of `excludable`, a property that is excluded, or left out of a non-empty `includes`, is not in the dictionary. -/
theorem C154_excluded_partial (excludes includes : List Str) (n : Str)
    (hex : NamesOption (opts.getD (.str c!"excludes")) excludes) (hin : NamesOption (opts.getD (.str c!"includes")) includes)
    (hn : n ∈ excludes ∨ (includes ≠ [] ∧ n ∉ includes)) (hk : n ∈ excludable) : ¬ Has d n := by
  obtain ⟨gs, text, s, ha⟩ := guess_answers ho h
  have hne : n ≠ c!"input_string" := by
    rintro rfl
    revert hk
    decide
  rw [ha.has n hne]
  rintro ⟨m, hm, hmn⟩
  exact C18_engine_partial _ (program_natural hl ha.grown) opts _ s excludes includes n hex hin hn hk (grown_gives ha.grown) ha.run m hm hmn

/-- C155: unless `type` is excluded, the dictionary has one `type`: the one asked for, and otherwise `episode` or `movie`, according to the other keys. -/
theorem C155_type (hb : name.isBytes = false) (hon : isDisabled opts c!"type" = false) :
    ∃ t, d.get? (.str c!"type") = some (oneValue opts (.str t)) ∧
      (∀ a, typeOption opts = some a → a ≠ [] → t = a) ∧
      ((typeOption opts = none ∨ typeOption opts = some []) → (t = c!"episode" ∨ t = c!"movie") ∧
        (Has d c!"episode" ∨ Has d c!"season" ∨ Has d c!"episode_details" ∨ Has d c!"absolute_episode" → t = c!"episode") ∧
        (¬ Has d c!"film" → ¬ Has d c!"year" → Has d c!"date" ∨ Has d c!"bonus" → t = c!"episode") ∧
        (¬ Has d c!"episode" → ¬ Has d c!"season" → ¬ Has d c!"episode_details" → ¬ Has d c!"absolute_episode" →
          (Has d c!"film" ∨ (Has d c!"year" ∨ ¬ Has d c!"date" ∧ ¬ Has d c!"bonus") ∧ ¬ Has d c!"crc32") → t = c!"movie")) := by
  obtain ⟨gs, text, s, ha⟩ := guess_answers ho h
  obtain ⟨m, hm, hmn, hone, hgiven, helse⟩ := C147_type _ (program_natural hl ha.grown) opts _ s (grown_gives ha.grown) hon ha.run
  have hcase : (∃ a, typeOption opts = some a ∧ a ≠ []) ∨ typeOption opts = none ∨ typeOption opts = some [] := by
    cases hto : typeOption opts with
    | none => exact Or.inr (Or.inl rfl)
    | some a =>
      cases a with
      | nil => exact Or.inr (Or.inr rfl)
      | cons c a => exact Or.inl ⟨_, rfl, by simp⟩
  have hval : ∃ t, m.value s.input = .str t := by
    rcases hcase with ⟨a, h1, h2⟩ | h1
    · exact ⟨a, hgiven a h1 h2⟩
    · by_cases hev : EpisodeEvidence s.live
      · exact ⟨_, (helse h1).1 hev⟩
      · exact ⟨_, (helse h1).2 hev⟩
  obtain ⟨t, ht⟩ := hval
  have hget := ha.one hb c!"type" m (by decide) hone (by rw [ht]; intro l hh; cases hh)
  rw [ht] at hget
  refine ⟨t, hget, fun a h1 h2 => ?_, fun h1 => ?_⟩
  · have := hgiven a h1 h2
    rw [ht] at this
    cases this
    rfl
  · have hy : EpisodeEvidence s.live → t = c!"episode" := by
      intro hev
      have := (helse h1).1 hev
      rw [ht] at this
      cases this
      rfl
    have hn : ¬ EpisodeEvidence s.live → t = c!"movie" := by
      intro hev
      have := (helse h1).2 hev
      rw [ht] at this
      cases this
      rfl
    rw [ha.has c!"episode" (by decide), ha.has c!"season" (by decide), ha.has c!"episode_details" (by decide), ha.has c!"absolute_episode" (by decide),
      ha.has c!"film" (by decide), ha.has c!"year" (by decide), ha.has c!"date" (by decide), ha.has c!"bonus" (by decide), ha.has c!"crc32" (by decide)]
    refine ⟨?_, fun h2 => hy (Or.inl h2), fun h2 h3 h4 => hy (Or.inr ⟨h2, Or.inl ⟨h4, h3⟩⟩), fun h2 h3 h4 h5 h6 => hn ?_⟩
    · by_cases hev : EpisodeEvidence s.live
      · exact Or.inl (hy hev)
      · exact Or.inr (hn hev)
    · rintro (h7 | ⟨h7, h8⟩)
      · rcases h7 with h7 | h7 | h7 | h7
        · exact h2 h7
        · exact h3 h7
        · exact h4 h7
        · exact h5 h7
      · rcases h6 with h6 | ⟨h6, h9⟩
        · exact h7 h6
        · rcases h8 with ⟨h8, h10⟩ | ⟨h8, _⟩
          · rcases h6 with h6 | ⟨h6, h11⟩
            · exact h10 h6
            · rcases h8 with h8 | h8
              · exact h6 h8
              · exact h11 h8
          · exact h9 h8

/-- C156: unless `mimetype` is excluded, the dictionary has the type that `mimetypes.guess_type` gives to the name, and no `mimetype` if it gives none. -/
theorem C156_mimetype (hb : name.isBytes = false) (hon : isDisabled opts c!"mimetype" = false) : ∃ text, name.text = .ok text ∧
    (∀ v, base.mime text = some v → v ≠ [] → d.get? (.str c!"mimetype") = some (oneValue opts (.str v))) ∧
    ((base.mime text = none ∨ base.mime text = some []) → ¬ Has d c!"mimetype") := by
  obtain ⟨gs, text, s, ha⟩ := guess_answers ho h
  obtain ⟨h1, h2⟩ := C150_mimetype _ (program_natural hl ha.grown) opts _ s (grown_gives ha.grown) hon ha.run
  refine ⟨text, ha.named, fun v hv hne => ?_, fun hv => ?_⟩
  · obtain ⟨m, hm, hval, _, _⟩ := h1 v hv hne
    have hget := ha.one hb c!"mimetype" m (by decide) hm (by rw [hval]; intro l hh; cases hh)
    rwa [hval] at hget
  · rw [ha.has c!"mimetype" (by decide)]
    exact h2 hv

/-- C157: a dictionary with a year and an episode has a season. -/
theorem C157_season (hy : Has d c!"year") (he : Has d c!"episode") : Has d c!"season" := by
  obtain ⟨gs, text, s, ha⟩ := guess_answers ho h
  rw [ha.has _ (by decide)] at hy he ⊢
  exact C149_season _ opts _ s ha.run hy he

end

end Guessit
