import Verif.Props.NumberingListed
import Verif.Props.SeasonEpisodeExamples

/-! # C128: what is reported is written; examples -/

namespace Guessit
open Spec Re

section
variable {E : RxEnv} {C : EpisodeConfig} {s : Str}

theorem numbers_hit {k : Numbering} {h0 : RxHit} {ws : List RxHit} (h1 : (k.firstRe E).matchAt s h0.start = some (h0.stop, h0.caps))
    (h3 : Of s [E.versionRe, k.moreRe E] ws) : ∀ h ∈ ws, (VersionAt E s h.start h.stop ∧ h.caps = [(8, (h.start + 1, h.stop))]) ∨
      ∃ d, MarkAt E (joiners k) s h.start d ∧ Few E (digitsListed k).1 (digitsListed k).2 s d h.stop ∧ h.caps = [(2, (d, h.stop)), (5, (h.start, d))] := by
  intro h hh
  obtain ⟨r, g1, g2⟩ := h3 h hh
  simp only [List.mem_cons, List.not_mem_nil, or_false] at g1
  rcases g1 with rfl | rfl
  · obtain ⟨g3, g4⟩ := mem_version.1 (matchAt_mem g2)
    exact .inl ⟨g3, g4⟩
  · obtain ⟨d, g3, g4, g5⟩ := mem_more.1 (matchAt_mem g2)
    exact .inr ⟨d, g3, g4, g5⟩

theorem numbers_step {k : Numbering} {h0 : RxHit} {ws : List RxHit} (h1 : (k.firstRe E).matchAt s h0.start = some (h0.stop, h0.caps))
    (h3 : Of s [E.versionRe, k.moreRe E] ws) : ∀ h ∈ ws, NumberStep E k s h.start h.stop := by
  intro h hh
  rcases numbers_hit h1 h3 h hh with ⟨g, _⟩ | ⟨d, g1, g2, _⟩
  · exact .inl g
  · exact .inr ⟨d, g1, g2⟩

theorem numberedAt_season {k : Numbering} {i d j a b : Nat} (h : NumberedAt E k s i (some (a, b)) d j) : a < b ∧ AllOf s (Digit E) a b := by
  cases k with
  | two => cases h.1
  | long => cases h.1
  | one => cases h.1
  | marked =>
    rcases h.1 with ⟨h1, _⟩ | ⟨b', h1, h2, _⟩
    · cases h1
    · cases h1; exact h2.run (by decide)
  | duplicate =>
    obtain ⟨h1, h2, _⟩ := h
    cases h1; exact h2.run (by decide)

theorem numberedAt_episode {k : Numbering} {i d j : Nat} {season : Option (Nat × Nat)} (h : NumberedAt E k s i season d j) : d < j ∧ AllOf s (Digit E) d j := by
  cases k with
  | two => obtain ⟨_, rfl, h⟩ := h; exact h.run (by decide)
  | long => obtain ⟨_, rfl, h⟩ := h; exact h.run (by decide)
  | one => obtain ⟨_, rfl, h⟩ := h; exact h.run (by decide)
  | marked => exact h.2.run (by decide)
  | duplicate => exact h.2.2.run (by decide)

/-- C128: an episode, or a season, that a chain of numbers reports is written as the chain asks: after a separator, the first numbers, then maybe a version
and more numbers, up to a separator; its value is its number. -/
theorem C128_sound (hE : Usual E) {k : Numbering} {m : RxMatch Int} (hm : m ∈ (EpisodeChain.numbers k).found E C s) : ∃ i season d j e,
    NumberedAt E k s i season d j ∧ ManySteps (NumberStep E k s) j e ∧ Standing s i e ∧
    ((m.name = c!"season" ∧ season = some (m.start, m.stop)) ∨ (m.name = c!"episode" ∧ ((m.start = d ∧ m.stop = j) ∨
      ∃ x, ManySteps (NumberStep E k s) j x ∧ MarkAt E (joiners k) s x m.start ∧ Few E (digitsListed k).1 (digitsListed k).2 s m.start m.stop ∧ ManySteps (NumberStep E k s) m.stop e))) ∧
    m.value = .ok (numberAt E s m.start m.stop) := by
  simp only [EpisodeChain.found, List.mem_flatMap] at hm
  obtain ⟨ks, g1, h, g2, h6⟩ := hm
  obtain ⟨h0, ws, h1, h2, h3, h4, h5⟩ := kept_within (chainOf_once rfl) g1 g2
  obtain ⟨h7, h8⟩ := mem_numbersOf h6
  obtain ⟨season, d, hna, hc1, hc2, hc5, hc6, hc8⟩ := numbered_sound (matchAt_mem h1)
  have hstep := numbers_step h1 h3
  have hsay : ((m.name = c!"season" ∧ season = some (m.start, m.stop)) ∨ (m.name = c!"episode" ∧ ((m.start = d ∧ m.stop = h0.stop) ∨
      ∃ x, ManySteps (NumberStep E k s) h0.stop x ∧ MarkAt E (joiners k) s x m.start ∧ Few E (digitsListed k).1 (digitsListed k).2 s m.start m.stop ∧
        ManySteps (NumberStep E k s) m.stop (lastStop h0.stop ws)))) := by
    rcases List.mem_cons.1 h5 with rfl | h5
    · rcases h7 with ⟨e, h7⟩ | ⟨e, h7⟩
      · exact .inl ⟨e, hc1.symm.trans h7⟩
      · rw [hc2, Option.some.injEq, Prod.mk.injEq] at h7
        exact .inr ⟨e, .inl ⟨h7.1.symm, h7.2.symm⟩⟩
    · obtain ⟨f1, f2⟩ := follow_at ws _ h2 hstep h5
      rcases numbers_hit h1 h3 h h5 with ⟨_, g4⟩ | ⟨d', g3, g5, g4⟩
      · rw [g4] at h7
        rcases h7 with ⟨e, h7⟩ | ⟨e, h7⟩ <;> simp only [List.lookup] at h7 <;> simp at h7
      · rw [g4] at h7
        rcases h7 with ⟨e, h7⟩ | ⟨e, h7⟩ <;> simp only [List.lookup] at h7 <;> simp at h7
        obtain ⟨rfl, h7⟩ := h7
        rw [h7] at g5 f2
        exact .inr ⟨e, .inr ⟨h.start, f1, g3, g5, f2⟩⟩
  refine ⟨h0.start, season, d, h0.stop, lastStop h0.stop ws, hna, follow_steps ws _ h2 hstep, h4, hsay, ?_⟩
  rw [h8]
  refine (groupNumber_eq hE ?_).2
  rcases hsay with ⟨_, g⟩ | ⟨_, ⟨g, g'⟩ | ⟨x, _, _, g, _⟩⟩
  · rw [g] at hna; exact numberedAt_season hna
  · rw [g, g']; exact numberedAt_episode hna
  · exact g.run (numbering_least k)

/-- C128: a version that a chain of numbers reports is written right after `v`, in such a chain. -/
theorem C128_sound_version (hE : Usual E) {k : Numbering} {m : RxMatch Int} (hm : m ∈ (EpisodeChain.numbers k).versions E C s) : ∃ i season d j x e,
    NumberedAt E k s i season d j ∧ ManySteps (NumberStep E k s) j x ∧ VersionAt E s x m.stop ∧ m.start = x + 1 ∧ ManySteps (NumberStep E k s) m.stop e ∧
    Standing s i e ∧ m.name = c!"version" ∧ m.value = .ok (numberAt E s m.start m.stop) := by
  simp only [EpisodeChain.versions, List.mem_flatMap, List.mem_filterMap, Option.map_eq_some_iff] at hm
  obtain ⟨ks, g1, h, g2, x, g3, rfl⟩ := hm
  obtain ⟨h0, ws, h1, h2, h3, h4, h5⟩ := kept_within (chainOf_once rfl) g1 g2
  obtain ⟨season, d, hna, hc1, hc2, hc5, hc6, hc8⟩ := numbered_sound (matchAt_mem h1)
  have hstep := numbers_step h1 h3
  rcases List.mem_cons.1 h5 with rfl | h5
  · rw [hc8] at g3; cases g3
  · obtain ⟨f1, f2⟩ := follow_at ws _ h2 hstep h5
    rcases numbers_hit h1 h3 h h5 with ⟨g5, g4⟩ | ⟨d', _, _, g4⟩
    · rw [g4] at g3
      simp only [List.lookup, beq_self_eq_true, Option.some.injEq] at g3
      subst g3
      exact ⟨h0.start, season, d, h0.stop, h.start, lastStop h0.stop ws, hna, f1, g5, rfl, f2, h4, rfl, (groupNumber_eq hE g5.2).2⟩
    · rw [g4] at g3
      simp only [List.lookup] at g3
      simp at g3

end

/-! ## Examples -/

def versioned (k : Numbering) (s : Str) : List (Nat × Nat × Option Int) :=
  ((EpisodeChain.numbers k).versions asciiRx defaultEpisodes s).map fun m => (m.start, m.stop, m.value.toOption)

example : chained (.numbers .two) c!"Show 12v2-13" = [(c!"episode", 5, 7, some 12), (c!"episode", 10, 12, some 13)] ∧ versioned .two c!"Show 12v2-13" = [(8, 9, some 2)] := by
  decide +kernel
example : chained (.numbers .long) c!"Show 112x113.mkv 12" = [(c!"episode", 5, 8, some 112), (c!"episode", 9, 12, some 113)] := by decide +kernel
example : chained (.numbers .one) c!"Show 1 12" = [(c!"episode", 5, 6, some 1)] := by decide +kernel
example : chained (.numbers .marked) c!"E112-e113 3e19" = [(c!"episode", 1, 4, some 112), (c!"episode", 6, 9, some 113), (c!"season", 10, 11, some 3), (c!"episode", 12, 14, some 19)] := by decide +kernel
example : chained (.numbers .duplicate) c!"102.1213" = [(c!"season", 0, 1, some 1), (c!"episode", 1, 3, some 2), (c!"season", 4, 6, some 12), (c!"episode", 6, 8, some 13)] := by
  decide +kernel

/-- C128: a number after a number and a dash is not reported when the numbers before are not what the chain asks for: two digits after a year. -/
theorem C128_counterexample_list : chained (.numbers .two) c!"2012-12" = [] ∧ NumberedAt asciiRx .two c!"2012-12" 5 none 5 7 ∧ Standing c!"2012-12" 5 7 := by
  refine ⟨by decide +kernel, ⟨rfl, rfl, by omega, by omega, ?_⟩, .inr ⟨'-', rfl, by decide⟩, .inl (by decide)⟩
  intro k h1 h2
  have hdig : ∀ c ∈ c!"0123456789", asciiRx.u.isDigit c = true := by decide
  obtain rfl | rfl : k = 5 ∨ k = 6 := by omega
  all_goals exact ⟨_, rfl, hdig _ (by decide)⟩

/-- An instance of the hypotheses of C128_complete. -/
example : ({ name := c!"episode", start := 6, stop := 8, value := .ok 2 } : RxMatch Int) ∈ (EpisodeChain.numbers .duplicate).found asciiRx defaultEpisodes c!"Show 102" ∧
    ({ name := c!"season", start := 5, stop := 6, value := .ok 1 } : RxMatch Int) ∈ (EpisodeChain.numbers .duplicate).found asciiRx defaultEpisodes c!"Show 102" := by
  have hdig : ∀ c ∈ c!"0123456789", asciiRx.u.isDigit c = true := by decide
  have := C128_complete (C := defaultEpisodes) asciiRx_usual asciiRx_literal (k := .duplicate) (s := c!"Show 102") (i := 5) (d := 6) (j := 8) (season := some (5, 6))
    ⟨rfl, ⟨by omega, by omega, fun k h1 h2 => by
      obtain rfl : k = 5 := by omega
      exact ⟨_, rfl, hdig _ (by decide)⟩⟩, by omega, by omega, fun k h1 h2 => by
      obtain rfl | rfl : k = 6 ∨ k = 7 := by omega
      all_goals exact ⟨_, rfl, hdig _ (by decide)⟩⟩ ⟨.inr ⟨' ', rfl, by decide⟩, .inl (by decide)⟩ (by
      rintro ⟨_, ⟨c, h1, h2⟩, _⟩
      cases h1; cases h2)
  exact ⟨this.1, this.2 5 6 rfl⟩

end Guessit
