import Verif.Props.EpisodeNumerals
import Verif.Props.SeasonWordsExamples

/-! # C142: examples, and exceptions -/

namespace Guessit
open Spec Re

/-- What is reported, with the values. -/
def episodesIn (s : Str) : List (Str × Nat × Nat × Option Int) :=
  ((numeralPattern (latinRx 'ſ') defaultEpisodeWords).found s).map fun m => (m.name, m.start, m.stop, m.value.toOption)

example : episodesIn c!"Show Episode IV" = [(c!"episode", 13, 15, some 4)] := by decide +kernel
example : episodesIn c!"Show.eps.seven.avi" = [(c!"episode", 9, 14, some 7)] := by decide +kernel
example : episodesIn c!"Show Episode 4v2 of 10" = [(c!"episode", 13, 14, some 4), (c!"version", 15, 16, some 2), (c!"count", 20, 22, some 10)] := by decide +kernel
example : episodesIn c!"Capitulo VI of 12" = [(c!"episode", 9, 11, some 6), (c!"count", 15, 17, some 12)] := by decide +kernel
example : episodesIn c!"Episode12345" = [] := by decide +kernel
example : episodesIn c!"EpisodeIV" = [] := by decide +kernel
example : PlainCase (latinRx 'ſ') c!"Show Episode IV" := by unfold PlainCase; decide +kernel

/-- An instance of the hypotheses of C142_complete. -/
example : (⟨c!"episode", 8, 10, .ok 4⟩ : RxMatch Int) ∈ (numeralPattern (latinRx 'ſ') defaultEpisodeWords).found c!"Episode IV" := by
  have hb : ∀ k, 10 ≤ k → c!"Episode IV"[k]? = none := fun k hk => List.getElem?_eq_none_iff.2 hk
  refine (C142_complete (n := 4) (v := 10) (j := 10) (version := none) (count := none) (w := c!"episode") (i := 0) latin_usual latinUni_cased (by unfold PlainCase; decide +kernel) (by decide)
    ?_ (.inr ⟨rfl, ' ', rfl, by decide⟩) (.inr ⟨⟨.inr ⟨' ', rfl, by decide⟩, .inl (by decide)⟩, by omega, by omega, .inl ⟨by decide, ?_⟩⟩) (.inl ⟨rfl, rfl, ?_⟩)
    (.inl ⟨rfl, rfl, ?_⟩) ⟨.inl rfl, .inl (by decide)⟩ fun h => absurd h (by decide)).1
  · have h : ∀ k < 7, ∀ l, c!"episode"[k]? = some l → ∃ c, c!"Episode IV"[0 + k]? = some c ∧ (latinRx 'ſ').same l c = true := by
      intro k hk l hl
      obtain rfl | rfl | rfl | rfl | rfl | rfl | rfl : k = 0 ∨ k = 1 ∨ k = 2 ∨ k = 3 ∨ k = 4 ∨ k = 5 ∨ k = 6 := by omega
      all_goals
        simp only [List.getElem?_cons_zero, List.getElem?_cons_succ, Option.some.injEq] at hl
        subst hl
        exact ⟨_, rfl, by decide +kernel⟩
    intro k l hl
    exact h k (List.getElem?_eq_some_iff.1 hl).1 l hl
  · rw [show (roman 4).map Char.toLower = c!"iv" by decide]
    intro k l hl
    obtain rfl | rfl : k = 0 ∨ k = 1 := by have := (List.getElem?_eq_some_iff.1 hl).1; simp at this; omega
    all_goals
      simp only [List.getElem?_cons_zero, List.getElem?_cons_succ, Option.some.injEq] at hl
      subst hl
      exact ⟨_, rfl, by decide +kernel⟩
  · rintro y ⟨⟨c, hc, _⟩, _⟩
    rw [hb 10 (by omega)] at hc; cases hc
  · rintro x y ⟨⟨p, q, h1, ⟨w, hw, h2, _⟩, _⟩, _⟩
    have hp := maybeSep_le h1
    have hlet : ∀ w ∈ defaultEpisodeWords.ofWords, w ≠ [] := by decide
    obtain ⟨l, w', rfl⟩ := List.exists_cons_of_ne_nil (hlet w hw)
    obtain ⟨c, hc, _⟩ := h2 0 l rfl
    rw [hb _ (by omega)] at hc; cases hc

/-- C142, an exception: after `Episodio` nothing is found, because `ep` and the Roman numeral `i` are. -/
theorem C142_episodio_exception : episodesIn c!"Episodio 4" = [] ∧ episodesIn c!"Show.Episodios.4" = [] := by decide +kernel

/-- C142, an exception: `Capitulo` after another word for episodes is not found, because its `C` is read as a Roman numeral. -/
theorem C142_capitulo_exception : episodesIn c!"eps capitulo 4" = [] ∧ episodesIn c!"capitulo 4" = [(c!"episode", 9, 10, some 4)] := by decide +kernel

end Guessit
