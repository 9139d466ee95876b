import Verif.Props.SeasonWordsFound
import Verif.Props.PartExamples
import Verif.Props.Detached

/-! # C141: examples, and an exception -/

namespace Guessit
open Spec Re

theorem latin_literal : Literal (latinRx 'ſ') := by
  intro l hl c
  have hall : ∀ l ∈ c!"&" ++ seps, upLetter l = l ∧ l ≠ 's' := by decide +kernel
  simp [latinRx, hall l hl]

theorem defaultEpisodes_plainSeasons : PlainSeasons defaultEpisodes where
  separators := by
    have h : ∀ w ∈ defaultEpisodes.rangeSeparators ++ defaultEpisodes.discreteSeparators, ((c!"&" ++ seps).any fun c => w == [c]) = true ∨
        ((w ≠ [] ∧ ∀ c ∈ w, c ∈ c!"abcdefghijklmnopqrstuvwxyz") ∧ ∀ w' ∈ seasonWords, ¬ w <+: w' ∧ ¬ w' <+: w) := by decide +kernel
    intro w hw
    rcases h w hw with h | h
    · left
      obtain ⟨c, hc, he⟩ := List.any_eq_true.1 h
      exact ⟨c, hc, by simpa using he⟩
    · exact .inr h

theorem defaultOf_lettered : ∀ w ∈ defaultEpisodeWords.ofWords, Lettered w := defaultWords_plain.of

theorem defaultOf_prefix : ∀ w ∈ defaultEpisodeWords.ofWords, ∀ w' ∈ defaultEpisodeWords.ofWords, w <+: w' → w = w' := by decide

/-- What is reported, with the values. -/
def seasonsIn (s : Str) : List (Str × Nat × Nat × Option Int) :=
  (seasonsWorded (latinRx 'ſ') defaultEpisodes seasonWords defaultEpisodeWords.ofWords s).map fun m => (m.name, m.start, m.stop, m.value.toOption)

example : seasonsIn c!"Show Season 2" = [(c!"season", 12, 13, some 2)] := by decide +kernel
example : seasonsIn c!"Show.Seasons.1-3" = [(c!"season", 13, 14, some 1), (c!"season", 15, 16, some 3)] := by decide +kernel
example : seasonsIn c!"Show.Temporada XIV.avi" = [(c!"season", 15, 18, some 14)] := by decide +kernel
example : seasonsIn c!"Show saison trois" = [(c!"season", 12, 17, some 3)] := by decide +kernel
example : seasonsIn c!"Season 1of3" = [(c!"season", 7, 8, some 1), (c!"count", 10, 11, some 3)] := by decide +kernel
/-- Not before separators. -/
example : seasonsIn c!"Preseason 2" = [] := by decide +kernel
example : seasonsIn c!"Season 2x" = [] := by decide +kernel
/-- A Roman numeral stands between separators. -/
example : seasonsIn c!"SeasonII" = [] := by decide +kernel

/-- C141, an exception: number words that begin with a Roman numeral or another number word are not read: that one is read, and it does not stand between separators (the
French ten is one, for 509). -/
theorem C141_words_exception : (∀ w ∈ [c!"deux", c!"cinq", c!"douze", c!"vingt", c!"eighteen", c!"fourteen", c!"sixteen", c!"seventeen"],
    seasonsIn (c!"saison " ++ w) = []) ∧ seasonsIn c!"saison dix" = [(c!"season", 7, 10, some 509)] := by
  decide +kernel

/-- When the numeral of the first season does not stand between separators, the seasons after it are not reported either. -/
example : seasonsIn c!"preseasonvi - 3" = [] ∧ seasonsIn c!"seasonvi - 3" = [] := by decide +kernel

end Guessit
