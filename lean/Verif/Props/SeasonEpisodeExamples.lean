import Verif.Props.SeasonsOnly

/-! # C125, C126, C127: examples -/

namespace Guessit
open Spec Re

theorem asciiRx_literal : Literal asciiRx := by
  intro l hl c
  have hall : ∀ l ∈ c!"&" ++ seps, l.toUpper = l := by decide
  simp [asciiRx, hall l hl]

theorem defaultEpisodes_plain : PlainEpisodes defaultEpisodes where
  markers := by
    have hall : ∀ w ∈ defaultEpisodes.seasonMarkers ++ defaultEpisodes.episodeMarkers ++ defaultEpisodes.discMarkers ++ defaultEpisodes.seasonEpMarkers,
      w ≠ [] ∧ ∀ c ∈ w, c ∈ c!"abcdefghijklmnopqrstuvwxyz" := by decide
    exact hall
  separators := by decide
  apart := by
    intro w hw l hl
    obtain rfl : w = c!"s" := by simpa [defaultEpisodes] using hw
    obtain rfl : l = 's' := by simpa using hl.symm
    decide

/-- What the chains report, with the values. -/
def chained (k : EpisodeChain) (s : Str) : List (Str × Nat × Nat × Option Int) :=
  (k.found asciiRx defaultEpisodes s).map fun m => (m.name, m.start, m.stop, m.value.toOption)

example : chained .sxxexx c!"Show.S01E02.720p" = [(c!"season", 6, 8, some 1), (c!"episode", 9, 11, some 2)] := by decide +kernel
example : chained .sxxexx c!"s01e02E03-4" = [(c!"season", 1, 3, some 1), (c!"episode", 4, 6, some 2), (c!"episode", 7, 9, some 3), (c!"episode", 10, 11, some 4)] := by
  decide +kernel
/-- Far numbers after a dot are not episodes. -/
example : chained .sxxexx c!"s01e02.50" = [(c!"season", 1, 3, some 1), (c!"episode", 4, 6, some 2)] := by decide +kernel
example : chained .sxxexx c!"s01e02s01e03" = [(c!"season", 1, 3, some 1), (c!"episode", 4, 6, some 2), (c!"season", 7, 9, some 1), (c!"episode", 10, 12, some 3)] := by
  decide +kernel
/-- Numbers that are too far apart are left out of the chain, which goes on after them. -/
example : chained .sxxexx c!"s01e02-720-3" = [(c!"season", 1, 3, some 1), (c!"episode", 4, 6, some 2), (c!"episode", 11, 12, some 3)] := by decide +kernel
example : chained .crossedMany c!"Show 1x02" = [(c!"season", 5, 6, some 1), (c!"episode", 7, 9, some 2)] := by decide +kernel
example : chained .crossedList c!"Show 1x02-03" = [(c!"season", 5, 6, some 1), (c!"episode", 7, 9, some 2), (c!"episode", 10, 12, some 3)] := by decide +kernel
example : chained .seasons c!"Show S01-03 S7" = [(c!"season", 6, 8, some 1), (c!"season", 9, 11, some 3), (c!"season", 13, 14, some 7)] := by decide +kernel
example : chained .seasons c!"Show S01S02S03" = [(c!"season", 6, 8, some 1), (c!"season", 9, 11, some 2), (c!"season", 12, 14, some 3)] := by decide +kernel
example : chained .seasons c!"S01Extras-02" = [(c!"season", 1, 3, some 1), (c!"season", 10, 12, some 2)] ∧
    (extrasFound asciiRx defaultEpisodes c!"S01Extras-02").map (fun m => (m.start, m.stop)) = [(3, 9)] := by decide +kernel

/-- An instance of the hypotheses of C125_list: S01E02-04. -/
example : ({ name := c!"episode", start := 7, stop := 9, value := .ok 4 } : RxMatch Int) ∈ EpisodeChain.sxxexx.found asciiRx defaultEpisodes c!"S01E02-04" := by
  have hdig : ∀ c ∈ c!"0123456789", Digit asciiRx c := by
    have : ∀ c ∈ c!"0123456789", asciiRx.u.isDigit c = true := by decide
    exact this
  have hnum : ∀ d, (d = 1 ∨ d = 4 ∨ d = 7) → AllOf c!"S01E02-04" (Digit asciiRx) d (d + 2) := by
    intro d hd k h1 h2
    obtain rfl | rfl | rfl | rfl | rfl | rfl : k = 1 ∨ k = 2 ∨ k = 4 ∨ k = 5 ∨ k = 7 ∨ k = 8 := by omega
    all_goals exact ⟨_, rfl, hdig _ (by decide)⟩
  have hmark : ∀ (ws : List Str) (l c : Char) (i : Nat), [l] ∈ ws → (c!"S01E02-04")[i]? = some c → asciiRx.same l c = true → MarkAt asciiRx ws c!"S01E02-04" i (i + 1) := by
    intro ws l c i h1 h2 h3
    refine ⟨[l], h1, ?_, rfl⟩
    intro n x hn
    cases n with
    | zero =>
      simp only [List.getElem?_cons_zero, Option.some.injEq] at hn
      subst hn
      exact ⟨c, h2, h3⟩
    | succ n => simp at hn
  have h : SeasonEpisodeAt asciiRx defaultEpisodes c!"S01E02-04" 0 1 3 4 6 :=
    ⟨hmark _ 's' 'S' 0 (by decide) rfl (by decide), ⟨by omega, hnum 1 (.inl rfl)⟩,
      ⟨3, 4, .inl rfl, hmark _ 'e' 'E' 3 (by decide) rfl (by decide), .inl rfl⟩, ⟨by omega, hnum 4 (.inr (.inl rfl))⟩⟩
  have hl : ListedAt asciiRx (defaultEpisodes.episodeMarkers ++ defaultEpisodes.discMarkers ++ defaultEpisodes.separators) c!"S01E02-04" 6 [(6, 7, 9)] 9 :=
    .cons ⟨hmark _ '-' '-' 6 (by decide) rfl (by decide), ⟨by omega, hnum 7 (.inr (.inr rfl))⟩⟩ .nil
  have e1 : listedNumbers asciiRx c!"S01E02-04" 4 6 [(6, 7, 9)] = [(none, 2), (some c!"-", 4)] := by decide
  have e2 : numberAt asciiRx c!"S01E02-04" 7 9 = 4 := by decide
  have := (C125_list asciiRx_usual asciiRx_literal defaultEpisodes_plain h hl ⟨.inl rfl, .inl (by decide)⟩ (by
    rw [e1]
    rw [← isSorted_dedup_iff]; rfl) (.inr (by
    rw [e1]
    rintro p sep v ⟨pre, q, post, he⟩ hr
    cases pre with
    | nil =>
      simp only [List.nil_append, List.cons.injEq, Prod.mk.injEq] at he
      obtain ⟨_, ⟨h1, _⟩, _⟩ := he
      cases h1
      exact absurd hr (by decide)
    | cons x pre =>
      have := congrArg List.length he
      simp only [List.length_cons, List.length_nil, List.length_append] at this
      omega)) (by
    rw [e1]
    rintro u v ⟨pre, post, he⟩
    cases pre with
    | nil =>
      simp only [List.map_cons, List.map_nil, List.nil_append, List.cons.injEq] at he
      obtain ⟨rfl, rfl, _⟩ := he
      decide
    | cons x pre =>
      have := congrArg List.length he
      simp only [List.length_cons, List.length_nil, List.length_append, List.map_cons, List.map_nil] at this
      omega)).2 (7, 9) (by simp)
  rw [e2] at this
  exact this

/-- C126: 1x02 between separators is not read as such when an `x` on its own and a number are before it: `5 x 1` is read, and the season of 1x02 is
its episode. -/
theorem C126_counterexample_x : chained .crossedMany c!"Show 5 x 1x02" = [] ∧
    chained .crossedList c!"Show 5 x 1x02" = [(c!"season", 5, 6, some 5), (c!"episode", 9, 10, some 1), (c!"episode", 11, 13, some 2)] ∧
    CrossedAt asciiRx defaultEpisodes c!"Show 5 x 1x02" 9 10 11 13 ∧ Standing c!"Show 5 x 1x02" 9 13 := by
  have hdig : ∀ c ∈ c!"0123456789", Digit asciiRx c := by
    have : ∀ c ∈ c!"0123456789", asciiRx.u.isDigit c = true := by decide
    exact this
  refine ⟨by decide +kernel, by decide +kernel, ⟨⟨by omega, ?_⟩, ⟨10, 11, .inl rfl, ⟨c!"x", by decide, ?_, rfl⟩, .inl rfl⟩, ⟨by omega, ?_⟩⟩, ⟨.inr ⟨' ', rfl, by decide⟩, .inl (by decide)⟩⟩
  · intro k h1 h2
    obtain rfl : k = 9 := by omega
    exact ⟨_, rfl, hdig _ (by decide)⟩
  · intro n x hn
    cases n with
    | zero =>
      simp only [List.getElem?_cons_zero, Option.some.injEq] at hn
      subst hn
      exact ⟨'x', rfl, by decide⟩
    | succ n => simp at hn
  · intro k h1 h2
    obtain rfl | rfl : k = 11 ∨ k = 12 := by omega
    all_goals exact ⟨_, rfl, hdig _ (by decide)⟩

end Guessit
