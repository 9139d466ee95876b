import Verif.Props.LooseCap
import Verif.Props.LooseZero

/-! # C143, C144, C145: examples -/

namespace Guessit
open Spec Re

/-- What the chains report, with the values. -/
def loose (k : LooseChain) (s : Str) : List (Str × Nat × Nat × Option Int) :=
  (k.found asciiRx defaultEpisodes s).map fun m => (m.name, m.start, m.stop, m.value.toOption)

theorem ascii_digits : ∀ c ∈ c!"0123456789", asciiRx.u.isDigit c = true := by decide

/-- Digits from `d` to `j`, checked one by one. -/
theorem ascii_few {s : Str} {lo hi d j : Nat} (h1 : d + lo ≤ j) (h2 : j ≤ d + hi) (h : ∀ n < j - d, ∃ c, s[d + n]? = some c ∧ c ∈ c!"0123456789") : Few asciiRx lo hi s d j :=
  ⟨h1, h2, fun k g1 g2 => by
    obtain ⟨c, e1, e2⟩ := h (k - d) (by omega)
    rw [show d + (k - d) = k by omega] at e1
    exact ⟨c, e1, ascii_digits c e2⟩⟩

example : loose .zero c!"Show 012-013" = [(c!"episode", 6, 8, some 12), (c!"episode", 10, 12, some 13)] ∧ chained (.numbers .long) c!"Show 012-013" = [(c!"episode", 5, 8, some 12), (c!"episode", 9, 12, some 13)] := by decide +kernel
example : loose .ep c!"Show Ep 12v2ep13" = [(c!"episode", 8, 10, some 12), (c!"episode", 14, 16, some 13)] := by decide +kernel
example : loose .ep c!"Show Ep12" = [(c!"episode", 7, 9, some 12)] := by decide +kernel
/-- `ep` may not be the end of a word. -/
example : loose .ep c!"Sleep 12" = [] := by decide +kernel
example : loose .cap c!"x264[Cap.1503_1506]" = [(c!"season", 9, 11, some 15), (c!"episode", 11, 13, some 3), (c!"season", 14, 16, some 15), (c!"episode", 16, 18, some 6)] := by
  decide +kernel
example : loose .cap c!"Cap 106_103" = [(c!"season", 4, 5, some 1), (c!"episode", 5, 7, some 6)] := by decide +kernel

/-- An instance of the hypotheses of C143_reported. -/
example : ({ name := c!"episode", start := 5, stop := 8, value := .ok 12 } : RxMatch Int) ∈ (EpisodeChain.numbers .long).found asciiRx defaultEpisodes c!"Show 012" :=
  C143_reported (C := defaultEpisodes) asciiRx_usual asciiRx_literal (s := c!"Show 012") (i := 5) (j := 8) ⟨_, rfl, rfl⟩ (ascii_few (by omega) (by omega) (by decide))
    ⟨.inr ⟨' ', rfl, by decide⟩, .inl (by decide)⟩ (by rintro ⟨_, ⟨c, h1, h2⟩, _⟩; cases h1; cases h2)

/-- A word is written at `i`, checked letter by letter. -/
theorem ascii_word {s w : Str} {i : Nat} (h : ∀ n < w.length, ∃ c, s[i + n]? = some c ∧ ∃ l, w[n]? = some l ∧ asciiRx.same l c = true) : LiteralAt asciiRx s w i := by
  intro k l hk
  obtain ⟨c, h1, l', h2, h3⟩ := h k (List.getElem?_eq_some_iff.1 hk).1
  rw [hk, Option.some.injEq] at h2
  subst h2
  exact ⟨c, h1, h3⟩

/-- An instance of the hypotheses of C143_list: `Show 012-013`. -/
example : ({ name := c!"episode", start := 10, stop := 12, value := .ok 13 } : RxMatch Int) ∈ LooseChain.zero.found asciiRx defaultEpisodes c!"Show 012-013" := by
  have h : ZeroAt asciiRx c!"Show 012-013" 5 8 := ⟨⟨_, rfl, rfl⟩, ascii_few (by omega) (by omega) (by decide)⟩
  have hl : ZeroListedAt asciiRx c!"Show 012-013" 8 [(8, 12)] 12 := .cons ⟨⟨_, rfl, .inr rfl⟩, ⟨_, rfl, rfl⟩, ascii_few (by omega) (by omega) (by decide)⟩ .nil
  have e : zeroNumbers asciiRx c!"Show 012-013" 5 8 [(8, 12)] = [(none, 12), (some c!"-", 13)] := by decide +kernel
  have := C143_list (C := defaultEpisodes) asciiRx_usual asciiRx_literal h (.inl rfl) hl ⟨.inr ⟨' ', rfl, by decide⟩, .inl (by decide)⟩
    (by rintro ⟨_, ⟨c, h1, h2⟩, _⟩; cases h1; cases h2) (by rw [e]; exact pair_larger.2 (by omega)) (.inr (by
      rw [e]
      rintro p sep w ⟨pre, q, post, he⟩
      match pre, he with
      | [], he =>
        simp only [List.nil_append, List.cons.injEq, Prod.mk.injEq, Option.some.injEq] at he
        obtain ⟨⟨rfl, rfl⟩, ⟨rfl, rfl⟩, rfl⟩ := he
        decide
      | x :: pre, he =>
        have := congrArg List.length he
        simp only [List.length_cons, List.length_nil, List.length_append] at this
        omega)) (by
      rw [e]
      rintro u v ⟨pre, post, he⟩
      match pre, he with
      | [], he =>
        simp only [List.map_cons, List.map_nil, List.nil_append, List.cons.injEq] at he
        obtain ⟨rfl, rfl, rfl⟩ := he
        decide
      | x :: pre, he =>
        have := congrArg List.length he
        simp only [List.map_cons, List.map_nil, List.length_cons, List.length_nil, List.length_append] at this
        omega)
  exact this.1.2 (8, 12) (by simp)

theorem ascii_ep : EpAt asciiRx c!"slo.ep12v2-13" 4 6 8 where
  word := ascii_word (by
    intro n hn
    obtain rfl | rfl : n = 0 ∨ n = 1 := by simp only [List.length_cons, List.length_nil] at hn; omega
    · exact ⟨_, rfl, _, rfl, by decide⟩
    · exact ⟨_, rfl, _, rfl, by decide⟩)
  sep := .inl rfl
  number := ascii_few (by omega) (by omega) (by decide)

/-- An instance of the hypotheses of C144_list: `slo.ep12v2-13`, with the version. -/
example : ({ name := c!"episode", start := 11, stop := 13, value := .ok 13 } : RxMatch Int) ∈ LooseChain.ep.found asciiRx defaultEpisodes c!"slo.ep12v2-13" ∧
    ({ name := c!"version", start := 9, stop := 10, value := .ok 2 } : RxMatch Int) ∈ LooseChain.ep.versions asciiRx defaultEpisodes c!"slo.ep12v2-13" := by
  have hl : FewListedAt asciiRx epJoiners 1 4 c!"slo.ep12v2-13" 10 [(10, 11, 13)] 13 :=
    .cons ⟨c!"-", by decide, ascii_word (by
      intro n hn
      obtain rfl : n = 0 := by simpa using hn
      exact ⟨_, rfl, _, rfl, by decide⟩), rfl⟩ (ascii_few (by omega) (by omega) (by decide)) .nil
  have hv : VersionAt asciiRx c!"slo.ep12v2-13" 8 10 := ⟨⟨'v', rfl, by decide⟩, by omega, (ascii_few (lo := 1) (hi := 1) (by omega) (by omega) (by decide)).digits⟩
  have e : listedNumbers asciiRx c!"slo.ep12v2-13" 6 8 [(10, 11, 13)] = [(none, 12), (some c!"-", 13)] := by decide +kernel
  have := C144_list (C := defaultEpisodes) asciiRx_usual asciiRx_literal ascii_ep (.inr hv) hl ⟨.inr ⟨'.', rfl, by decide⟩, .inl (by decide)⟩ (by rw [e]; exact pair_larger.2 (by omega)) (.inr (by
      rw [e]
      rintro p sep w ⟨pre, q, post, he⟩
      match pre, he with
      | [], he =>
        simp only [List.nil_append, List.cons.injEq, Prod.mk.injEq, Option.some.injEq] at he
        obtain ⟨⟨rfl, rfl⟩, ⟨rfl, rfl⟩, rfl⟩ := he
        decide
      | x :: pre, he =>
        have := congrArg List.length he
        simp only [List.length_cons, List.length_nil, List.length_append] at this
        omega)) (by
      rw [e]
      rintro u v ⟨pre, post, he⟩
      match pre, he with
      | [], he =>
        simp only [List.map_cons, List.map_nil, List.nil_append, List.cons.injEq] at he
        obtain ⟨rfl, rfl, rfl⟩ := he
        decide
      | x :: pre, he =>
        have := congrArg List.length he
        simp only [List.map_cons, List.map_nil, List.length_cons, List.length_nil, List.length_append] at this
        omega)
  exact ⟨this.1 (11, 13) (by simp), this.2 hv⟩

theorem ascii_cap : CapAt asciiRx c!"[Cap.1503_1506]" 1 5 7 9 where
  word := ascii_word (by
    intro n hn
    obtain rfl | rfl | rfl : n = 0 ∨ n = 1 ∨ n = 2 := by simp only [List.length_cons, List.length_nil] at hn; omega
    all_goals exact ⟨_, rfl, _, rfl, by decide⟩)
  sep := .inr ⟨rfl, '.', rfl, by decide⟩
  season := ascii_few (by omega) (by omega) (by decide)
  episode := ascii_few (by omega) (by omega) (by decide)

/-- An instance of the hypotheses of C145_pair, and of C145_complete. -/
example : ({ name := c!"episode", start := 12, stop := 14, value := .ok 6 } : RxMatch Int) ∈ LooseChain.cap.found asciiRx defaultEpisodes c!"[Cap.1503_1506]" ∧
    ({ name := c!"season", start := 5, stop := 7, value := .ok 15 } : RxMatch Int) ∈ LooseChain.cap.found asciiRx defaultEpisodes c!"[Cap.1503_1506]" := by
  have h' : CapMoreAt asciiRx c!"[Cap.1503_1506]" 9 12 14 :=
    ⟨⟨'_', rfl, by decide⟩, ascii_few (by omega) (by omega) (by decide), ascii_few (by omega) (by omega) (by decide)⟩
  have hf : FreeBefore c!"[Cap.1503_1506]" 1 := .inr ⟨'[', rfl, by decide⟩
  refine ⟨(C145_pair (C := defaultEpisodes) asciiRx_usual ascii_cap h' ⟨hf, .inr ⟨']', rfl, by decide⟩⟩ ?_ ?_ ?_ ?_).2.2,
    (C145_complete asciiRx_usual ascii_cap ⟨hf, .inr ⟨'_', rfl, by decide⟩⟩).1⟩ <;> decide +kernel

theorem ascii_cap_back : CapAt asciiRx c!"Cap 106_103" 0 4 5 7 where
  word := ascii_word (by
    intro n hn
    obtain rfl | rfl | rfl : n = 0 ∨ n = 1 ∨ n = 2 := by simp only [List.length_cons, List.length_nil] at hn; omega
    all_goals exact ⟨_, rfl, _, rfl, by decide⟩)
  sep := .inr ⟨rfl, ' ', rfl, by decide⟩
  season := ascii_few (by omega) (by omega) (by decide)
  episode := ascii_few (by omega) (by omega) (by decide)

/-- An instance of the hypotheses of C145_decreasing. -/
example : ∀ m ∈ LooseChain.cap.found asciiRx defaultEpisodes c!"Cap 106_103", m.start ≠ 8 ∧ m.start ≠ 9 := fun m hm =>
  C145_decreasing asciiRx_usual ascii_cap_back (d' := 9) (k := 11)
    ⟨⟨'_', rfl, by decide⟩, ascii_few (by omega) (by omega) (by decide), ascii_few (by omega) (by omega) (by decide)⟩ (.inl (by decide)) (.inr (by decide +kernel)) hm

end Guessit
