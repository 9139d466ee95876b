import Verif.Props.EpisodeAll
import Verif.Props.Part

/-! # C132: 4 of 10 episodes -/

namespace Guessit
open Spec Re

section
variable {E : RxEnv} {W : EpisodeWords} {s : Str}

theorem strip_start {i : Nat} (h : CharAt s (· ∉ seps) i) : stripStart s i = i := by
  obtain ⟨c, h1, h2⟩ := h
  have : s.drop i = c :: s.drop (i + 1) := by
    rw [List.getElem?_eq_some_iff] at h1
    obtain ⟨h3, rfl⟩ := h1
    exact List.drop_eq_getElem_cons h3
  rw [stripStart, this, List.takeWhile_cons, if_neg (by rw [List.contains_iff_mem]; exact h2)]
  rfl

theorem strip_stop {e : Nat} (he : 0 < e) (h : CharAt s (· ∉ seps) (e - 1)) : stripStop s e = e := by
  obtain ⟨c, h1, h2⟩ := h
  cases e with
  | zero => omega
  | succ e =>
    rw [Nat.add_sub_cancel] at h1
    rw [stripStop, h1, if_neg]
    rw [any_contains]
    rintro ⟨c', h3, h4⟩
    cases h3
    exact h2 h4

theorem strip_sep {e : Nat} (h : CharAt s (· ∈ seps) e) : stripStop s (e + 1) = stripStop s e := by
  obtain ⟨c, h1, h2⟩ := h
  rw [stripStop, if_pos]
  rw [any_contains]
  exact ⟨c, h1, h2⟩

/-- What follows the count: where the match ends, and where it ends once it is stripped. -/
theorem after_head (hE : Usual E) (hW : PlainWords W) {d e : Nat} {c : Caps} (h : EpisodesAfter E W.episodeWords s d e) :
    ∃ j, ((Re.cat [dashRe, .opt (E.words W.episodeWords)]).exec s d c).head? = some (j, c) ∧ ((j = e ∧ (e = d ∨ (d < e ∧ CharAt s (· ∉ seps) (e - 1)))) ∨ (e = d ∧ j = d + 1 ∧ CharAt s (· ∈ seps) d)) := by
  have hav := lettered_avoids hE hW.episode
  rcases h with ⟨x, w, h1, ⟨pre, post, h2, h3, h4⟩, rfl⟩ | ⟨rfl, h⟩
  · have hw : w ∈ W.episodeWords := by rw [h2]; simp
    have hmark : MarkAt E W.episodeWords s x (x + w.length) := ⟨w, hw, h3, rfl⟩
    obtain ⟨g1, g2⟩ := hmark.first hav
    refine ⟨x + w.length, seq_head (dash_head h1 ?_) (seq_head (opt_head (words_head.2 ⟨rfl, pre, w, post, h2, h3, rfl, h4⟩) (by omega)) eps_head), .inl ⟨rfl, .inr ?_⟩⟩
    · rintro rfl
      exact charAt_noSep (g2 _ (Nat.le_refl _) g1) fun c hc hs => hc (.inl hs)
    · obtain ⟨c, g3, g4⟩ := g2 (x + w.length - 1) (by omega) (by omega)
      exact ⟨by have := maybeSep_le h1; omega, c, g3, fun hc => g4 (.inl hc)⟩
  · have hnil : ∀ {x : Nat}, MaybeSep s e x → ((Re.opt (E.words W.episodeWords)).exec s x c).head? = some (x, c) := by
      intro x hx
      rw [opt_nil]
      · rfl
      · rw [List.eq_nil_iff_forall_not_mem]
        rintro ⟨q, c'⟩ hm
        obtain ⟨⟨w, g1, g2, _⟩, _⟩ := mem_anyWord.1 hm
        exact h x hx w g1 g2
    by_cases hs : CharAt s (fun c => c ∈ seps ∧ c ≠ '/' ∧ c ≠ '\\') e
    · have hm : MaybeSep s e (e + 1) := .inr ⟨rfl, hs⟩
      refine ⟨e + 1, seq_head (dash_head hm (by omega)) (seq_head (hnil hm) eps_head), .inr ⟨rfl, rfl, ?_⟩⟩
      obtain ⟨c, g1, g2⟩ := hs
      exact ⟨c, g1, g2.1⟩
    · refine ⟨e, seq_head (k := e) (c1 := c) ?_ (seq_head (hnil (.inl rfl)) eps_head), .inl ⟨rfl, .inl rfl⟩⟩
      unfold dashRe
      rw [opt_nil]
      · rfl
      · refine chr_nil fun x hx => ?_
        cases hc : sepsNoFs.contains x with
        | false => rfl
        | true => exact absurd ⟨x, hx, sepsNoFs_iff.1 hc⟩ hs

theorem episodes_after (d : Nat) : ∃ e, EpisodesAfter E W.episodeWords s d e := by
  classical
  by_cases h : ∃ x, MaybeSep s d x ∧ ∃ w ∈ W.episodeWords, LiteralAt E s w x
  · obtain ⟨x, h1, h2⟩ := h
    have : ∀ (ws : List Str), (∃ w ∈ ws, LiteralAt E s w x) → ∃ w, FirstWordAt E ws s x w := by
      intro ws
      induction ws with
      | nil => rintro ⟨w, h, _⟩; cases h
      | cons a ws ih =>
        rintro ⟨w, h3, h4⟩
        by_cases ha : LiteralAt E s a x
        · exact ⟨a, [], ws, rfl, ha, by simp⟩
        · have : w ∈ ws := by
            rcases List.mem_cons.1 h3 with rfl | h3
            · exact absurd h4 ha
            · exact h3
          obtain ⟨w', pre, post, g1, g2, g3⟩ := ih ⟨w, this, h4⟩
          refine ⟨w', a :: pre, post, by rw [g1]; rfl, g2, ?_⟩
          intro y hy
          rcases List.mem_cons.1 hy with rfl | hy
          · exact ha
          · exact g3 y hy
    obtain ⟨w, h3⟩ := this _ h2
    exact ⟨_, .inl ⟨x, w, h1, h3, rfl⟩⟩
  · exact ⟨d, .inr ⟨rfl, fun x hx w hw hl => h ⟨x, hx, w, hw, hl⟩⟩⟩

/-- Where it is written, it is what is matched. -/
theorem detached_head (hE : Usual E) (hW : PlainWords W) {i b c d e : Nat} (h : DetachedAt E W s i b c d e) :
    ∃ j, (detachedPattern E W).re.matchAt s i = some (j, [(9, (c, d)), (2, (i, b))]) ∧ d ≤ j ∧
      ((j = e ∧ (e = d ∨ (d < e ∧ CharAt s (· ∉ seps) (e - 1)))) ∨ (e = d ∧ j = d + 1 ∧ CharAt s (· ∈ seps) d)) := by
  obtain ⟨h1, h2, h3⟩ := h
  obtain ⟨j, h4, h5⟩ := after_head (c := [(9, (c, d)), (2, (i, b))]) hE hW h3
  have hb : NoDigitAt E s b := fun x hx hd => (join_start hE hW.of h2.join).false ⟨x, hx, hd⟩ fun c a b => a b
  refine ⟨j, matchAt_head ?_, ?_, h5⟩
  · exact seq_head (grp_head (digits_head h1.1 h1.2 hb)) (seq_head (count_head hE hW.of h2) h4)
  · rcases h5 with ⟨rfl, h5⟩ | ⟨_, h5, _⟩
    · rcases h5 with h5 | h5 <;> omega
    · omega

theorem join_digit_unique (hE : Usual E) {ws : List Str} (hw : ∀ w ∈ ws, Lettered w) {b a a' : Nat} (h : JoinAt E ws s b a) (h' : JoinAt E ws s b a')
    (hd : CharAt s (Digit E) a) (hd' : CharAt s (Digit E) a') : a' = a := by
  obtain ⟨x, y, h1, h2, h3⟩ := h
  obtain ⟨x', y', g1, g2, g3⟩ := h'
  have hx : x' = x := by
    obtain ⟨w, m1, m2, _⟩ := h2
    obtain ⟨w', m3, m4, _⟩ := g2
    exact (sep_word hE (hw w m1) (hw w' m3) h1 m2 g1 m4).symm
  subst hx
  exact (word_number_unique hE hw h2 h3 hd g2 g3 hd').2

/-- Every match is written so. -/
theorem detached_hit (hE : Usual E) (hW : PlainWords W) {i j : Nat} {cs : Caps} (h : (detachedPattern E W).re.matchAt s i = some (j, cs)) :
    ∃ b c d e, DetachedAt E W s i b c d e ∧ cs = [(9, (c, d)), (2, (i, b))] ∧ d ≤ j ∧
      ((j = e ∧ (e = d ∨ (d < e ∧ CharAt s (· ∉ seps) (e - 1)))) ∨ (e = d ∧ j = d + 1 ∧ CharAt s (· ∈ seps) d)) := by
  have hm : (j, cs) ∈ (Re.cat [.grp 2 E.digits, E.countRe W.ofWords, dashRe, .opt (E.words W.episodeWords)]).exec s i [] := matchAt_mem h
  simp only [Re.cat, mem_seq, mem_run, mem_count] at hm
  obtain ⟨b, _, ⟨h1, rfl⟩, d0, _, ⟨c, h2, h3, rfl⟩, _⟩ := hm
  obtain ⟨d, _, h4⟩ := whole_of h3.1 h3.2
  obtain ⟨e, h5⟩ := episodes_after (E := E) (W := W) (s := s) d
  have hw : DetachedAt E W s i b c d e := ⟨h1, ⟨h2, h4⟩, h5⟩
  obtain ⟨j', h6, h7, h8⟩ := detached_head hE hW hw
  rw [h] at h6
  cases h6
  exact ⟨b, c, d, e, hw, rfl, h7, h8⟩

theorem detached_lt (hE : Usual E) (hW : PlainWords W) {i b c d e : Nat} (h : DetachedAt E W s i b c d e) : i < b ∧ b < c ∧ c < d :=
  ⟨h.episode.1, join_le hE hW.of h.count.join, h.count.number.some⟩

theorem detached_eats (hE : Usual E) (hW : PlainWords W) : (detachedPattern E W).re.Eats := by
  intro s i j c _ h
  obtain ⟨b, c, d, e, hw, _, h1, _⟩ := detached_hit hE hW h
  have := detached_lt hE hW hw
  omega

theorem digits_noSep (hE : Usual E) {p q k : Nat} (h : AllOf s (Digit E) p q) (h1 : p ≤ k) (h2 : k < q) : CharAt s (· ∉ seps) k := by
  obtain ⟨c, g1, g2⟩ := h k h1 h2
  exact ⟨c, g1, fun hc => sep_not_digit hE hc g2⟩

/-- The stripped match is what is validated. -/
theorem detached_accepts (hE : Usual E) (hW : PlainWords W) {i j b c d e : Nat} {cs : Caps} (h : DetachedAt E W s i b c d e)
    (hj : (j = e ∧ (e = d ∨ (d < e ∧ CharAt s (· ∉ seps) (e - 1)))) ∨ (e = d ∧ j = d + 1 ∧ CharAt s (· ∈ seps) d)) :
    (detachedPattern E W).accepts s ⟨i, j, cs⟩ = true ↔ Standing s i e := by
  have hlt := detached_lt hE hW h
  have hd : CharAt s (· ∉ seps) (d - 1) := digits_noSep hE h.count.number.digits (by omega) (by omega)
  have h1 : stripStart s i = i := strip_start (digits_noSep hE h.episode.2 (Nat.le_refl _) h.episode.1)
  have h2 : stripStop s j = e := by
    rcases hj with ⟨rfl, rfl | ⟨h3, h4⟩⟩ | ⟨rfl, rfl, h3⟩
    · exact strip_stop (by omega) hd
    · exact strip_stop (by omega) h4
    · rw [strip_sep h3]; exact strip_stop (by omega) hd
  simp [RxPattern.accepts, detachedPattern, RxPattern.parent, h1, h2, standing_iff]

theorem detached_kids (hE : Usual E) (hW : PlainWords W) {i j b c d e : Nat} (h : DetachedAt E W s i b c d e) :
    (detachedPattern E W).kids s ⟨i, j, [(9, (c, d)), (2, (i, b))]⟩ = [⟨c!"episode", i, b, .ok (numberAt E s i b)⟩, ⟨c!"count", c, d, .ok (numberAt E s c d)⟩] := by
  have he := (groupNumber_eq hE h.episode).2
  have hc := (groupNumber_eq hE h.count.number.run).2
  simp [RxPattern.kids, detachedPattern, h.episode.1, h.count.number.some, List.lookup, he, hc]

/-- C132: an episode and a count that are reported are written so, by themselves. -/
theorem C132_sound (hE : Usual E) (hW : PlainWords W) {m : RxMatch Int} (hm : m ∈ (detachedPattern E W).found s) : ∃ i b c d e, DetachedAt E W s i b c d e ∧
    Standing s i e ∧ (m = ⟨c!"episode", i, b, .ok (numberAt E s i b)⟩ ∨ m = ⟨c!"count", c, d, .ok (numberAt E s c d)⟩) := by
  obtain ⟨⟨i, j, cs⟩, hh, ha, hm⟩ := mem_found.1 hm
  have hch : (detachedPattern E W).children = true := rfl
  rw [hch, if_pos rfl] at hm
  obtain ⟨h1, _⟩ := hits_sound hh
  obtain ⟨b, c, d, e, hw, h2, _, h3⟩ := detached_hit hE hW h1
  simp only at h2
  subst h2
  rw [detached_kids hE hW hw] at hm
  exact ⟨i, b, c, d, e, hw, (detached_accepts hE hW hw h3).1 ha, by simpa using hm⟩

/-- No earlier match reaches a number that stands after a separator, and not after `of`. -/
theorem detached_clear (hE : Usual E) (hW : PlainWords W) {i b c d e : Nat} (h : DetachedAt E W s i b c d e) (hf : FreeBefore s i) (hn : NotAfterOf E W s i)
    {i' j' : Nat} {c' : Caps} (hlt : i' < i) (hm : (detachedPattern E W).re.matchAt s i' = some (j', c')) : j' ≤ i := by
  have hsep : CharAt s (· ∈ seps) (i - 1) := by
    rcases hf with h | h
    · omega
    · exact h
  have hfirst : CharAt s (Digit E) i := digits_char h.episode
  have hnd' : ∀ {p q : Nat}, AllOf s (Digit E) p q → ¬ (p ≤ i - 1 ∧ i - 1 < q) := fun h ⟨h1, h2⟩ => (h (i - 1) h1 h2).false hsep fun c a b => sep_not_digit hE b a
  have hns : ∀ {p q : Nat}, MaybeSep s p q → ¬ (p ≤ i ∧ i < q) := by
    rintro p q h ⟨h1, h2⟩
    rcases h with h | ⟨h, hs⟩
    · omega
    · rw [show p = i by omega] at hs
      exact hs.false hfirst fun c a b => sep_not_digit hE a.1 b
  have hnm : ∀ {ws : List Str} {p q : Nat}, (∀ w ∈ ws, Lettered w) → MarkAt E ws s p q → ¬ (p ≤ i - 1 ∧ i - 1 < q) ∧ ¬ (p ≤ i ∧ i < q) := by
    intro ws p q hw h
    have hav := (h.first (lettered_avoids hE hw)).2
    exact ⟨fun ⟨h1, h2⟩ => (hav (i - 1) h1 h2).false hsep fun c a b => a (.inl b), fun ⟨h1, h2⟩ => (hav i h1 h2).false hfirst fun c a b => a (.inr b)⟩
  obtain ⟨b', c', d', e', ⟨g1, ⟨⟨x, y, g2, g3, g4⟩, g5⟩, g6⟩, _, g7, g8⟩ := detached_hit hE hW hm
  by_contra hcon
  have k1 := hnd' g1.2
  have k2 := hns g2
  have k3 := hnm hW.of g3
  have k4 := hns g4
  have k5 := hnd' g5.digits
  have k6 : i ≠ c' := by
    rintro rfl
    exact hn x y g3 g4
  have l1 := g1.1
  have l2 := maybeSep_le g2
  have l3 := (g3.first (lettered_avoids hE hW.of)).1
  have l4 := maybeSep_le g4
  have l5 := g5.some
  rcases g6 with ⟨z, w, n1, ⟨pre, post, n2, n3, n4⟩, rfl⟩ | ⟨rfl, _⟩
  · have n5 := hns n1
    have hw : w ∈ W.episodeWords := by rw [n2]; simp
    have n6 := hnm hW.episode (⟨w, hw, n3, rfl⟩ : MarkAt E W.episodeWords s z (z + w.length))
    have n7 := maybeSep_le n1
    have : 0 < w.length := List.length_pos_iff.2 (hW.episode w hw).1
    rcases g8 with ⟨rfl, _⟩ | ⟨_, rfl, _⟩ <;> omega
  · rcases g8 with ⟨rfl, _⟩ | ⟨_, rfl, g8⟩
    · omega
    · by_cases hd : i = e'
      · subst hd
        exact g8.false hfirst fun c a b => sep_not_digit hE a b
      · omega

/-- C132: where a number, `of` and a number stand by themselves, with or without a word for episodes, the episode and the count are reported — unless what is
before is `of` too, or more than one word for episodes can be read there and the first of the list is followed by another character. -/
theorem C132_complete (hE : Usual E) (hW : PlainWords W) {i b c d e : Nat} (h : DetachedAt E W s i b c d e) (hs : Standing s i e) (hn : NotAfterOf E W s i) :
    (⟨c!"episode", i, b, .ok (numberAt E s i b)⟩ : RxMatch Int) ∈ (detachedPattern E W).found s ∧
    (⟨c!"count", c, d, .ok (numberAt E s c d)⟩ : RxMatch Int) ∈ (detachedPattern E W).found s := by
  have hch : (detachedPattern E W).children = true := rfl
  obtain ⟨j, h1, h2, h3⟩ := detached_head hE hW h
  have hh : (⟨i, j, [(9, (c, d)), (2, (i, b))]⟩ : RxHit) ∈ (detachedPattern E W).re.hits s := by
    refine hits_complete (detached_eats hE hW) h1 ?_ ?_
    · have := h.episode.2.le h.episode.1
      have := h.episode.1
      omega
    · intro i' j' c' hlt hm
      exact detached_clear hE hW h hs.1 hn hlt hm
  have ha := (detached_accepts (cs := [(9, (c, d)), (2, (i, b))]) hE hW h h3).2 hs
  refine ⟨mem_found.2 ⟨_, hh, ha, ?_⟩, mem_found.2 ⟨_, hh, ha, ?_⟩⟩ <;> rw [hch, if_pos rfl, detached_kids hE hW h] <;> simp

end

/-! ## Examples -/

theorem defaultWords_plain : PlainWords defaultEpisodeWords where
  episode := by
    have : ∀ w ∈ defaultEpisodeWords.episodeWords, w ≠ [] ∧ ∀ c ∈ w, c ∈ c!"abcdefghijklmnopqrstuvwxyz" := by decide
    exact this
  of := by
    have : ∀ w ∈ defaultEpisodeWords.ofWords, w ≠ [] ∧ ∀ c ∈ w, c ∈ c!"abcdefghijklmnopqrstuvwxyz" := by decide
    exact this
  all := by
    have : ∀ w ∈ defaultEpisodeWords.allWords, w ≠ [] ∧ ∀ c ∈ w, c ∈ c!"abcdefghijklmnopqrstuvwxyz" := by decide
    exact this
  apart := by decide
  allFirst := by
    intro w hw l hl
    obtain rfl : w = c!"all" := by simpa [defaultEpisodeWords] using hw
    cases hl; decide
  allWhole := by
    intro w hw w' hw' _
    have h : ∀ w ∈ defaultEpisodeWords.allWords, w = c!"all" := by decide
    rw [h w hw, h w' hw']

def plainly (l : List (RxMatch Int)) : List (Str × Nat × Nat × Option Int) := l.map fun m => (m.name, m.start, m.stop, m.value.toOption)

example : plainly ((wordedPattern asciiRx defaultEpisodeWords).found c!"Show Episodes 4v2 of 10 eps.5") =
    [(c!"episode", 14, 15, some 4), (c!"version", 16, 17, some 2), (c!"count", 21, 23, some 10), (c!"episode", 28, 29, some 5)] := by decide +kernel
example : plainly ((wordedPattern asciiRx defaultEpisodeWords).found c!"Show Episode 4 of 10x") = [] := by decide +kernel
example : ((allPattern asciiRx defaultEpisodeWords).found c!"Show S02-E-All").map (fun m => (m.name, m.start, m.stop, m.value.toOption)) =
    [(c!"season", 6, 8, some (.int 2)), (c!"other", 11, 14, some (.str c!"Complete"))] := by decide +kernel
example : plainly ((versionPattern asciiRx).found c!"Show v2 xv3") = [(c!"version", 6, 7, some 2)] := by decide +kernel
example : plainly ((detachedPattern asciiRx defaultEpisodeWords).found c!"Show 4 of 10 eps - 5/6 6 sur 7") =
    [(c!"episode", 5, 6, some 4), (c!"count", 10, 12, some 10), (c!"episode", 23, 24, some 6), (c!"count", 29, 30, some 7)] := by decide +kernel

/-- C132: `4 of 10 episodes` is not reported, although `4 of 10 episode` and `4 of 10 eps` are: `episode` is before `episodes` in the list of words, so the match
ends in the middle of the word. -/
theorem C132_counterexample_plural : (detachedPattern asciiRx defaultEpisodeWords).found c!"4 of 10 episodes" = [] ∧
    plainly ((detachedPattern asciiRx defaultEpisodeWords).found c!"4 of 10 episode") = [(c!"episode", 0, 1, some 4), (c!"count", 5, 7, some 10)] ∧
    plainly ((detachedPattern asciiRx defaultEpisodeWords).found c!"4 of 10 eps") = [(c!"episode", 0, 1, some 4), (c!"count", 5, 7, some 10)] := by decide +kernel

/-- An instance of the hypotheses of C132_complete. -/
example : (⟨c!"count", 5, 7, .ok 10⟩ : RxMatch Int) ∈ (detachedPattern asciiRx defaultEpisodeWords).found c!"4 of 10 x" := by
  have hdig : ∀ c ∈ c!"0123456789", asciiRx.u.isDigit c = true := by decide
  have hd : ∀ p q, (∀ k, p ≤ k → k < q → ∃ c ∈ c!"0123456789", c!"4 of 10 x"[k]? = some c) → AllOf c!"4 of 10 x" (Digit asciiRx) p q := by
    intro p q h k h1 h2
    obtain ⟨c, h3, h4⟩ := h k h1 h2
    exact ⟨c, h4, hdig c h3⟩
  refine (C132_complete asciiRx_usual defaultWords_plain (i := 0) (b := 1) (c := 5) (d := 7) (e := 7) ⟨⟨by omega, hd 0 1 ?_⟩, ⟨⟨2, 4, .inr ⟨rfl, ' ', rfl, by decide⟩,
    ⟨c!"of", by decide, ?_, rfl⟩, .inr ⟨rfl, ' ', rfl, by decide⟩⟩, by omega, hd 5 7 ?_, ?_⟩, .inr ⟨rfl, ?_⟩⟩ ⟨.inl rfl, .inr ⟨' ', rfl, by decide⟩⟩ ?_).2
  · intro k _ h; obtain rfl : k = 0 := by omega
    exact ⟨'4', by decide, rfl⟩
  · intro k l h
    rcases k with _ | _ | k
    · cases h; exact ⟨'o', rfl, by decide⟩
    · cases h; exact ⟨'f', rfl, by decide⟩
    · simp at h
  · intro k h1 h2
    obtain rfl | rfl : k = 5 ∨ k = 6 := by omega
    · exact ⟨'1', by decide, rfl⟩
    · exact ⟨'0', by decide, rfl⟩
  · intro c hc; cases hc; exact fun h => by revert h; unfold Digit; decide
  · rintro x hx w hw hl
    have hx' : x = 7 ∨ x = 8 := by rcases hx with h | ⟨h, _⟩ <;> omega
    have : ∀ w ∈ defaultEpisodeWords.episodeWords, ∀ x ∈ [7, 8], (c!"4 of 10 x"[x]?).any (fun c => (w.head?).any fun l => asciiRx.same l c) = false ∧ w ≠ [] := by decide +kernel
    obtain ⟨g1, g2⟩ := this w hw x (by simpa using hx')
    cases w with
    | nil => exact g2 rfl
    | cons l w =>
      obtain ⟨c, g3, g4⟩ := (Spec.LiteralAt.cons.1 hl).1
      rw [g3] at g1
      simp [g4] at g1
  · rintro x y ⟨w, h1, h2, rfl⟩ h3
    have : 0 < w.length := List.length_pos_iff.2 (defaultWords_plain.of w h1).1
    have := maybeSep_le h3
    omega

/-- An instance of what C129, C130 and C131 say is reported. -/
example : WordedAt asciiRx defaultEpisodeWords c!"ep 4" 0 3 4 none none 4 := by
  have hdig : ∀ c ∈ c!"0123456789", asciiRx.u.isDigit c = true := by decide
  have hno : ∀ k, 4 ≤ k → c!"ep 4"[k]? = none := fun k hk => List.getElem?_eq_none (by simpa using hk)
  refine ⟨⟨2, ⟨c!"ep", by decide, ?_, rfl⟩, .inr ⟨rfl, ' ', rfl, by decide⟩⟩, ⟨by omega, ?_, ?_⟩, 4, .inl ⟨rfl, rfl, ?_⟩, .inl ⟨rfl, rfl, ?_⟩⟩
  · intro k l h
    rcases k with _ | _ | k
    · cases h; exact ⟨'e', rfl, by decide⟩
    · cases h; exact ⟨'p', rfl, by decide⟩
    · simp at h
  · intro k h1 h2
    obtain rfl : k = 3 := by omega
    exact ⟨'4', rfl, hdig _ (by decide)⟩
  · intro c hc; rw [hno 4 (by omega)] at hc; cases hc
  · rintro y ⟨⟨c, h, _⟩, _⟩
    rw [hno 4 (by omega)] at h; cases h
  · rintro x y ⟨⟨p, q, h1, h2, h3⟩, h4⟩
    obtain ⟨c, h5, _⟩ := h4.digits x (Nat.le_refl _) h4.some
    have := maybeSep_le h1
    have := maybeSep_le h3
    have := (h2.first (lettered_avoids asciiRx_usual defaultWords_plain.of)).1
    rw [hno x (by omega)] at h5; cases h5

end Guessit
