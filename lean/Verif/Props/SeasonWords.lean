import Verif.Props.Numerals
import Verif.Props.SeasonsOnly

/-! # C141: `Season 2`, `Season II`, `Seasons 1-3` -/

namespace Guessit
open Spec Re

section
variable {E : RxEnv} {C : EpisodeConfig} {ws ofs : List Str} {s : Str}

/-- A word, maybe a separator, and a numeral. -/
theorem wordThen_inv (hE : Usual E) {g : Nat} {A : Re} {i j : Nat} {c0 c : Caps}
    (h : ((Re.seq A (.seq dashRe (.seq (.grp g E.plainNumeral) .eps))).exec s i c0).head? = some (j, c)) :
    ∃ x c1 a, (x, c1) ∈ A.exec s i c0 ∧ MaybeSep s x a ∧ a < j ∧ Takes E s a j ∧ c = (g, (a, j)) :: c1 := by
  obtain ⟨x, c1, h1, h2⟩ := seq_head_inv h
  obtain ⟨a, c2, h3, h4⟩ := seq_head_inv h2
  obtain ⟨h5, rfl⟩ := mem_dash.1 h3
  obtain ⟨k, c3, h6, h7⟩ := seq_head_inv h4
  obtain ⟨⟨k', c4⟩, h8⟩ : ∃ y, (E.plainNumeral.exec s a c2).head? = some y := by
    refine head_of_ne fun hn => ?_
    obtain ⟨c5, h8, _⟩ := mem_grp.1 h6
    rw [hn] at h8; cases h8
  have h9 := seq_head (grp_head (n := g) h8) (eps_head (s := s) (i := k') (c := (g, (a, k')) :: c4))
  rw [h9, Option.some.injEq, Prod.mk.injEq] at h4
  obtain ⟨rfl, rfl⟩ := h4
  obtain ⟨rfl, h10, h11⟩ := plain_takes hE h8
  exact ⟨x, c4, a, h1, h5, h10, h11, rfl⟩

theorem seasonWord_inv (hE : Usual E) {i j : Nat} {c : Caps} (h : (E.seasonWord ws).matchAt s i = some (j, c)) :
    ∃ x a, MarkAt E ws s i x ∧ MaybeSep s x a ∧ a < j ∧ Takes E s a j ∧ c = [(1, (a, j)), (3, (i, x))] := by
  obtain ⟨x, c1, a, h1, h2, h3, h4, rfl⟩ := wordThen_inv hE (A := .grp 3 (E.words ws)) h
  obtain ⟨h5, rfl⟩ := mem_mark.1 h1
  exact ⟨x, a, h5, h2, h3, h4, rfl⟩

theorem ofCount_inv (hE : Usual E) {i j : Nat} {c : Caps} (h : (E.ofCount ofs).matchAt s i = some (j, c)) :
    ∃ x a, MarkAt E ofs s i x ∧ MaybeSep s x a ∧ a < j ∧ Takes E s a j ∧ c = [(9, (a, j))] := by
  obtain ⟨x, c1, a, h1, h2, h3, h4, rfl⟩ := wordThen_inv hE (A := E.words ofs) h
  obtain ⟨rfl, h5⟩ := mem_words.1 h1
  exact ⟨x, a, h5, h2, h3, h4, rfl⟩

theorem mem_nextSeason (hL : Literal E) {i j : Nat} {c c' : Caps} (h : (j, c') ∈ (E.nextSeason C).exec s i c) :
    ∃ x y d, NextAt E C s i x y d j ∧ c' = (1, (d, j)) :: (6, (x, y)) :: c := by
  simp only [RxEnv.nextSeason, Re.cat, mem_seq, mem_dash, mem_grp, mem_alt, mem_eps, mem_words, mem_chr] at h
  obtain ⟨x, c1, ⟨h1, rfl⟩, y, c2, ⟨c3, h2, rfl⟩, d, c4, ⟨h3, rfl⟩, k, c5, ⟨c6, h4, rfl⟩, rfl, rfl⟩ := h
  obtain ⟨rfl, h5⟩ := mem_number.1 h4
  have hmark : c3 = c1 ∧ MarkAt E C.separators s x y := by
    rcases h2 with ⟨rfl, w, hw, hl⟩ | ⟨⟨z, hz, hs⟩, rfl, rfl⟩
    · refine ⟨rfl, w, ?_, hl⟩
      simp only [EpisodeConfig.separators, List.mem_append] at hw ⊢
      tauto
    · refine ⟨rfl, [z], ?_, ?_, rfl⟩
      · by_cases hr : [z] ∈ C.rangeSeparators
        · simp [EpisodeConfig.separators, hr]
        · have : [z] ∈ C.weak := by
            simp only [EpisodeConfig.weak, List.mem_filter, List.mem_map]
            exact ⟨⟨z, by simpa using hs, rfl⟩, by simpa using hr⟩
          simp [EpisodeConfig.separators, this]
      · intro k l hk
        cases k with
        | zero =>
          simp only [List.getElem?_cons_zero, Option.some.injEq] at hk
          subst hk
          exact ⟨z, hz, (hL z (List.mem_append_right _ (sepsNoFs_iff.1 hs).1) z).2 rfl⟩
        | succ k => simp at hk
  obtain ⟨rfl, h6⟩ := hmark
  exact ⟨x, y, d, ⟨h1, h6, h3, h5⟩, rfl⟩

/-- A number. -/
theorem digits_worded (hE : Usual E) {d j : Nat} (h : d < j ∧ AllOf s (Digit E) d j) : wordedValue E s (d, j) = .ok ((digitsValue E.u (textOf s d j) : Nat) : Int) := by
  have hd := textOf_digits h.2
  have hne : (s.take j).drop d ≠ [] := by
    intro hn
    have := textOf_length (i := d) (h.2.le h.1)
    rw [hn] at this; simp at this; omega
  have := numeralInt_digits E.u hE.sane [] ((s.take j).drop d) [] (by simp) hne hd (by simp)
  simp only [List.nil_append, List.append_nil] at this
  simp only [wordedValue, parseNumeral, if_true, this]; rfl

/-- The chain. -/
theorem worded_chain {hs : List RxHit} (h : hs ∈ chains s ⟨E.seasonWord ws, some 1⟩ [⟨E.ofCount ofs, some 1⟩, ⟨E.nextSeason C, none⟩]) :
    ∃ h0 l, hs = h0 :: l ∧ (E.seasonWord ws).matchAt s h0.start = some (h0.stop, h0.caps) ∧ Follow h0.stop l ∧ Of s [E.ofCount ofs, E.nextSeason C] l := by
  obtain ⟨h0, h1, rfl⟩ := chains_sound _ _ h
  obtain ⟨l, h2, h3, h4⟩ := chainOf_once (s := s) (first := ⟨E.seasonWord ws, some 1⟩) (rest := [⟨E.ofCount ofs, some 1⟩, ⟨E.nextSeason C, none⟩]) rfl h0
  exact ⟨h0, l, h2, h1, h3, h4⟩

theorem brokenSeasons_single (E : RxEnv) (C : EpisodeConfig) (s : Str) (h : RxHit) : brokenSeasons E C s [h] = false := by
  rw [brokenSeasons, chainBreaker, breaks_short, breaks_short]
  · rfl
  · rw [List.length_map]
    simp only [wordedSeasons]
    exact (List.length_filterMap_le _ _).trans (by simp)
  · simp

/-- What is kept of a list of matches is in it, and ends with one of them. -/
theorem worded_trim {l : List RxHit} {h : RxHit} (hh : h ∈ trimChain (validSeasons E C s) (keepHits (brokenSeasons E C s) [] (l.filter (validSeasonHit E s))).reverse) :
    ∃ p q v, (p ++ [q]) ++ v = l ∧ h ∈ p ++ [q] ∧ validSeasonHit E s h = true ∧ FreeAfter s q.stop ∧
      ∃ r0 ∈ l, validSeasonHit E s r0 = true ∧ FreeBefore s r0.start := by
  obtain ⟨⟨t, g1⟩, g2⟩ := trimChain_sound (valid := validSeasons E C s) (keepHits (brokenSeasons E C s) [] (l.filter (validSeasonHit E s))).reverse
  have g3 := g2 (List.ne_nil_of_mem hh)
  obtain ⟨l', g4, g5⟩ := keepHits_prefix (broken := brokenSeasons E C s) (l.filter (validSeasonHit E s)) []
  rw [List.reverse_reverse] at g1
  generalize trimChain (validSeasons E C s) (keepHits (brokenSeasons E C s) [] (l.filter (validSeasonHit E s))).reverse = r at hh g1 g3
  rw [List.nil_append] at g4
  rw [← g4] at g5
  have g6 : r.Sublist (l.filter (validSeasonHit E s)) := (by rw [g1] at g5; exact (List.sublist_append_left _ _).trans g5)
  have g7 : r.Sublist l := g6.trans List.filter_sublist
  have hv : validSeasonHit E s h = true := (List.mem_filter.1 (g6.subset hh)).2
  rcases List.eq_nil_or_concat r with rfl | ⟨p1, q, rfl⟩
  · cases hh
  · rw [List.concat_eq_append] at g7 hh g3 g1
    obtain ⟨L1, L2, rfl, g8, g9⟩ := List.append_sublist_iff.1 g7
    obtain ⟨u, v, rfl⟩ := List.append_of_mem (List.singleton_sublist.1 g9)
    have hq : ∀ i, lastStop i (p1 ++ [q]) = q.stop := by intro i; rw [lastStop_append]; rfl
    obtain ⟨r0, r1, hr⟩ := List.exists_cons_of_ne_nil (show p1 ++ [q] ≠ [] by simp)
    rw [hr] at g3
    rw [validSeasons, Bool.and_eq_true, standing_iff] at g3
    have hst := g3.1
    have hend : lastStop r0.stop r1 = q.stop := by
      have := hq 0
      rw [hr] at this
      exact this
    rw [hend] at hst
    refine ⟨L1 ++ u, q, v, by simp, ?_, hv, hst.2, ?_⟩
    · rcases List.mem_append.1 hh with h2 | h2
      · have := g8.subset h2
        simp [this]
      · simp only [List.mem_singleton] at h2
        simp [h2]
    · have hr0 : r0 ∈ p1 ++ [q] := by rw [hr]; simp
      have := List.mem_filter.1 (g6.subset (by rw [List.concat_eq_append]; exact hr0))
      exact ⟨r0, this.1, this.2, hst.1⟩

/-- Matches that follow each other and end with no separator: only the first may begin after one. -/
theorem follow_free {l : List RxHit} : ∀ {i : Nat}, Follow i l → (∃ c, 0 < i ∧ s[i - 1]? = some c ∧ c ∉ seps) →
    (∀ h ∈ l, 0 < h.stop ∧ CharAt s (· ∉ seps) (h.stop - 1)) → ∀ r ∈ l, ¬ FreeBefore s r.start := by
  induction l with
  | nil => intro _ _ _ _ r hr; cases hr
  | cons h l ih =>
    intro i hf hi hl r hr
    rcases List.mem_cons.1 hr with rfl | hr
    · obtain ⟨c, h1, h2, h3⟩ := hi
      rw [hf.1]
      rintro (h | ⟨c', e1, e2⟩)
      · omega
      · rw [h2, Option.some.injEq] at e1; subst e1
        exact h3 e2
    · obtain ⟨h1, c, h2, h3⟩ := hl h (by simp)
      exact ih hf.2 ⟨c, h1, h2, h3⟩ (fun x hx => hl x (by simp [hx])) r hr

theorem validRoman_iff (hE : Usual E) (hC : Cased E.u) (hP : PlainCase E s) {a b : Nat} (h : Takes E s a b) (hab : a < b) :
    validateRoman E s (a, b) = true ↔ AllOf s (Digit E) a b ∨ Standing s a b := by
  obtain ⟨n, _, _, h3⟩ := takes_reads hE hC hP h hab
  rw [validateRoman, Bool.or_eq_true, standing_iff, h3]

/-- C141: what is reported for `Season 2` and the like has been written: there is a word for seasons and a numeral; the chain of what follows without anything between
(`of 3`, ` - 3`) reaches a separator; and what is reported is the first numeral, a count, or a number of the list.  The word for seasons comes after a separator or at
the beginning, and its numeral is made of digits or stands between separators. -/
theorem C141_sound (hE : Usual E) (hL : Literal E) (hC : Cased E.u) (hP : PlainCase E s) {m : RxMatch Int} (hm : m ∈ seasonsWorded E C ws ofs s) :
    ∃ i a j n0 k, WordThen E ws s i a ∧ NumeralAt E s a j n0 ∧ ManySteps (WordedStep E C ofs s) j k ∧ Standing s i k ∧ ∃ n : Nat, m.value = .ok (n : Int) ∧
      ((m.name = c!"season" ∧ m.start = a ∧ m.stop = j ∧ n = n0) ∨
       ∃ b, ManySteps (WordedStep E C ofs s) j b ∧ ManySteps (WordedStep E C ofs s) m.stop k ∧
        ((m.name = c!"count" ∧ WordThen E ofs s b m.start ∧ NumeralAt E s m.start m.stop n) ∨
         (m.name = c!"season" ∧ ∃ x y, NextAt E C s b x y m.start m.stop ∧ (n : Int) = numberAt E s m.start m.stop))) := by
  simp only [seasonsWorded, wordedKept, List.mem_flatMap, List.mem_map] at hm
  obtain ⟨ks, ⟨hs, h1, rfl⟩, h, h2, h3⟩ := hm
  obtain ⟨h0, l, rfl, h4, h5, h6⟩ := worded_chain h1
  obtain ⟨p, q, v, h7, h8, h9, h10, h11⟩ := worded_trim h2
  obtain ⟨x0, a, g1, g2, g3, g4, g5⟩ := seasonWord_inv hE h4
  obtain ⟨n0, r1, r2, _⟩ := takes_reads hE hC hP g4 g3
  -- the steps
  have hstep : ∀ h ∈ l, WordedStep E C ofs s h.start h.stop := by
    intro h hh
    obtain ⟨r, hr, hm⟩ := h6 h hh
    simp only [List.mem_cons, List.not_mem_nil, or_false] at hr
    rcases hr with rfl | rfl
    · obtain ⟨x, c, t1, t2, t3, t4, _⟩ := ofCount_inv hE hm
      obtain ⟨n, t5, _⟩ := takes_reads hE hC hP t4 t3
      exact .inl ⟨c, n, ⟨x, t1, t2⟩, t5⟩
    · obtain ⟨x, y, d, t1, _⟩ := mem_nextSeason hL (matchAt_mem hm)
      exact .inr ⟨x, y, d, t1⟩
  have hv0 : validSeasonHit E s h0 = true ↔ NumeralAt E s a h0.stop n0 := by
    simp only [validSeasonHit, g5, List.all_cons, List.all_nil, Bool.and_true]
    simp only [List.lookup, beq_self_eq_true, Nat.reduceBEq, Bool.and_true]
    rw [validRoman_iff hE hC hP g4 g3]
    exact ⟨fun h => ⟨r1, h⟩, fun h => h.2⟩
  have hlast : ∀ h ∈ l, 0 < h.stop ∧ CharAt s (· ∉ seps) (h.stop - 1) := by
    intro h hh
    obtain ⟨r, hr, hm⟩ := h6 h hh
    simp only [List.mem_cons, List.not_mem_nil, or_false] at hr
    rcases hr with rfl | rfl
    · obtain ⟨x, c, t1, t2, t3, t4, _⟩ := ofCount_inv hE hm
      exact ⟨by omega, takes_nosep hE hP t4 _ (by omega) (by omega)⟩
    · obtain ⟨x, y, d, t1, _⟩ := mem_nextSeason hL (matchAt_mem hm)
      obtain ⟨t2, t3⟩ := t1.number
      obtain ⟨c, t4, t5⟩ := t3 (h.stop - 1) (by omega) (by omega)
      exact ⟨by omega, c, t4, fun h => sep_not_digit hE h t5⟩
  obtain ⟨hfree, hnum⟩ : FreeBefore s h0.start ∧ NumeralAt E s a h0.stop n0 := by
    obtain ⟨r0, e1, e2, e3⟩ := h11
    rcases List.mem_cons.1 e1 with rfl | e1
    · exact ⟨e3, hv0.1 e2⟩
    · obtain ⟨c, t4, t5⟩ := takes_nosep hE hP g4 (h0.stop - 1) (by omega) (by omega)
      exact absurd e3 (follow_free h5 ⟨c, by omega, t4, t5⟩ hlast r0 e1)
  -- the end
  obtain ⟨ws', hws1, hws2, hws3, hws4⟩ : ∃ ws', (∃ v, ws' ++ v = l) ∧ lastStop h0.stop ws' = q.stop ∧ (h = h0 ∨ h ∈ ws') ∧ True := by
    cases p with
    | nil =>
      simp only [List.nil_append, List.singleton_append, List.cons.injEq] at h7
      obtain ⟨rfl, h7⟩ := h7
      exact ⟨[], ⟨l, rfl⟩, rfl, by simpa using h8, trivial⟩
    | cons p0 p =>
      simp only [List.cons_append, List.cons.injEq] at h7
      obtain ⟨rfl, h7⟩ := h7
      refine ⟨p ++ [q], ⟨v, h7⟩, by rw [lastStop_append]; rfl, ?_, trivial⟩
      simpa using h8
  obtain ⟨v', hv'⟩ := hws1
  have hfol : Follow h0.stop ws' := by rw [← hv'] at h5; exact follow_left h5
  have hstep' : ∀ h ∈ ws', WordedStep E C ofs s h.start h.stop := fun h hh => hstep h (by rw [← hv']; simp [hh])
  refine ⟨h0.start, a, h0.stop, n0, q.stop, ⟨x0, g1, g2⟩, hnum, ?_, ⟨hfree, h10⟩, ?_⟩
  · rw [← hws2]; exact follow_steps ws' _ hfol hstep'
  simp only [wordedNumbers, List.mem_filterMap, Option.map_eq_some_iff] at h3
  obtain ⟨g, hg, ⟨y1, y2⟩, hy, rfl⟩ := h3
  rcases hws3 with rfl | hin
  · -- the first numeral
    rw [g5] at hy
    simp only [List.mem_cons, List.not_mem_nil, or_false] at hg
    rcases hg with rfl | rfl
    · simp only [List.lookup, beq_self_eq_true, Option.some.injEq, Prod.mk.injEq] at hy
      obtain ⟨rfl, rfl⟩ := hy
      exact ⟨n0, r2, .inl ⟨rfl, rfl, rfl, rfl⟩⟩
    · simp [List.lookup] at hy
  · obtain ⟨s1, s2⟩ := follow_at ws' _ hfol hstep' hin
    rw [hws2] at s2
    obtain ⟨r, hr, hmr⟩ := h6 h (by rw [← hv']; simp [hin])
    simp only [List.mem_cons, List.not_mem_nil, or_false] at hr hg
    rcases hr with rfl | rfl
    · obtain ⟨x, c, t1, t2, t3, t4, t5⟩ := ofCount_inv hE hmr
      obtain ⟨n, t6, t7, _⟩ := takes_reads hE hC hP t4 t3
      rw [t5] at hy
      rcases hg with rfl | rfl
      · simp [List.lookup] at hy
      · simp only [List.lookup, beq_self_eq_true, Option.some.injEq, Prod.mk.injEq] at hy
        obtain ⟨rfl, rfl⟩ := hy
        have hv := h9
        simp only [validSeasonHit, t5, List.all_cons, List.all_nil, Bool.and_true] at hv
        simp only [List.lookup, beq_self_eq_true, Nat.reduceBEq, Bool.true_and] at hv
        rw [validRoman_iff hE hC hP t4 t3] at hv
        exact ⟨n, t7, .inr ⟨h.start, s1, s2, .inl ⟨rfl, ⟨x, t1, t2⟩, t6, hv⟩⟩⟩
    · obtain ⟨x, y, d, t1, t2⟩ := mem_nextSeason hL (matchAt_mem hmr)
      rw [t2] at hy
      rcases hg with rfl | rfl
      · simp only [List.lookup, beq_self_eq_true, Option.some.injEq, Prod.mk.injEq] at hy
        obtain ⟨rfl, rfl⟩ := hy
        refine ⟨digitsValue E.u (textOf s d h.stop), ?_, .inr ⟨h.start, s1, s2, .inr ⟨rfl, x, y, t1, rfl⟩⟩⟩
        exact digits_worded hE t1.number
      · simp [List.lookup] at hy

end
end Guessit
