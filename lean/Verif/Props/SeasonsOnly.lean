import Verif.Props.Crossed

/-! # C127: S01, and lists of seasons -/

namespace Guessit
open Spec Re

section
variable {E : RxEnv} {C : EpisodeConfig} {s : Str}

theorem extras_lettered : Lettered c!"extras" := ⟨by decide, by decide⟩

theorem mem_extras {i j : Nat} {c c' : Caps} : (j, c') ∈ E.extras.exec s i c ↔ LiteralAt E s c!"extras" i ∧ j = i + 6 ∧ c' = (7, (i, j)) :: c := by
  rw [RxEnv.extras, mem_grp]
  constructor
  · rintro ⟨c1, h1, rfl⟩
    obtain ⟨h2, rfl, rfl⟩ := mem_word.1 h1
    exact ⟨h2, rfl, rfl⟩
  · rintro ⟨h, rfl, rfl⟩
    exact ⟨c, mem_word.2 ⟨h, rfl, rfl⟩, rfl⟩

/-- What a match of a chain of seasons is. -/
theorem seasons_hit {h0 : RxHit} {ws : List RxHit} (h1 : (EpisodeChain.seasons.first E C).re.matchAt s h0.start = some (h0.stop, h0.caps))
    (h3 : Of s ((EpisodeChain.seasons.first E C).re :: (EpisodeChain.seasons.rest E C).map ChainPart.re) ws) {h : RxHit} (hh : h ∈ h0 :: ws) :
    (∃ d g, MoreAt E (C.seasonMarkers ++ C.separators) s h.start d h.stop ∧ (g = 3 ∨ g = 6) ∧ h.caps = [(1, (d, h.stop)), (g, (h.start, d))]) ∨
      (LiteralAt E s c!"extras" h.start ∧ h.stop = h.start + 6 ∧ h.caps = [(7, (h.start, h.stop))]) := by
  have hmore : ∀ {i d j : Nat}, MoreAt E C.seasonMarkers s i d j → MoreAt E (C.seasonMarkers ++ C.separators) s i d j := by
    rintro i d j ⟨⟨w, g1, g2⟩, g3⟩
    exact ⟨⟨w, by simp [g1], g2⟩, g3⟩
  have hof : ∃ r ∈ [E.seasonOnly C, E.extras, E.moreSeasons (C.seasonMarkers ++ C.separators)], r.matchAt s h.start = some (h.stop, h.caps) := by
    rcases List.mem_cons.1 hh with rfl | hx
    · exact ⟨E.seasonOnly C, by simp, h1⟩
    · exact h3 h hx
  obtain ⟨r, g1, g2⟩ := hof
  simp only [List.mem_cons, List.not_mem_nil, or_false] at g1
  rcases g1 with rfl | rfl | rfl
  · obtain ⟨d, g3, g4⟩ := mem_marked.1 (matchAt_mem g2)
    exact .inl ⟨d, 3, hmore g3, .inl rfl, g4⟩
  · obtain ⟨g3, g4, g5⟩ := mem_extras.1 (matchAt_mem g2)
    exact .inr ⟨g3, g4, g5⟩
  · obtain ⟨d, g3, g4⟩ := mem_marked.1 (matchAt_mem g2)
    exact .inl ⟨d, 6, g3, .inr rfl, g4⟩

/-- C127: what is reported for S01 (and S01S02, S01-03, S01Extras) is a season, written in a list that begins with a word for seasons after a separator and
goes on up to a separator. -/
theorem C127_sound (hE : Usual E) {m : RxMatch Int} (hm : m ∈ EpisodeChain.seasons.found E C s) : ∃ i0 j0 i k',
    (∃ d, MoreAt E C.seasonMarkers s i0 d j0) ∧ ManySteps (SeasonsStep E C s) j0 k' ∧ Standing s i0 k' ∧
    ((i = i0 ∧ m.stop = j0) ∨ (ManySteps (SeasonsStep E C s) j0 i ∧ ManySteps (SeasonsStep E C s) m.stop k')) ∧
    m.name = c!"season" ∧ MoreAt E (C.seasonMarkers ++ C.separators) s i m.start m.stop ∧ m.value = .ok (numberAt E s m.start m.stop) := by
  obtain ⟨h0, ws, h1, h2, h3, h4, h, h5, h6⟩ := reported_within hm
  obtain ⟨h7, h8⟩ := mem_numbersOf h6
  have hstep : ∀ h ∈ ws, SeasonsStep E C s h.start h.stop := by
    intro h hh
    rcases seasons_hit h1 h3 (List.mem_cons_of_mem _ hh) with ⟨d, g, g1, _⟩ | ⟨g1, g2, _⟩
    · exact .inl ⟨d, g1⟩
    · exact .inr ⟨g1, g2⟩
  have hstep0 : ∃ d, MoreAt E C.seasonMarkers s h0.start d h0.stop := by
    obtain ⟨d, g3, _⟩ := mem_marked.1 (matchAt_mem h1)
    exact ⟨d, g3⟩
  have hsay : m.name = c!"season" ∧ m.stop = h.stop ∧ MoreAt E (C.seasonMarkers ++ C.separators) s h.start m.start h.stop := by
    rcases seasons_hit h1 h3 h5 with ⟨d, g, g1, rfl | rfl, g2⟩ | ⟨g1, _, g2⟩ <;> rw [g2] at h7 <;>
      rcases h7 with ⟨e, h7⟩ | ⟨e, h7⟩ <;> simp only [List.lookup] at h7 <;> simp at h7 <;> obtain ⟨rfl, h7⟩ := h7 <;> exact ⟨e, h7.symm, g1⟩
  refine ⟨h0.start, h0.stop, h.start, lastStop h0.stop ws, hstep0, follow_steps ws _ h2 hstep, h4, ?_, hsay.1, ?_, ?_⟩
  · rw [hsay.2.1]
    rcases List.mem_cons.1 h5 with rfl | h5
    · exact .inl ⟨rfl, rfl⟩
    · exact .inr (follow_at ws _ h2 hstep h5)
  · rw [hsay.2.1]; exact hsay.2.2
  · rw [h8]
    refine (groupNumber_eq hE ?_).2
    rw [hsay.2.1]; exact hsay.2.2.number

/-! ## What is written is reported -/

theorem seasonWords_avoid (hE : Usual E) (hL : Literal E) (hC : PlainEpisodes C) : Avoids E (C.seasonMarkers ++ C.separators) (Digit E) :=
  separators_avoid hE hL hC fun w h => hC.markers w (by simp [h])

theorem seasons_moves (hE : Usual E) (hL : Literal E) (hC : PlainEpisodes C) : Moves s [E.seasonOnly C, E.extras, E.moreSeasons (C.seasonMarkers ++ C.separators)] := by
  intro r hr i j c hm
  simp only [List.mem_cons, List.not_mem_nil, or_false] at hr
  rcases hr with rfl | rfl | rfl
  · obtain ⟨d, h1, _⟩ := mem_marked.1 (matchAt_mem hm)
    have := (mark_begins hC h1.mark).1
    have := h1.number.1
    omega
  · obtain ⟨_, h1, _⟩ := mem_extras.1 (matchAt_mem hm)
    omega
  · obtain ⟨d, h1, _⟩ := mem_marked.1 (matchAt_mem hm)
    have := (h1.mark.first (seasonWords_avoid hE hL hC)).1
    have := h1.number.1
    omega

theorem literal_letters (hE : Usual E) {w : Str} (hw : Lettered w) {i k : Nat} (h : LiteralAt E s w i) (h1 : i ≤ k) (h2 : k < i + w.length) : CharAt s (· ∉ seps) k := by
  have hk : k - i < w.length := by omega
  obtain ⟨c, h3, h4⟩ := h (k - i) w[k - i] (List.getElem?_eq_some_iff.2 ⟨hk, rfl⟩)
  refine ⟨c, by rw [← h3]; congr 1; omega, fun hc => ?_⟩
  rw [sep_not_letter hE (hw.2 _ (List.getElem_mem hk)) hc] at h4; cases h4

theorem seasons_before (hE : Usual E) (hL : Literal E) (hC : PlainEpisodes C) {i : Nat} (hi : CharAt s (Begins E C) i) (hf : FreeBefore s i) :
    ∀ r ∈ [E.seasonOnly C, E.extras, E.moreSeasons (C.seasonMarkers ++ C.separators)], ∀ i' j' c', i' < i → r.matchAt s i' = some (j', c') → j' < i := by
  intro r hr i' j' c' hlt hm
  have hsep : CharAt s (· ∈ seps) (i - 1) := by
    rcases hf with h | h
    · omega
    · exact h
  have hdig : ∀ d, d < j' → AllOf s (Digit E) d j' → d ≤ i → i ≤ j' → False := by
    intro d h1 h2 h3 h4
    by_cases h5 : i < j'
    · exact (h2 i h3 h5).false hi fun c a b => begins_not_digit hE hC b a
    · exact (h2 (i - 1) (by omega) (by omega)).false hsep fun c a b => sep_not_digit hE b a
  by_contra hcon
  have hmark : ∀ d, MarkAt E C.seasonMarkers s i' d → i ≤ d → False := by
    rintro d ⟨w, h1, h2, rfl⟩ h3
    exact (literal_letters hE (hC.markers w (by simp [h1])) h2 (k := i - 1) (by omega) (by omega)).false hsep fun c a b => a b
  simp only [List.mem_cons, List.not_mem_nil, or_false] at hr
  rcases hr with rfl | rfl | rfl
  · obtain ⟨d, h1, _⟩ := mem_marked.1 (matchAt_mem hm)
    by_cases c1 : i ≤ d
    · exact hmark d h1.mark c1
    · exact hdig d h1.number.1 h1.number.2 (by omega) (by omega)
  · obtain ⟨h1, h2, _⟩ := mem_extras.1 (matchAt_mem hm)
    exact (literal_letters hE (w := c!"extras") extras_lettered h1 (k := i - 1) (by omega) (by simp; omega)).false hsep fun c a b => a b
  · obtain ⟨d, h1, _⟩ := mem_marked.1 (matchAt_mem hm)
    by_cases c1 : i ≤ d
    · obtain ⟨w, g1, g2, g3⟩ := h1.mark
      rcases List.mem_append.1 g1 with g1 | g1
      · exact hmark d ⟨w, g1, g2, g3⟩ c1
      · by_cases c0 : i = d
        · subst c0
          exact (digits_char h1.number).false hi fun c a b => begins_not_digit hE hC b a
        · have hm' : MarkAt E (moreWords C) s i' d := ⟨w, by simp [moreWords, g1], g2, g3⟩
          exact ((hm'.first (moreWords_begins hE hL hC)).2 i (by omega) (by omega)).false hi fun c a b => a b
    · exact hdig d h1.number.1 h1.number.2 (by omega) (by omega)

/-- C127: S01 between separators, with `Extras` and a list of more seasons after it if need be (S01S02, S01-03): all the seasons are reported with
their numbers, and `Extras` is.  Listed numbers must increase, stay close when a separator such as a dot is before them, and not be further apart than the
configured maximum; a list must be given as far as it goes. -/
theorem C127_list (hE : Usual E) (hL : Literal E) (hC : PlainEpisodes C) {i d j j' k : Nat} {l : List (Nat × Nat × Nat)}
    (h : MoreAt E C.seasonMarkers s i d j) (hx : (LiteralAt E s c!"extras" j ∧ j' = j + 6) ∨ (¬ LiteralAt E s c!"extras" j ∧ j' = j))
    (hl : ListedAt E (C.seasonMarkers ++ C.separators) s j' l k) (hst : Standing s i k)
    (hnew : NewIsLarger ((listedNumbers E s d j l).map Prod.snd))
    (hweak : HasStrong C.discreteSeparators.contains (listedNumbers E s d j l) ∨ WeakIsClose C.rangeSeparators.contains C.weak.contains C.gap (listedNumbers E s d j l))
    (hclose : ∀ u v, Neighbours ((listedNumbers E s d j l).map Prod.snd) u v → ((v - u).natAbs : Int) ≤ C.seasonMax) :
    (∀ x ∈ (d, j) :: l.map Prod.snd,
      ({ name := c!"season", start := x.1, stop := x.2, value := .ok (numberAt E s x.1 x.2) } : RxMatch Int) ∈ EpisodeChain.seasons.found E C s) ∧
    (LiteralAt E s c!"extras" j → ({ name := c!"other", start := j, stop := j + 6, value := .ok c!"Extras" } : RxMatch Str) ∈ extrasFound E C s) := by
  have hw := seasonWords_avoid hE hL hC
  have hk := standing_noDigit hE hst.2
  have hj' := listed_start hw hl hk
  have hj : NoDigitAt E s j := by
    rcases hx with ⟨h1, rfl⟩ | ⟨_, rfl⟩
    · intro z hz hd
      obtain ⟨c, h2, h3⟩ := h1 0 'e' rfl
      have h2' : s[j]? = some c := h2
      rw [hz, Option.some.injEq] at h2'; subst h2'
      exact letter_not_digit hE (by decide) h3 hd
    · exact hj'
  have hm := matchAt_head (marked_head (c := []) (g := 3) (n := 1) (ws := C.seasonMarkers) (fun w h => hw w (by simp [h])) h hj)
  obtain ⟨hia, hib⟩ := mark_begins hC h.mark
  have hlen : l.length ≤ s.length := by
    have := listed_grow hw hl
    by_cases hl0 : l = []
    · subst hl0; simp
    · have := this.2 hl0; omega
  generalize h0e : (⟨i, j, [(1, (d, j)), (3, (i, d))]⟩ : RxHit) = h0
  have hcaps : h0.caps = [(1, (d, j)), (3, (i, d))] := by rw [← h0e]
  have hstart : h0.start = i := by rw [← h0e]
  have hstop : h0.stop = j := by rw [← h0e]
  have hchain : chainOf s (EpisodeChain.seasons.first E C) (EpisodeChain.seasons.rest E C) h0 ∈
      chains s (EpisodeChain.seasons.first E C) (EpisodeChain.seasons.rest E C) := by
    rw [← h0e]
    refine chains_complete (seasons_moves hE hL hC) hm ?_ (seasons_before hE hL hC hib hst.1) _ _ (by omega) (by omega)
    obtain ⟨c, hc, _⟩ := hib
    exact (List.getElem?_eq_some_iff.1 hc).1
  obtain ⟨more, hmore⟩ := run_listed (n := 1) (g := 6) hw hl hk s.length hlen
  -- the word `Extras`
  obtain ⟨xs, hxs, hxl, hxn, hxc⟩ : ∃ xs : List RxHit, E.extras.run s 1 j = xs ∧ lastStop j xs = j' ∧
      (∀ x ∈ xs, x.caps = [(7, (j, j + 6))]) ∧ (LiteralAt E s c!"extras" j → xs ≠ []) := by
    rcases hx with ⟨h1, hj2⟩ | ⟨h1, hj2⟩
    · have hmem : (j + 6, [(7, (j, j + 6))]) ∈ E.extras.exec s j [] := mem_extras.2 ⟨h1, rfl, rfl⟩
      obtain ⟨j2, c2, h2⟩ := matchAt_of_mem hmem
      obtain ⟨_, rfl, rfl⟩ := mem_extras.1 (matchAt_mem h2)
      refine ⟨[⟨j, j + 6, [(7, (j, j + 6))]⟩], by rw [Re.run, h2]; rfl, hj2.symm, by simp, by simp⟩
    · have : E.extras.matchAt s j = none := by
        cases h2 : E.extras.matchAt s j with
        | none => rfl
        | some z => exact absurd (mem_extras.1 (matchAt_mem (j := z.1) (c := z.2) h2)).1 h1
      refine ⟨[], by rw [Re.run, this], hj2.symm, by simp, fun h => absurd h h1⟩
  have heq : chainOf s (EpisodeChain.seasons.first E C) (EpisodeChain.seasons.rest E C) h0 = (h0 :: (xs ++ l.map (itemHit 1 6))) ++ more := by
    have e0 : (E.seasonOnly C).run s 0 j = [] := rfl
    simp only [chainOf, EpisodeChain.first, EpisodeChain.rest, Option.getD_some, Option.getD_none, hstop, Nat.sub_self, e0, chainTail, lastStop, hxs, hxl,
      List.append_nil, List.singleton_append, List.cons_append, List.append_assoc, List.cons.injEq, true_and, List.append_cancel_left_eq]
    rw [List.nil_append]
    exact congrArg (xs ++ ·) hmore
  -- its numbers
  have hxnum : ∀ (ys : List RxHit) (n g : Nat), (∀ y ∈ ys, y ∈ xs) → n ≠ 7 → chainNumbers E s n g ys = [] := by
    intro ys n g hys hn
    rw [chainNumbers, List.filterMap_eq_nil_iff]
    intro y hy
    have : (n == 7) = false := by simpa using hn
    simp only [hxn y (hys y hy), List.lookup, this, Option.map_none]
  have hseas : ∀ (ys : List RxHit) (n : Nat), (∀ y ∈ ys, y ∈ xs) → chainSeasons E s (h0 :: (ys ++ (l.take n).map (itemHit 1 6))) = listedNumbers E s d j (l.take n) := by
    intro ys n hys
    obtain ⟨k', hk'⟩ := ListedAt_take hl n
    rw [chainSeasons, numbers_cons (x := (d, j)) (by rw [hcaps]; rfl) (by rw [hcaps]; rfl), chainNumbers_append, hxnum ys 1 6 hys (by decide),
      List.nil_append, numbers_items hE hk' (by decide), (groupNumber_eq hE h.number).1]
    rfl
  have heps : ∀ (ys : List RxHit) (n : Nat), (∀ y ∈ ys, y ∈ xs) → chainEpisodes E s (h0 :: (ys ++ (l.take n).map (itemHit 1 6))) = [] := by
    intro ys n hys
    have e1 : h0 :: (ys ++ (l.take n).map (itemHit 1 6)) = [h0] ++ (ys ++ (l.take n).map (itemHit 1 6)) := rfl
    rw [e1, chainEpisodes, chainNumbers_append, chainNumbers_append, hxnum ys 2 5 hys (by decide), numbers_none (by decide) (by decide)]
    simp [chainNumbers, hcaps, List.lookup]
  have hbr : ∀ n, n < (h0 :: (xs ++ l.map (itemHit 1 6))).length → brokenChain E C s ((h0 :: (xs ++ l.map (itemHit 1 6))).take (n + 1)) = false := by
    intro n _
    rw [List.take_succ_cons, List.take_append, ← List.map_take, brokenChain, chainBreaker, heps _ _ (fun y hy => List.mem_of_mem_take hy),
      hseas _ _ (fun y hy => List.mem_of_mem_take hy), Bool.or_eq_false_iff]
    refine ⟨rfl, breaks_false fun u v huv => hclose u v (huv.of_prefix ?_)⟩
    simp only [listedNumbers, List.map_cons, List.map_map]
    rw [List.map_take]
    exact (List.prefix_cons_inj _).2 (List.take_prefix _ _)
  have hval : validChain E C s (h0 :: (xs ++ l.map (itemHit 1 6))) = true := by
    have e1 := heps xs l.length fun y hy => hy
    have e2 := hseas xs l.length fun y hy => hy
    rw [List.take_length] at e1 e2
    rw [validChain, e1, e2, Bool.and_eq_true]
    constructor
    · rw [lastStop, hstop, lastStop_append, hxl, lastStop_items hl, hstart]
      exact standing_iff.2 hst
    · refine (C59_accepted_iff_strong _ _ _ _ _ _).2 ⟨hnew, ?_, hweak, .inr ?_⟩
      · intro pre v post he
        simp at he
      · rintro p sep v ⟨pre, q, post, he⟩
        simp at he
  have hrep := fun (z : RxHit) (hz : z ∈ h0 :: (xs ++ l.map (itemHit 1 6))) (m : RxMatch Int) (hm : m ∈ numbersOf E s z) =>
    chain_reported hchain heq (by simp) hbr hval hz hm
  refine ⟨?_, fun hex => ?_⟩
  · intro z hz
    rcases List.mem_cons.1 hz with rfl | hz
    · refine hrep h0 (by simp) _ ?_
      simp only [numbersOf, hcaps, List.filterMap_cons, List.filterMap_nil, List.lookup]
      simp [(groupNumber_eq hE h.number).2]
    · obtain ⟨⟨u, v⟩, hu, rfl⟩ := List.mem_map.1 hz
      have hnum : v.1 < v.2 ∧ AllOf s (Digit E) v.1 v.2 := by
        clear * - hl hu
        induction hl with
        | nil => cases hu
        | cons h1 _ ih =>
          rcases List.mem_cons.1 hu with h | h
          · cases h; exact h1.number
          · exact ih h
      refine hrep (itemHit 1 6 (u, v)) (by simp only [List.mem_cons, List.mem_append, List.mem_map]; exact .inr (.inr ⟨_, hu, rfl⟩)) _ ?_
      simp only [numbersOf, itemHit, List.filterMap_cons, List.filterMap_nil, List.lookup]
      simp [(groupNumber_eq hE hnum).2]
  · obtain ⟨x, hx⟩ := List.exists_mem_of_ne_nil _ (hxc hex)
    have := chain_kept hchain heq (by simp) hbr hval (h := x) (by simp [hx])
    obtain ⟨hs, g1, g2⟩ := this
    simp only [extrasFound, List.mem_flatMap, List.mem_filterMap]
    refine ⟨hs, g1, x, g2, ?_⟩
    rw [hxn x hx]
    rfl

/-- C127: S01 between separators is reported, whatever is around it. -/
theorem C127_complete (hE : Usual E) (hL : Literal E) (hC : PlainEpisodes C) {i d j : Nat} (h : MoreAt E C.seasonMarkers s i d j) (hst : Standing s i j) :
    ({ name := c!"season", start := d, stop := j, value := .ok (numberAt E s d j) } : RxMatch Int) ∈ EpisodeChain.seasons.found E C s := by
  refine (C127_list hE hL hC h (.inr ⟨?_, rfl⟩) .nil hst ?_ (.inr ?_) ?_).1 (d, j) (by simp)
  · intro hx
    have h1 := literal_letters hE (w := c!"extras") extras_lettered hx (k := j) (by omega) (by simp)
    rcases hst.2 with h2 | h2
    · obtain ⟨c, h3, _⟩ := h1
      have := (List.getElem?_eq_some_iff.1 h3).1
      omega
    · exact h1.false h2 fun c a b => a b
  · intro pre v post he
    cases pre with
    | nil => exact .inr (by simp)
    | cons u pre => simp [listedNumbers] at he
  · rintro p sep v ⟨pre, q, post, he⟩
    have := congrArg List.length he
    simp only [listedNumbers, List.map_nil, List.length_cons, List.length_nil, List.length_append] at this
    omega
  · rintro u v ⟨pre, post, he⟩
    have := congrArg List.length he
    simp only [listedNumbers, List.map_nil, List.map_cons, List.length_cons, List.length_nil, List.length_append] at this
    omega

end
end Guessit
