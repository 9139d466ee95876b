import Verif.Props.SeasonEpisodeSound

/-! # C126: 1x02 -/

namespace Guessit
open Spec Re

section
variable {E : RxEnv} {C : EpisodeConfig} {s : Str}

/-! ## The order of the numbers (C125) -/

theorem chainNumbers_append (E : RxEnv) (s : Str) (n g : Nat) (l m : List RxHit) : chainNumbers E s n g (l ++ m) = chainNumbers E s n g l ++ chainNumbers E s n g m := by
  simp [chainNumbers]

theorem chainNumbers_short (E : RxEnv) (s : Str) (n g : Nat) (h : RxHit) : chainNumbers E s n g [h] = [] ∨ ∃ x, chainNumbers E s n g [h] = [x] := by
  have := chainNumbers_single E s n g h
  match chainNumbers E s n g [h], this with
  | [], _ => exact .inl rfl
  | [x], _ => exact .inr ⟨x, rfl⟩

/-- The numbers of a group are close to one another. -/
def CloseTo (max : Int) (l : List Int) : Prop := ∀ u v, Neighbours l u v → ((v - u).natAbs : Int) ≤ max

theorem breaks_snoc {max a b : Int} {pre : List Int} (h : breaksAt max (pre ++ [a] ++ [b]) = false) : ((b - a).natAbs : Int) ≤ max := by
  simp only [breaksAt, List.reverse_append, List.reverse_cons, List.reverse_nil, List.nil_append, List.singleton_append, List.cons_append,
    decide_eq_false_iff_not] at h
  omega

theorem close_snoc {max : Int} {n g : Nat} {acc : List RxHit} {h : RxHit} (hc : CloseTo max ((chainNumbers E s n g acc).map Prod.snd))
    (hb : breaksAt max ((chainNumbers E s n g (acc ++ [h])).map Prod.snd) = false) : CloseTo max ((chainNumbers E s n g (acc ++ [h])).map Prod.snd) := by
  rw [chainNumbers_append, List.map_append] at hb ⊢
  rcases chainNumbers_short E s n g h with h1 | ⟨x, h1⟩
  · rw [h1, List.map_nil, List.append_nil]; exact hc
  · rw [h1, List.map_cons, List.map_nil] at hb ⊢
    intro u v huv
    rcases neighbours_snoc huv with h2 | ⟨pre, h2, rfl⟩
    · exact hc u v h2
    · rw [h2] at hb; exact breaks_snoc hb

theorem keepHits_close : ∀ (hs acc : List RxHit), CloseTo C.episodeMax ((chainEpisodes E s acc).map Prod.snd) → CloseTo C.seasonMax ((chainSeasons E s acc).map Prod.snd) →
    CloseTo C.episodeMax ((chainEpisodes E s (keepHits (brokenChain E C s) acc hs)).map Prod.snd) ∧
    CloseTo C.seasonMax ((chainSeasons E s (keepHits (brokenChain E C s) acc hs)).map Prod.snd)
  | [], _, h1, h2 => ⟨h1, h2⟩
  | h :: hs, acc, h1, h2 => by
    unfold keepHits
    split
    · exact keepHits_close hs acc h1 h2
    · rename_i hb
      rw [Bool.not_eq_true, brokenChain, chainBreaker, Bool.or_eq_false_iff] at hb
      exact keepHits_close hs _ (close_snoc h1 hb.1) (close_snoc h2 hb.2)

theorem CloseTo.prefix {max : Int} {l m : List Int} (h : CloseTo max (l ++ m)) : CloseTo max l :=
  fun u v huv => h u v (huv.of_prefix (List.prefix_append _ _))

/-- C125, C126, C127: in what a chain reports, a number that is not a repetition is larger than all before it, numbers after a weak separator are close,
and successive numbers are no further apart than the configured maximum. -/
theorem C125_ordered {k : EpisodeChain} {hs : List RxHit} (h : hs ∈ k.kept E C s) (hne : hs ≠ []) :
    (NewIsLarger ((chainSeasons E s hs).map Prod.snd) ∧ NewIsLarger ((chainEpisodes E s hs).map Prod.snd)) ∧
    ((HasStrong C.discreteSeparators.contains (chainSeasons E s hs) ∨ WeakIsClose C.rangeSeparators.contains C.weak.contains C.gap (chainSeasons E s hs)) ∧
      (HasStrong C.discreteSeparators.contains (chainEpisodes E s hs) ∨ WeakIsClose C.rangeSeparators.contains C.weak.contains C.gap (chainEpisodes E s hs))) ∧
    (∀ u v, Neighbours ((chainSeasons E s hs).map Prod.snd) u v → ((v - u).natAbs : Int) ≤ C.seasonMax) ∧
    ∀ u v, Neighbours ((chainEpisodes E s hs).map Prod.snd) u v → ((v - u).natAbs : Int) ≤ C.episodeMax := by
  simp only [EpisodeChain.kept, List.mem_map] at h
  obtain ⟨l, _, rfl⟩ := h
  obtain ⟨⟨t, h1⟩, h2⟩ := trimChain_sound (valid := validChain E C s) (keepHits (brokenChain E C s) [] l).reverse
  have h3 := h2 hne
  rw [List.reverse_reverse] at h1
  have nil_close : ∀ max, CloseTo max [] := fun max u v ⟨pre, post, he⟩ => by simp at he
  obtain ⟨h4, h5⟩ := keepHits_close (E := E) (C := C) (s := s) l [] (nil_close _) (nil_close _)
  generalize trimChain (validChain E C s) (keepHits (brokenChain E C s) [] l).reverse = p at *
  rw [h1, chainEpisodes, chainNumbers_append, List.map_append] at h4
  rw [h1, chainSeasons, chainNumbers_append, List.map_append] at h5
  cases p with
  | nil => exact absurd rfl hne
  | cons h hs =>
    rw [validChain, Bool.and_eq_true, C59_accepted_iff_strong] at h3
    exact ⟨⟨h3.2.1, h3.2.2.1⟩, h3.2.2.2, h5.prefix, h4.prefix⟩

/-! ## 1x02 -/

/-- C126: what is reported for 1x02 (and 1x02x03, 1x02-03, 1x021x03) is a number that has been written. -/
theorem C126_sound (hE : Usual E) {k : EpisodeChain} (hk : k = .crossedMany ∨ k = .crossedList) {m : RxMatch Int} (hm : m ∈ k.found E C s) : ∃ i0 j0 i j k',
    (∃ b d, CrossedAt E C s i0 b d j0) ∧ ManySteps (CrossedStep E C s) j0 k' ∧ Standing s i0 k' ∧
    ((i = i0 ∧ j = j0) ∨ (ManySteps (CrossedStep E C s) j0 i ∧ ManySteps (CrossedStep E C s) j k')) ∧
    ((m.name = c!"season" ∧ m.start = i ∧ ∃ d, CrossedAt E C s i m.stop d j) ∨
      (m.name = c!"episode" ∧ m.stop = j ∧ ((∃ b, CrossedAt E C s i b m.start j) ∨ MoreAt E (C.seasonEpMarkers ++ C.separators) s i m.start j))) ∧
    m.value = .ok (numberAt E s m.start m.stop) := by
  obtain ⟨h0, ws, h1, h2, h3, h4, h, h5, h6⟩ := reported_within hm
  obtain ⟨h7, h8⟩ := mem_numbersOf h6
  have hfirst : (k.first E C).re = E.crossed C := by rcases hk with rfl | rfl <;> rfl
  have hof : Of s [E.crossed C, E.moreEpisodes (C.seasonEpMarkers ++ C.separators)] (h0 :: ws) := by
    intro x hx
    rcases List.mem_cons.1 hx with rfl | hx
    · exact ⟨E.crossed C, by simp, hfirst ▸ h1⟩
    · obtain ⟨r, g1, g2⟩ := h3 x hx
      refine ⟨r, ?_, g2⟩
      rcases hk with rfl | rfl
      · simp only [EpisodeChain.first, EpisodeChain.rest, List.map_nil, List.mem_cons, List.not_mem_nil, or_false] at g1
        simp [g1]
      · exact g1
  have hwhat : ∀ h ∈ h0 :: ws, (∃ b x y d, CrossedAt E C s h.start b d h.stop ∧ h.caps = [(2, (d, h.stop)), (4, (x, y)), (1, (h.start, b))]) ∨
      ∃ d, MoreAt E (C.seasonEpMarkers ++ C.separators) s h.start d h.stop ∧ h.caps = [(2, (d, h.stop)), (5, (h.start, d))] := by
    intro h hh
    obtain ⟨r, g1, g2⟩ := hof h hh
    simp only [List.mem_cons, List.not_mem_nil, or_false] at g1
    rcases g1 with rfl | rfl
    · obtain ⟨b, x, y, d, g3, _, _, _, g4⟩ := mem_crossed.1 (matchAt_mem g2)
      exact .inl ⟨b, x, y, d, g3, g4⟩
    · obtain ⟨d, g3, g4⟩ := mem_marked.1 (matchAt_mem g2)
      exact .inr ⟨d, g3, g4⟩
  have hstep : ∀ h ∈ ws, CrossedStep E C s h.start h.stop := by
    intro h hh
    rcases hwhat h (by simp [hh]) with ⟨b, x, y, d, g, _⟩ | ⟨d, g, _⟩
    · exact .inl ⟨b, d, g⟩
    · exact .inr ⟨d, g⟩
  have hstep0 : ∃ b d, CrossedAt E C s h0.start b d h0.stop := by
    obtain ⟨b, x, y, d, g3, _⟩ := mem_crossed.1 (matchAt_mem (hfirst ▸ h1))
    exact ⟨b, d, g3⟩
  have hsay : ((m.name = c!"season" ∧ m.start = h.start ∧ ∃ d, CrossedAt E C s h.start m.stop d h.stop) ∨
      (m.name = c!"episode" ∧ m.stop = h.stop ∧ ((∃ b, CrossedAt E C s h.start b m.start h.stop) ∨
        MoreAt E (C.seasonEpMarkers ++ C.separators) s h.start m.start h.stop))) := by
    rcases hwhat h h5 with ⟨b, x, y, d, g, g4⟩ | ⟨d, g, g4⟩
    · rw [g4] at h7
      rcases h7 with ⟨e, h7⟩ | ⟨e, h7⟩ <;> simp only [List.lookup] at h7 <;> simp at h7
      · obtain ⟨h7, rfl⟩ := h7
        exact .inl ⟨e, h7.symm, d, g⟩
      · obtain ⟨rfl, h7⟩ := h7
        exact .inr ⟨e, h7.symm, .inl ⟨b, g⟩⟩
    · rw [g4] at h7
      rcases h7 with ⟨e, h7⟩ | ⟨e, h7⟩ <;> simp only [List.lookup] at h7 <;> simp at h7
      obtain ⟨rfl, h7⟩ := h7
      exact .inr ⟨e, h7.symm, .inr g⟩
  refine ⟨h0.start, h0.stop, h.start, h.stop, lastStop h0.stop ws, hstep0, follow_steps ws _ h2 hstep, h4, ?_, hsay, ?_⟩
  · rcases List.mem_cons.1 h5 with rfl | h5
    · exact .inl ⟨rfl, rfl⟩
    · exact .inr (follow_at ws _ h2 hstep h5)
  · rw [h8]
    refine (groupNumber_eq hE ?_).2
    rcases hsay with ⟨_, e, d, g⟩ | ⟨_, e, ⟨b, g⟩ | g⟩
    · rw [e]; exact g.season
    · rw [e]; exact g.episode
    · rw [e]; exact g.number

/-- A match of 1x02 that begins before a separator and a number ends before the number, unless it is `1 x` and the number. -/
theorem crossed_before (hE : Usual E) (hC : PlainEpisodes C) {i : Nat} (hi : CharAt s (Digit E) i) (hf : FreeBefore s i)
    (hx : ∀ x, ¬ MarkAt E C.seasonEpMarkers s x (i - 1)) {i' j' : Nat} {c' : Caps} (hlt : i' < i) (hm : (E.crossed C).matchAt s i' = some (j', c')) : j' < i := by
  have hsep : CharAt s (· ∈ seps) (i - 1) := by
    rcases hf with h | h
    · omega
    · exact h
  by_contra hcon
  obtain ⟨b, x, y, d, h1, h2, h3, h4, _⟩ := mem_crossed.1 (matchAt_mem hm)
  have hav := lettered_avoids hE (ws := C.seasonEpMarkers) fun w h => hC.markers w (by simp [h])
  have g1 := h3.first hav
  have g4 := h1.season.1
  have g5 := h1.episode.1
  by_cases c1 : i ≤ b
  · exact (h1.season.2 (i - 1) (by omega) (by omega)).false hsep fun c a b => sep_not_digit hE b a
  · by_cases c2 : i ≤ x
    · rcases h2 with rfl | ⟨rfl, h2⟩
      · omega
      · obtain rfl : i = b + 1 := by omega
        exact (g1.2 (b + 1) (by omega) (by omega)).false hi fun c a b => a (.inr b)
    · by_cases c3 : i ≤ y
      · exact (g1.2 (i - 1) (by omega) (by omega)).false hsep fun c a b => a (.inl b)
      · by_cases c4 : i ≤ d
        · rcases h4 with rfl | ⟨rfl, h4⟩
          · omega
          · have : y = i - 1 := by omega
            subst this
            exact hx x h3
        · exact (h1.episode.2 (i - 1) (by omega) (by omega)).false hsep fun c a b => sep_not_digit hE b a

/-- C126: 1x02 between separators is reported, unless an `x` on its own is before it. -/
theorem C126_complete (hE : Usual E) (hC : PlainEpisodes C) {i b d j : Nat} (h : CrossedAt E C s i b d j) (hst : Standing s i j)
    (hx : ∀ x, ¬ MarkAt E C.seasonEpMarkers s x (i - 1)) :
    ({ name := c!"season", start := i, stop := b, value := .ok (numberAt E s i b) } : RxMatch Int) ∈ EpisodeChain.crossedMany.found E C s ∧
    ({ name := c!"episode", start := d, stop := j, value := .ok (numberAt E s d j) } : RxMatch Int) ∈ EpisodeChain.crossedMany.found E C s := by
  have hj := standing_noDigit hE hst.2
  obtain ⟨x, y, hh⟩ := crossed_head (c := []) hE hC h hj
  have hm := matchAt_head hh
  have hi := digits_char h.season
  generalize h0e : (⟨i, j, [(2, (d, j)), (4, (x, y)), (1, (i, b))]⟩ : RxHit) = h0
  have hcaps : h0.caps = [(2, (d, j)), (4, (x, y)), (1, (i, b))] := by rw [← h0e]
  have hstart : h0.start = i := by rw [← h0e]
  have hstop : h0.stop = j := by rw [← h0e]
  have hmoves : Moves s [E.crossed C] := by
    intro r hr i j c hm
    obtain rfl : r = E.crossed C := by simpa using hr
    obtain ⟨b, x, y, d, h1, h2, h3, h4, _⟩ := mem_crossed.1 (matchAt_mem hm)
    have hav := lettered_avoids hE (ws := C.seasonEpMarkers) fun w h => hC.markers w (by simp [h])
    have := (h3.first hav).1
    have := h1.season.1
    have := h1.episode.1
    rcases h2 with rfl | ⟨rfl, _⟩ <;> rcases h4 with rfl | ⟨rfl, _⟩ <;> omega
  have hchain : chainOf s (EpisodeChain.crossedMany.first E C) (EpisodeChain.crossedMany.rest E C) h0 ∈
      chains s (EpisodeChain.crossedMany.first E C) (EpisodeChain.crossedMany.rest E C) := by
    rw [← h0e]
    refine chains_complete hmoves hm ?_ ?_ _ _ (by omega) (by omega)
    · obtain ⟨c, hc, _⟩ := hi
      exact (List.getElem?_eq_some_iff.1 hc).1
    · intro r hr i' j' c' hlt hm
      obtain rfl : r = E.crossed C := by simpa [EpisodeChain.first, EpisodeChain.rest] using hr
      exact crossed_before hE hC hi hst.1 hx hlt hm
  have hnext : (E.crossed C).matchAt s j = none := by
    cases hm : (E.crossed C).matchAt s j with
    | none => rfl
    | some z =>
      obtain ⟨j', c⟩ := z
      obtain ⟨b, x, y, d, h1, _⟩ := mem_crossed.1 (matchAt_mem hm)
      obtain ⟨c, h2, h3⟩ := digits_char h1.season
      exact absurd h3 (hj c h2)
  have hrun : ∀ f, (E.crossed C).run s f j = [] := by
    intro f
    cases f with
    | zero => rfl
    | succ f => rw [Re.run, hnext]
  have heq : chainOf s (EpisodeChain.crossedMany.first E C) (EpisodeChain.crossedMany.rest E C) h0 = [h0] ++ [] := by
    simp only [chainOf, EpisodeChain.first, EpisodeChain.rest, Option.getD_none, hstop, hrun, chainTail, List.append_nil]
  have hval : validChain E C s [h0] = true := by
    rw [validChain, Bool.and_eq_true, lastStop, hstart, hstop]
    refine ⟨standing_iff.2 hst, ?_⟩
    rw [chainSeasons, chainEpisodes, numbers_cons (x := (i, b)) (by rw [hcaps]; rfl) (by rw [hcaps]; rfl),
      numbers_cons (x := (d, j)) (by rw [hcaps]; rfl) (by rw [hcaps]; rfl)]
    have hone : ∀ v : Int, NewIsLarger [v] := by
      intro v pre w post he
      cases pre with
      | nil => exact .inr (by simp)
      | cons u pre => simp at he
    have hweak : ∀ v : Int, WeakIsClose C.rangeSeparators.contains C.weak.contains C.gap [(none, v)] := by
      rintro v p sep w ⟨pre, q, post, he⟩
      have := congrArg List.length he
      simp only [List.length_cons, List.length_nil, List.length_append] at this
      omega
    exact (C59_accepted_iff_strong _ _ _ _ _ _).2 ⟨hone _, hone _, .inr (hweak _), .inr (hweak _)⟩
  have hrep := fun (m : RxMatch Int) (hm : m ∈ numbersOf E s h0) =>
    chain_reported hchain heq (by simp) (by
      intro n hn
      have : n = 0 := by simpa using hn
      subst this
      exact broken_single E C s h0) hval (h := h0) (by simp) hm
  constructor
  · refine hrep _ ?_
    simp only [numbersOf, hcaps, List.filterMap_cons, List.filterMap_nil, List.lookup]
    simp [(groupNumber_eq hE h.season).2]
  · refine hrep _ ?_
    simp only [numbersOf, hcaps, List.filterMap_cons, List.filterMap_nil, List.lookup]
    simp [(groupNumber_eq hE h.episode).2]

end
end Guessit
