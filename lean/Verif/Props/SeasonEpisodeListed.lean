import Verif.Props.SeasonEpisodeFound

/-! # C125: what is reported for S01E02, S01E02-03... -/

namespace Guessit
open Spec Re

theorem breaks_false {max : Int} {l : List Int} (h : ∀ a b, Neighbours l a b → ((b - a).natAbs : Int) ≤ max) : breaksAt max l = false := by
  unfold breaksAt
  split
  · rename_i b a t he
    have hl : l = t.reverse ++ a :: b :: [] := by
      have := congrArg List.reverse he
      rw [List.reverse_reverse] at this
      simpa using this
    have := h a b ⟨_, _, hl⟩
    simp only [decide_eq_false_iff_not]
    omega
  · rfl

theorem Neighbours.of_prefix {l m : List Int} {a b : Int} (h : Neighbours l a b) (hp : l <+: m) : Neighbours m a b := by
  obtain ⟨t, rfl⟩ := hp
  obtain ⟨pre, post, rfl⟩ := h
  exact ⟨pre, post ++ t, by simp⟩

section
variable {E : RxEnv} {C : EpisodeConfig} {s : Str}

theorem ListedAt_take {ws : List Str} {i k : Nat} {l : List (Nat × Nat × Nat)} (h : ListedAt E ws s i l k) : ∀ n, ∃ k', ListedAt E ws s i (l.take n) k' := by
  induction h with
  | nil => intro n; exact ⟨_, by simpa using .nil⟩
  | cons h1 h2 ih =>
    intro n
    cases n with
    | zero => exact ⟨_, by simpa using .nil⟩
    | succ n =>
      obtain ⟨k', h3⟩ := ih n
      exact ⟨k', .cons h1 h3⟩

theorem numbers_cons {n g : Nat} {h : RxHit} {x : Nat × Nat} {l : List RxHit} (h1 : h.caps.lookup n = some x) (h2 : h.caps.lookup g = none) :
    chainNumbers E s n g (h :: l) = (none, groupNumber E s x) :: chainNumbers E s n g l := by
  simp [chainNumbers, h1, h2]

/-- The chain begins where S01E02 is written after a separator. -/
theorem season_before (hE : Usual E) (hL : Literal E) (hC : PlainEpisodes C) {i : Nat} (hi : CharAt s (Begins E C) i) (hf : FreeBefore s i) :
    ∀ r ∈ [E.seasonEpisode C, E.moreEpisodes (moreWords C)], ∀ i' j' c', i' < i → r.matchAt s i' = some (j', c') → j' < i := by
  intro r hr i' j' c' hlt hm
  have hsep : CharAt s (· ∈ seps) (i - 1) := by
    rcases hf with h | h
    · omega
    · exact h
  have hdig : ∀ d, d < j' → AllOf s (Digit E) d j' → d ≤ i → i ≤ j' → False := by
    intro d h1 h2 h3 h4
    by_cases h5 : i < j'
    · exact (h2 i h3 h5).false hi fun c a b => begins_not_digit hE hC b a
    · exact (h2 (i - 1) (by omega) (by omega)).false hsep fun c a b => sep_not_digit hE b a
  by_contra hcon
  simp only [List.mem_cons, List.not_mem_nil, or_false] at hr
  rcases hr with rfl | rfl
  · obtain ⟨a, b, x, y, d, h1, h2, h3, h4, _⟩ := mem_seasonEpisode.1 (matchAt_mem hm)
    have hav := lettered_avoids hE (ws := C.seasonMarkers) fun w h => hC.markers w (by simp [h])
    have g1 := h1.mark.first hav
    have g2 := (moreWords_begins hE hL hC)
    have g2' : Avoids E (C.episodeMarkers ++ C.discMarkers) (Begins E C) := fun w hw => g2 w (by simp only [moreWords, List.mem_append] at hw ⊢; tauto)
    have g3 := h3.first g2'
    have g4 := h1.season.1
    have g5 := h1.episode.1
    by_cases c1 : i ≤ a
    · by_cases c0 : i = a
      · subst c0
        exact (digits_char h1.season).false hi fun c a b => begins_not_digit hE hC b a
      · exact (g1.2 (i - 1) (by omega) (by omega)).false hsep fun c a b => a (.inl b)
    · by_cases c2 : i < b
      · exact (h1.season.2 i (by omega) c2).false hi fun c a b => begins_not_digit hE hC b a
      · by_cases c3 : i < x
        · rcases h2 with rfl | ⟨rfl, h2⟩
          · omega
          · obtain rfl : i = b := by omega
            exact h2.false hi fun c a b => begins_not_sep hE hC b a.1
        · by_cases c4 : i < y
          · exact (g3.2 i (by omega) c4).false hi fun c a b => a b
          · by_cases c5 : i < d
            · rcases h4 with rfl | ⟨rfl, h4⟩
              · omega
              · obtain rfl : i = y := by omega
                exact h4.false hi fun c a b => begins_not_sep hE hC b a.1
            · exact hdig d g5 h1.episode.2 (by omega) (by omega)
  · obtain ⟨d, h1, _⟩ := mem_marked.1 (matchAt_mem hm)
    have g3 := h1.mark.first (moreWords_begins hE hL hC)
    by_cases c1 : i < d
    · exact (g3.2 i (by omega) c1).false hi fun c a b => a b
    · exact hdig d h1.number.1 h1.number.2 (by omega) (by omega)

theorem sxx_moves (hE : Usual E) (hL : Literal E) (hC : PlainEpisodes C) : Moves s [E.seasonEpisode C, E.moreEpisodes (moreWords C)] := by
  intro r hr i j c hm
  simp only [List.mem_cons, List.not_mem_nil, or_false] at hr
  rcases hr with rfl | rfl
  · obtain ⟨a, b, x, y, d, h1, h2, h3, h4, _⟩ := mem_seasonEpisode.1 (matchAt_mem hm)
    have := (mark_begins hC h1.mark).1
    have := h1.season.1
    have := h1.episode.1
    have hav := lettered_avoids hE (ws := C.episodeMarkers ++ C.discMarkers) fun w h => hC.markers w (by
      rcases List.mem_append.1 h with h | h <;> simp [h])
    have := (h3.first hav).1
    rcases h2 with rfl | ⟨rfl, _⟩ <;> rcases h4 with rfl | ⟨rfl, _⟩ <;> omega
  · obtain ⟨d, h1, _⟩ := mem_marked.1 (matchAt_mem hm)
    have := (h1.mark.first (moreWords_begins hE hL hC)).1
    have := h1.number.1
    omega

/-- Where nothing begins a word for seasons, S01E02 is not written. -/
theorem no_season (hC : PlainEpisodes C) {j : Nat} (h : ∀ c, s[j]? = some c → ¬ Begins E C c) : (E.seasonEpisode C).matchAt s j = none := by
  cases hm : (E.seasonEpisode C).matchAt s j with
  | none => rfl
  | some x =>
    obtain ⟨k, c⟩ := x
    obtain ⟨a, b, x, y, d, h1, _⟩ := mem_seasonEpisode.1 (matchAt_mem hm)
    obtain ⟨c, h2, h3⟩ := (mark_begins hC h1.mark).2
    exact absurd h3 (h c h2)

/-- C125: S01E02 between separators, with a list of more episodes if need be (S01E02-03, S01E02E03): the season and all the episodes are
reported with their numbers.  Listed numbers must increase, stay close when a separator such as a dot or a space is before them, and not be further apart
than the configured maximum; a list must be given as far as it goes. -/
theorem C125_list (hE : Usual E) (hL : Literal E) (hC : PlainEpisodes C) {i a b d j k : Nat} {l : List (Nat × Nat × Nat)}
    (h : SeasonEpisodeAt E C s i a b d j) (hl : ListedAt E (C.episodeMarkers ++ C.discMarkers ++ C.separators) s j l k) (hst : Standing s i k)
    (hnew : NewIsLarger ((listedNumbers E s d j l).map Prod.snd))
    (hweak : HasStrong C.discreteSeparators.contains (listedNumbers E s d j l) ∨ WeakIsClose C.rangeSeparators.contains C.weak.contains C.gap (listedNumbers E s d j l))
    (hclose : ∀ u v, Neighbours ((listedNumbers E s d j l).map Prod.snd) u v → ((v - u).natAbs : Int) ≤ C.episodeMax) :
    ({ name := c!"season", start := a, stop := b, value := .ok (numberAt E s a b) } : RxMatch Int) ∈ EpisodeChain.sxxexx.found E C s ∧
    ∀ x ∈ (d, j) :: l.map Prod.snd,
      ({ name := c!"episode", start := x.1, stop := x.2, value := .ok (numberAt E s x.1 x.2) } : RxMatch Int) ∈ EpisodeChain.sxxexx.found E C s := by
  have hw := moreWords_avoid hE hL hC
  have hk := standing_noDigit hE hst.2
  have hj := listed_start hw hl hk
  obtain ⟨x, y, hh⟩ := seasonEpisode_head (c := []) hE hC h hj
  have hm := matchAt_head hh
  obtain ⟨hia, hib⟩ := mark_begins hC h.mark
  have hlen : l.length ≤ s.length := by
    have := listed_grow hw hl
    by_cases hl0 : l = []
    · subst hl0; simp
    · have := this.2 hl0; omega
  generalize h0e : (⟨i, j, [(2, (d, j)), (4, (x, y)), (1, (a, b)), (3, (i, a))]⟩ : RxHit) = h0
  have hcaps : h0.caps = [(2, (d, j)), (4, (x, y)), (1, (a, b)), (3, (i, a))] := by rw [← h0e]
  have hstart : h0.start = i := by rw [← h0e]
  have hstop : h0.stop = j := by rw [← h0e]
  -- the chain
  have hchain : chainOf s (EpisodeChain.sxxexx.first E C) (EpisodeChain.sxxexx.rest E C) h0 ∈
      chains s (EpisodeChain.sxxexx.first E C) (EpisodeChain.sxxexx.rest E C) := by
    rw [← h0e]
    refine chains_complete (sxx_moves hE hL hC) hm ?_ (season_before hE hL hC hib hst.1) _ _ (by omega) (by omega)
    obtain ⟨c, hc, _⟩ := hib
    exact (List.getElem?_eq_some_iff.1 hc).1
  obtain ⟨more, hmore⟩ := run_listed (n := 2) (g := 5) hw hl hk s.length hlen
  have hnext : (E.seasonEpisode C).matchAt s j = none := by
    refine no_season hC fun c hc hb => ?_
    cases hl with
    | nil =>
      rcases hst.2 with h | ⟨c', h1, h2⟩
      · have := (List.getElem?_eq_some_iff.1 hc).1; omega
      · rw [hc, Option.some.injEq] at h1; subst h1
        exact begins_not_sep hE hC hb h2
    | cons h1 _ =>
      have g := h1.mark.first (moreWords_begins hE hL hC)
      exact (g.2 j (by omega) g.1).false ⟨c, hc, hb⟩ fun c a b => a b
  have hrun : ∀ f, (E.seasonEpisode C).run s f j = [] := by
    intro f
    cases f with
    | zero => rfl
    | succ f => rw [Re.run, hnext]
  have heq : chainOf s (EpisodeChain.sxxexx.first E C) (EpisodeChain.sxxexx.rest E C) h0 = (h0 :: l.map (itemHit 2 5)) ++ more := by
    simp only [chainOf, EpisodeChain.first, EpisodeChain.rest, Option.getD_none, hstop, hrun, chainTail, lastStop, List.append_nil, List.singleton_append,
      List.cons_append, List.cons.injEq, true_and]
    exact hmore
  -- its numbers
  have heps : ∀ n, chainEpisodes E s (h0 :: (l.take n).map (itemHit 2 5)) = listedNumbers E s d j (l.take n) := by
    intro n
    obtain ⟨k', hk'⟩ := ListedAt_take hl n
    rw [chainEpisodes, numbers_cons (x := (d, j)) (by rw [hcaps]; rfl) (by rw [hcaps]; rfl), numbers_items hE hk' (by decide),
      (groupNumber_eq hE h.episode).1]
    rfl
  have hseas : ∀ n, chainSeasons E s (h0 :: (l.take n).map (itemHit 2 5)) = [(none, numberAt E s a b)] := by
    intro n
    rw [chainSeasons, numbers_cons (x := (a, b)) (by rw [hcaps]; rfl) (by rw [hcaps]; rfl), numbers_none (by decide) (by decide),
      (groupNumber_eq hE h.season).1]
  have hall : l.take l.length = l := List.take_length
  have hbr : ∀ n, n < (h0 :: l.map (itemHit 2 5)).length → brokenChain E C s ((h0 :: l.map (itemHit 2 5)).take (n + 1)) = false := by
    intro n _
    rw [List.take_succ_cons, ← List.map_take, brokenChain, chainBreaker, heps, hseas, Bool.or_eq_false_iff]
    refine ⟨breaks_false fun u v huv => hclose u v (huv.of_prefix ?_), rfl⟩
    simp only [listedNumbers, List.map_cons, List.map_map]
    rw [List.map_take]
    exact (List.prefix_cons_inj _).2 (List.take_prefix _ _)
  have hval : validChain E C s (h0 :: l.map (itemHit 2 5)) = true := by
    have e1 := heps l.length
    have e2 := hseas l.length
    rw [hall] at e1 e2
    rw [validChain, e1, e2, Bool.and_eq_true]
    constructor
    · rw [lastStop, hstop, lastStop_items hl, hstart]
      exact standing_iff.2 hst
    · refine (C59_accepted_iff_strong _ _ _ _ _ _).2 ⟨?_, hnew, .inr ?_, hweak⟩
      · intro pre v post he
        cases pre with
        | nil => exact .inr (by simp)
        | cons u pre =>
          simp at he
      · rintro p sep v ⟨pre, q, post, he⟩
        have := congrArg List.length he
        simp only [List.length_cons, List.length_nil, List.length_append] at this
        omega
  have hrep := fun (z : RxHit) (hz : z ∈ h0 :: l.map (itemHit 2 5)) (m : RxMatch Int) (hm : m ∈ numbersOf E s z) =>
    chain_reported hchain heq (by simp) hbr hval hz hm
  refine ⟨hrep h0 (by simp) _ ?_, ?_⟩
  · simp only [numbersOf, hcaps, List.filterMap_cons, List.filterMap_nil, List.lookup]
    simp [(groupNumber_eq hE h.season).2]
  · intro z hz
    rcases List.mem_cons.1 hz with rfl | hz
    · refine hrep h0 (by simp) _ ?_
      simp only [numbersOf, hcaps, List.filterMap_cons, List.filterMap_nil, List.lookup]
      simp [(groupNumber_eq hE h.episode).2]
    · obtain ⟨⟨u, v⟩, hu, rfl⟩ := List.mem_map.1 hz
      have hnum : v.1 < v.2 ∧ AllOf s (Digit E) v.1 v.2 := by
        clear * - hl hu
        induction hl with
        | nil => cases hu
        | cons h1 _ ih =>
          rcases List.mem_cons.1 hu with h | h
          · cases h; exact h1.number
          · exact ih h
      refine hrep (itemHit 2 5 (u, v)) (by simp only [List.mem_cons, List.mem_map]; exact .inr ⟨_, hu, rfl⟩) _ ?_
      simp only [numbersOf, itemHit, List.filterMap_cons, List.filterMap_nil, List.lookup]
      simp [(groupNumber_eq hE hnum).2]

end
end Guessit
