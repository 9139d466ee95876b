import Verif.Props.SeasonEpisodeListed

/-! # C125: what is reported is written -/

namespace Guessit
open Spec Re

section
variable {E : RxEnv} {C : EpisodeConfig} {s : Str}

theorem chainNumbers_single (E : RxEnv) (s : Str) (n g : Nat) (h : RxHit) : (chainNumbers E s n g [h]).length ≤ 1 := by
  simp only [chainNumbers]
  exact (List.length_filterMap_le _ _).trans (by simp)

theorem breaks_short {max : Int} {l : List Int} (h : l.length ≤ 1) : breaksAt max l = false := by
  match l, h with
  | [], _ => rfl
  | [a], _ => rfl

theorem broken_single (E : RxEnv) (C : EpisodeConfig) (s : Str) (h : RxHit) : brokenChain E C s [h] = false := by
  rw [brokenChain, chainBreaker, breaks_short, breaks_short]
  · rfl
  · rw [List.length_map]; exact chainNumbers_single E s 1 6 h
  · rw [List.length_map]; exact chainNumbers_single E s 2 5 h

theorem follow_left {i : Nat} {l m : List RxHit} (h : Follow i (l ++ m)) : Follow i l := by
  induction l generalizing i with
  | nil => trivial
  | cons x l ih => exact ⟨h.1, ih h.2⟩

/-- What is kept lies in matches that follow one another, from a separator to a separator. -/
theorem kept_within {k : EpisodeChain} {res : List Re}
    (hres : ∀ h0, ∃ hs, chainOf s (k.first E C) (k.rest E C) h0 = h0 :: hs ∧ Follow h0.stop hs ∧ Of s res hs) {h : RxHit} {ks : List RxHit}
    (hk : ks ∈ k.kept E C s) (hh : h ∈ ks) : ∃ h0 ws, (k.first E C).re.matchAt s h0.start = some (h0.stop, h0.caps) ∧
    Follow h0.stop ws ∧ Of s res ws ∧ Standing s h0.start (lastStop h0.stop ws) ∧ h ∈ h0 :: ws := by
  simp only [EpisodeChain.kept, List.mem_map] at hk
  obtain ⟨l, h1, rfl⟩ := hk
  have h2 := hh
  obtain ⟨h0, h4, rfl⟩ := chains_sound _ _ h1
  obtain ⟨hs, h5, h6, h7⟩ := hres h0
  rw [h5] at h2
  have hkeep : keepHits (brokenChain E C s) [] (h0 :: hs) = keepHits (brokenChain E C s) [h0] hs := by
    rw [keepHits, List.nil_append, broken_single]; rfl
  rw [hkeep] at h2
  obtain ⟨l, h8, h9⟩ := keepHits_prefix (broken := brokenChain E C s) hs [h0]
  rw [h8, List.singleton_append] at h2
  obtain ⟨⟨t, g1⟩, g2⟩ := trimChain_sound (valid := validChain E C s) (h0 :: l).reverse
  have g3 := g2 (List.ne_nil_of_mem h2)
  rw [List.reverse_reverse] at g1
  generalize trimChain (validChain E C s) (h0 :: l).reverse = p at h2 g1 g3
  cases p with
  | nil => cases h2
  | cons p0 p =>
    rw [List.cons_append, List.cons.injEq] at g1
    obtain ⟨rfl, g4⟩ := g1
    have g5 : p.Sublist hs := by
      refine List.Sublist.trans ?_ h9
      rw [g4]; exact List.sublist_append_left _ _
    have g6 : Standing s h0.start (lastStop h0.stop p) := by
      rw [validChain, Bool.and_eq_true] at g3
      exact standing_iff.1 g3.1
    clear g3 g2 hkeep h8 h9 g4 h1
    rcases List.eq_nil_or_concat p with rfl | ⟨p1, q, rfl⟩
    · exact ⟨h0, [], h4, trivial, (fun x hx => absurd hx List.not_mem_nil), g6, h2⟩
    · rw [List.concat_eq_append] at g5 g6 h2
      obtain ⟨L1, L2, rfl, g7, g8⟩ := List.append_sublist_iff.1 g5
      obtain ⟨u, v, rfl⟩ := List.append_of_mem (List.singleton_sublist.1 g8)
      have e1 : lastStop h0.stop (L1 ++ u ++ [q]) = q.stop := by rw [lastStop_append]; rfl
      have e2 : lastStop h0.stop (p1 ++ [q]) = q.stop := by rw [lastStop_append]; rfl
      refine ⟨h0, L1 ++ u ++ [q], h4, ?_, ?_, ?_, ?_⟩
      · have : L1 ++ (u ++ q :: v) = (L1 ++ u ++ [q]) ++ v := by simp
        rw [this] at h6
        exact follow_left h6
      · intro x hx
        refine h7 x ?_
        simp only [List.mem_append, List.mem_cons, List.not_mem_nil, or_false] at hx ⊢
        tauto
      · rw [e1, ← e2]; exact g6
      · rcases List.mem_cons.1 h2 with rfl | h2
        · simp
        · refine List.mem_cons_of_mem _ ?_
          rcases List.mem_append.1 h2 with h2 | h2
          · have := g7.subset h2
            simp [this]
          · simp only [List.mem_singleton] at h2
            simp [h2]

/-- What is reported lies in matches that follow one another, from a separator to a separator. -/
theorem reported_within {k : EpisodeChain} {m : RxMatch Int} (hm : m ∈ k.found E C s) : ∃ h0 ws, (k.first E C).re.matchAt s h0.start = some (h0.stop, h0.caps) ∧
    Follow h0.stop ws ∧ Of s ((k.first E C).re :: (k.rest E C).map ChainPart.re) ws ∧ Standing s h0.start (lastStop h0.stop ws) ∧
    ∃ h ∈ h0 :: ws, m ∈ numbersOf E s h := by
  simp only [EpisodeChain.found, List.mem_flatMap] at hm
  obtain ⟨ks, h1, h, h2, h3⟩ := hm
  obtain ⟨h0, ws, g1, g2, g3, g4, g5⟩ := kept_within (chainOf_cons s (k.first E C) (k.rest E C)) h1 h2
  exact ⟨h0, ws, g1, g2, g3, g4, h, g5, h3⟩

/-- When the first pattern is not repeated, the others are what follows. -/
theorem chainOf_once {first : ChainPart} {rest : List ChainPart} (hf : first.max = some 1) (h : RxHit) : ∃ hs, chainOf s first rest h = h :: hs ∧ Follow h.stop hs ∧
    Of s (rest.map ChainPart.re) hs := by
  refine ⟨chainTail s rest h.stop, ?_, tail_follow _ _, tail_of _ _⟩
  simp [chainOf, hf, Re.run, lastStop]

/-- The matches are steps. -/
theorem follow_steps {R : Nat → Nat → Prop} : ∀ (ws : List RxHit) (i : Nat), Follow i ws → (∀ h ∈ ws, R h.start h.stop) → ManySteps R i (lastStop i ws)
  | [], _, _, _ => .refl
  | h :: ws, i, hf, hr => by
    have := follow_steps ws h.stop hf.2 fun x hx => hr x (by simp [hx])
    refine .head ?_ this
    rw [← hf.1]
    exact hr h (by simp)

theorem follow_at {R : Nat → Nat → Prop} {h : RxHit} : ∀ (ws : List RxHit) (i : Nat), Follow i ws → (∀ h ∈ ws, R h.start h.stop) → h ∈ ws →
    ManySteps R i h.start ∧ ManySteps R h.stop (lastStop i ws)
  | w :: ws, i, hf, hr, hm => by
    have hr' : ∀ h ∈ ws, R h.start h.stop := fun x hx => hr x (by simp [hx])
    rcases List.mem_cons.1 hm with rfl | hm
    · exact ⟨by rw [hf.1], follow_steps ws _ hf.2 hr'⟩
    · obtain ⟨h1, h2⟩ := follow_at ws w.stop hf.2 hr' hm
      refine ⟨.head ?_ h1, h2⟩
      rw [← hf.1]
      exact hr w (by simp)

theorem mem_numbersOf {h : RxHit} {m : RxMatch Int} (hm : m ∈ numbersOf E s h) :
    ((m.name = c!"season" ∧ h.caps.lookup 1 = some (m.start, m.stop)) ∨ (m.name = c!"episode" ∧ h.caps.lookup 2 = some (m.start, m.stop))) ∧
    m.value = pyInt E.u ((s.take m.stop).drop m.start) := by
  simp only [numbersOf, List.mem_filterMap, List.mem_cons, List.not_mem_nil, or_false, Option.map_eq_some_iff] at hm
  obtain ⟨g, rfl | rfl, x, h1, rfl⟩ := hm
  · exact ⟨.inl ⟨rfl, h1⟩, rfl⟩
  · exact ⟨.inr ⟨rfl, h1⟩, rfl⟩

/-- C125: a season or an episode that is reported is the number it has been written as: there is S01E02 after a separator, maybe more of them and
more episodes after it, up to a separator, and what is reported is the season or the episode of one of these. -/
theorem C125_sound (hE : Usual E) {m : RxMatch Int} (hm : m ∈ EpisodeChain.sxxexx.found E C s) : ∃ i0 j0 i j k,
    (∃ a b d, SeasonEpisodeAt E C s i0 a b d j0) ∧ ManySteps (SeasonStep E C s) j0 k ∧ Standing s i0 k ∧
    ((i = i0 ∧ j = j0) ∨ (ManySteps (SeasonStep E C s) j0 i ∧ ManySteps (SeasonStep E C s) j k)) ∧
    ((m.name = c!"season" ∧ ∃ d, SeasonEpisodeAt E C s i m.start m.stop d j) ∨
      (m.name = c!"episode" ∧ m.stop = j ∧ ((∃ a b, SeasonEpisodeAt E C s i a b m.start j) ∨
        MoreAt E (C.episodeMarkers ++ C.discMarkers ++ C.separators) s i m.start j))) ∧
    m.value = .ok (numberAt E s m.start m.stop) := by
  obtain ⟨h0, ws, h1, h2, h3, h4, h, h5, h6⟩ := reported_within hm
  obtain ⟨h7, h8⟩ := mem_numbersOf h6
  have hstep : ∀ h ∈ ws, SeasonStep E C s h.start h.stop := by
    intro x hx
    obtain ⟨r, g1, g2⟩ := h3 x hx
    simp only [EpisodeChain.first, EpisodeChain.rest, List.map_cons, List.map_nil, List.mem_cons, List.not_mem_nil, or_false] at g1
    rcases g1 with rfl | rfl
    · obtain ⟨a, b, x, y, d, g3, _⟩ := mem_seasonEpisode.1 (matchAt_mem g2)
      exact .inl ⟨a, b, d, g3⟩
    · obtain ⟨d, g3, _⟩ := mem_marked.1 (matchAt_mem g2)
      exact .inr ⟨d, g3⟩
  have hstep0 : ∃ a b d, SeasonEpisodeAt E C s h0.start a b d h0.stop := by
    obtain ⟨a, b, x, y, d, g3, _⟩ := mem_seasonEpisode.1 (matchAt_mem h1)
    exact ⟨a, b, d, g3⟩
  have hof : Of s [E.seasonEpisode C, E.moreEpisodes (C.episodeMarkers ++ C.discMarkers ++ C.separators)] (h0 :: ws) := by
    intro x hx
    rcases List.mem_cons.1 hx with rfl | hx
    · exact ⟨E.seasonEpisode C, by simp, h1⟩
    · exact h3 x hx
  have hwhat : ((m.name = c!"season" ∧ ∃ d, SeasonEpisodeAt E C s h.start m.start m.stop d h.stop) ∨
      (m.name = c!"episode" ∧ m.stop = h.stop ∧ ((∃ a b, SeasonEpisodeAt E C s h.start a b m.start h.stop) ∨
        MoreAt E (C.episodeMarkers ++ C.discMarkers ++ C.separators) s h.start m.start h.stop))) := by
    obtain ⟨r, g1, g2⟩ := hof h h5
    simp only [List.mem_cons, List.not_mem_nil, or_false] at g1
    rcases g1 with rfl | rfl
    · obtain ⟨a, b, x, y, d, g3, _, _, _, g4⟩ := mem_seasonEpisode.1 (matchAt_mem g2)
      rw [g4] at h7
      rcases h7 with ⟨e, h7⟩ | ⟨e, h7⟩ <;> simp only [List.lookup] at h7 <;> simp at h7
      · obtain ⟨rfl, rfl⟩ := h7
        exact .inl ⟨e, d, g3⟩
      · obtain ⟨rfl, h7⟩ := h7
        exact .inr ⟨e, h7.symm, .inl ⟨a, b, g3⟩⟩
    · obtain ⟨d, g3, g4⟩ := mem_marked.1 (matchAt_mem g2)
      rw [g4] at h7
      rcases h7 with ⟨e, h7⟩ | ⟨e, h7⟩ <;> simp only [List.lookup] at h7 <;> simp at h7
      obtain ⟨rfl, h7⟩ := h7
      exact .inr ⟨e, h7.symm, .inr g3⟩
  refine ⟨h0.start, h0.stop, h.start, h.stop, lastStop h0.stop ws, hstep0, follow_steps ws _ h2 hstep, h4, ?_, hwhat, ?_⟩
  · rcases List.mem_cons.1 h5 with rfl | h5
    · exact .inl ⟨rfl, rfl⟩
    · exact .inr (follow_at ws _ h2 hstep h5)
  · rw [h8]
    refine (groupNumber_eq hE ?_).2
    rcases hwhat with ⟨_, d, g⟩ | ⟨_, e, ⟨a, b, g⟩ | g⟩
    · exact g.season
    · rw [e]; exact g.episode
    · rw [e]; exact g.number

/-- C125: S01E02 between separators is reported, whatever is around it. -/
theorem C125_complete (hE : Usual E) (hL : Literal E) (hC : PlainEpisodes C) {i a b d j : Nat} (h : SeasonEpisodeAt E C s i a b d j) (hst : Standing s i j) :
    ({ name := c!"season", start := a, stop := b, value := .ok (numberAt E s a b) } : RxMatch Int) ∈ EpisodeChain.sxxexx.found E C s ∧
    ({ name := c!"episode", start := d, stop := j, value := .ok (numberAt E s d j) } : RxMatch Int) ∈ EpisodeChain.sxxexx.found E C s := by
  have := C125_list hE hL hC h .nil hst ?_ (.inr ?_) ?_
  · exact ⟨this.1, this.2 (d, j) (by simp)⟩
  · intro pre v post he
    cases pre with
    | nil => exact .inr (by simp)
    | cons u pre => simp [listedNumbers] at he
  · rintro p sep v ⟨pre, q, post, he⟩
    have := congrArg List.length he
    simp only [listedNumbers, List.map_nil, List.length_cons, List.length_nil, List.length_append] at this
    omega
  · rintro u v ⟨pre, post, he⟩
    have := congrArg List.length he
    simp only [listedNumbers, List.map_nil, List.map_cons, List.length_cons, List.length_nil, List.length_append] at this
    omega

end
end Guessit
