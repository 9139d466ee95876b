import Verif.Props.LooseChains

/-! # C144: numbers after `ep` -/

namespace Guessit
open Spec Re

section
variable {E : RxEnv} {C : EpisodeConfig} {s : Str}

theorem mem_epFirst {i j : Nat} {c : Caps} : (j, c) ∈ (LooseChain.ep.firstRe E).exec s i [] ↔
    ∃ d, LiteralAt E s c!"ep" i ∧ MaybeSep s (i + 2) d ∧ Few E 1 4 s d j ∧ c = [(2, (d, j))] := by
  simp only [LooseChain.firstRe, Re.cat, mem_seq, mem_word, mem_dash, mem_fewGroup, mem_eps]
  constructor
  · rintro ⟨_, _, ⟨h1, rfl, rfl⟩, d, _, ⟨h2, rfl⟩, _, _, ⟨h3, rfl⟩, rfl, rfl⟩
    exact ⟨d, h1, h2, h3, rfl⟩
  · rintro ⟨d, h1, h2, h3, rfl⟩
    exact ⟨_, _, ⟨h1, rfl, rfl⟩, d, _, ⟨h2, rfl⟩, _, _, ⟨h3, rfl⟩, rfl, rfl⟩

theorem mem_epMore {i j : Nat} {c c' : Caps} : (j, c') ∈ (LooseChain.ep.moreRe E).exec s i c ↔
    ∃ d, MarkAt E epJoiners s i d ∧ Few E 1 4 s d j ∧ c' = (2, (d, j)) :: (5, (i, d)) :: c := by
  have : LooseChain.ep.moreRe E = .seq (.grp 5 (E.words epJoiners)) (.grp 2 (digitsRe E.u 1 4)) := rfl
  simp only [this, mem_seq, mem_mark, mem_fewGroup]
  constructor
  · rintro ⟨d, c1, ⟨h1, rfl⟩, h2, rfl⟩; exact ⟨d, h1, h2, rfl⟩
  · rintro ⟨d, h1, h2, rfl⟩; exact ⟨d, _, ⟨h1, rfl⟩, h2, rfl⟩

theorem ep_chars {i : Nat} (h : LiteralAt E s c!"ep" i) : CharAt s (fun c => E.same 'e' c = true) i ∧ CharAt s (fun c => E.same 'p' c = true) (i + 1) :=
  ⟨h 0 'e' rfl, h 1 'p' rfl⟩

/-- What may be before a number in a list: a dash, or letters. -/
theorem epJoiner_cases {w : Str} (h : w ∈ epJoiners) : w = c!"-" ∨ Lettered w := by
  simp only [epJoiners, List.mem_cons, List.not_mem_nil, or_false] at h
  rcases h with rfl | rfl | rfl | rfl
  · exact .inr ⟨by decide, by decide⟩
  · exact .inr ⟨by decide, by decide⟩
  · exact .inr ⟨by decide, by decide⟩
  · exact .inl rfl

theorem ep_avoids (hE : Usual E) (hL : Literal E) : Avoids E epJoiners (Digit E) := by
  intro w hw
  rcases epJoiner_cases hw with rfl | h
  · refine ⟨by decide, ?_⟩
    intro l hl c hs hd
    obtain rfl : l = '-' := by simpa using hl
    obtain rfl := (hL '-' (by decide) c).1 hs
    exact dash_not_digit hE hd
  · exact ⟨h.1, fun l hl c hs => letter_not_digit hE (h.2 l hl) hs⟩

/-- No word of a list begins with `v`. -/
theorem epMark_first (hE : Usual E) (hL : Literal E) {i d : Nat} (h : MarkAt E epJoiners s i d) : CharAt s (fun c => E.same 'v' c = false) i := by
  obtain ⟨w, h1, h2, rfl⟩ := h
  have hlet : ∀ l ∈ c!"ex", ∀ c, E.same l c = true → E.same 'v' c = false := by
    intro l hl c hs
    cases hv : E.same 'v' c with
    | false => rfl
    | true =>
      have hl' : l ∈ c!"abcdefghijklmnopqrstuvwxyz" := (by decide : ∀ l ∈ c!"ex", l ∈ c!"abcdefghijklmnopqrstuvwxyz") l hl
      have := hE.apart l hl' 'v' (by decide) c hs hv
      exact absurd this ((by decide : ∀ l ∈ c!"ex", l ≠ 'v') l hl)
  simp only [epJoiners, List.mem_cons, List.not_mem_nil, or_false] at h1
  rcases h1 with rfl | rfl | rfl | rfl
  · obtain ⟨c, g1, g2⟩ := h2 0 'e' rfl; exact ⟨c, g1, hlet _ (by decide) c g2⟩
  · obtain ⟨c, g1, g2⟩ := h2 0 'e' rfl; exact ⟨c, g1, hlet _ (by decide) c g2⟩
  · obtain ⟨c, g1, g2⟩ := h2 0 'x' rfl; exact ⟨c, g1, hlet _ (by decide) c g2⟩
  · obtain ⟨c, g1, g2⟩ := h2 0 '-' rfl
    obtain rfl := (hL '-' (by decide) c).1 g2
    exact ⟨_, g1, sep_not_letter hE (by decide) (by decide)⟩

theorem ep_first_head (hE : Usual E) {i d j : Nat} (h : EpAt E s i d j) (hj : NoDigitAt E s j) : (LooseChain.ep.firstRe E).matchAt s i = some (j, [(2, (d, j))]) := by
  refine matchAt_head (seq_head (word_head h.word) (seq_head (dash_head h.sep ?_) (seq_head (grp_head (few_head h.number (.inr hj))) eps_head)))
  intro he x hx hs
  obtain ⟨y, hy, hd⟩ := digits_char (h.number.run (by decide))
  rw [he] at hy
  simp only [List.length_cons, List.length_nil] at hx hy
  rw [hx, Option.some.injEq] at hy; subst hy
  exact sep_not_digit hE hs hd

theorem ep_more_head (hE : Usual E) (hL : Literal E) {i d j : Nat} {c : Caps} (h1 : MarkAt E epJoiners s i d) (h2 : Few E 1 4 s d j)
    (hj : NoDigitAt E s j) : ((LooseChain.ep.moreRe E).exec s i c).head? = some (j, (2, (d, j)) :: (5, (i, d)) :: c) := by
  have : LooseChain.ep.moreRe E = .seq (.grp 5 (E.words epJoiners)) (.grp 2 (digitsRe E.u 1 4)) := rfl
  rw [this]
  refine seq_first (mem_mark.2 ⟨h1, rfl⟩) (grp_head (few_head h2 (.inr hj))) ?_
  intro k' c' g0 g2
  obtain ⟨g1, rfl⟩ := mem_mark.1 g0
  obtain ⟨⟨e, c2⟩, g2⟩ := List.exists_mem_of_ne_nil _ g2
  obtain ⟨g4, rfl⟩ := mem_fewGroup.1 g2
  obtain rfl := mark_unique (ep_avoids hE hL) h1 g1 (digits_char (h2.run (by decide))) (digits_char (g4.run (by decide)))
  exact ⟨rfl, rfl⟩

theorem epListed_listed {i e : Nat} {l : List (Nat × Nat × Nat)} (h : FewListedAt E epJoiners 1 4 s i l e) : ListedAt E epJoiners s i l e := by
  induction h with
  | nil => exact .nil
  | cons h1 h2 _ ih => exact .cons ⟨h1, h2.run (by decide)⟩ ih

theorem epListed_run (hE : Usual E) (hL : Literal E) {i e : Nat} {l : List (Nat × Nat × Nat)} (h : FewListedAt E epJoiners 1 4 s i l e)
    (he : NoDigitAt E s e) : ∀ f, l.length ≤ f → ∃ more, (LooseChain.ep.moreRe E).run s f i = l.map (itemHit 2 5) ++ more := by
  induction h with
  | nil => intro f _; exact ⟨_, rfl⟩
  | cons h1 h2 h3 ih =>
    intro f hf
    cases f with
    | zero => simp at hf
    | succ f =>
      obtain ⟨more, h4⟩ := ih he f (by simpa using hf)
      refine ⟨more, ?_⟩
      rw [Re.run, matchAt_head (ep_more_head hE hL h1 h2 (listed_start (ep_avoids hE hL) (epListed_listed h3) he))]
      simp only [h4, List.map_cons, List.cons_append]
      rfl

/-! ## The chain -/

theorem epMark_bounds (hE : Usual E) {i d : Nat} (h : MarkAt E epJoiners s i d) : i < d ∧ ∀ p, i < p → p < d → CharAt s (fun c => E.same 'p' c = true) p := by
  obtain ⟨w, h1, h2, rfl⟩ := h
  simp only [epJoiners, List.mem_cons, List.not_mem_nil, or_false] at h1
  rcases h1 with rfl | rfl | rfl | rfl
  · refine ⟨by simp, fun p g1 g2 => ?_⟩
    obtain rfl : p = i + 1 := by simp only [List.length_cons, List.length_nil] at g2; omega
    exact h2 1 'p' rfl
  all_goals exact ⟨by simp, fun p g1 g2 => by simp only [List.length_cons, List.length_nil] at g2; omega⟩

theorem ep_moves (hE : Usual E) : Moves s [LooseChain.ep.firstRe E, E.versionRe, LooseChain.ep.moreRe E] := by
  intro r hr i j c hm
  simp only [List.mem_cons, List.not_mem_nil, or_false] at hr
  rcases hr with rfl | rfl | rfl
  · obtain ⟨d, _, h1, h2, _⟩ := mem_epFirst.1 (matchAt_mem hm)
    have := h2.least
    rcases h1 with rfl | ⟨rfl, _⟩ <;> omega
  · obtain ⟨⟨_, h1, _⟩, _⟩ := mem_version.1 (matchAt_mem hm)
    omega
  · obtain ⟨d, h1, h2, _⟩ := mem_epMore.1 (matchAt_mem hm)
    have := (epMark_bounds hE h1).1
    have := h2.least
    omega

/-- A match that starts before `ep` does not reach into it. -/
theorem ep_before (hE : Usual E) {i : Nat} (hi : LiteralAt E s c!"ep" i) :
    ∀ r ∈ [LooseChain.ep.firstRe E, E.versionRe, LooseChain.ep.moreRe E], ∀ i' j' c', i' < i → r.matchAt s i' = some (j', c') → j' ≤ i := by
  intro r hr i' j' c' hlt hm
  have he := (ep_chars hi).1
  have hdig : ∀ {a b : Nat}, AllOf s (Digit E) a b → a ≤ i → b ≤ i := by
    intro a b h g
    by_contra hcon
    exact (h i g (by omega)).false he fun c x y => letter_not_digit hE (by decide) y x
  have hp : ¬ CharAt s (fun c => E.same 'p' c = true) i := fun h => h.false he fun c x y => absurd (hE.apart 'p' (by decide) 'e' (by decide) c x y) (by decide)
  simp only [List.mem_cons, List.not_mem_nil, or_false] at hr
  rcases hr with rfl | rfl | rfl
  · obtain ⟨d, h1, h2, h3, _⟩ := mem_epFirst.1 (matchAt_mem hm)
    have h4 : i' + 1 ≠ i := by
      rintro rfl
      exact hp (ep_chars h1).2
    refine hdig h3.digits ?_
    rcases h2 with rfl | ⟨rfl, h2⟩
    · omega
    · by_cases h5 : i' + 2 = i
      · subst h5
        exact (h2.false he fun c x y => by rw [sep_not_letter hE (by decide) x.1] at y; cases y).elim
      · omega
  · obtain ⟨⟨_, h1, h2⟩, _⟩ := mem_version.1 (matchAt_mem hm)
    exact hdig h2 (by omega)
  · obtain ⟨d, h1, h2, _⟩ := mem_epMore.1 (matchAt_mem hm)
    refine hdig h2.digits ?_
    by_contra hcon
    exact hp ((epMark_bounds hE h1).2 i hlt (by omega))

/-- After a separator, a match that starts before `ep` ends before it. -/
theorem ep_before_free (hE : Usual E) {i : Nat} (hi : LiteralAt E s c!"ep" i) (hf : FreeBefore s i) :
    ∀ r ∈ [LooseChain.ep.firstRe E, E.versionRe, LooseChain.ep.moreRe E], ∀ i' j' c', i' < i → r.matchAt s i' = some (j', c') → j' < i := by
  intro r hr i' j' c' hlt hm
  have h1 := ep_before hE hi r hr i' j' c' hlt hm
  have hd : CharAt s (Digit E) (j' - 1) := by
    simp only [List.mem_cons, List.not_mem_nil, or_false] at hr
    rcases hr with rfl | rfl | rfl
    · obtain ⟨d, _, _, h3, _⟩ := mem_epFirst.1 (matchAt_mem hm)
      have := h3.least
      exact h3.digits _ (by omega) (by omega)
    · obtain ⟨⟨_, h2, h3⟩, _⟩ := mem_version.1 (matchAt_mem hm)
      exact h3 _ (by omega) (by omega)
    · obtain ⟨d, _, h3, _⟩ := mem_epMore.1 (matchAt_mem hm)
      have := h3.least
      exact h3.digits _ (by omega) (by omega)
  rcases Nat.lt_or_ge j' i with h | h
  · exact h
  · obtain rfl : j' = i := by omega
    rcases hf with h | h
    · omega
    · exact (hd.false h fun c x y => sep_not_digit hE y x).elim

/-! ## Separators -/

theorem near_eq {n g : Nat} {hs : List RxHit} (h : ∀ x ∈ hs, ∀ v, x.caps.lookup n = some v → nearSeparator x g v = x.caps.lookup g) :
    nearNumbers E s n g hs = chainNumbers E s n g hs := by
  refine List.filterMap_congr fun x hx => ?_
  cases hl : x.caps.lookup n with
  | none => rfl
  | some v => simp only [Option.map_some]; rw [h x hx v hl]

theorem near_none {n g : Nat} {x : RxHit} {v : Nat × Nat} (_ : x.caps.lookup n = some v) (h : x.caps.lookup g = none) : nearSeparator x g v = x.caps.lookup g := by
  rw [nearSeparator, h]; rfl

theorem near_item {x : Nat × Nat × Nat} (h : x.2.1 < x.2.2) : nearSeparator (itemHit 2 5 x) 5 (x.2.1, x.2.2) = (itemHit 2 5 x).caps.lookup 5 := by
  have h1 : ¬ x.2.2 ≤ x.2.1 := by omega
  simp [nearSeparator, itemHit, List.lookup, h1]

theorem epListed_numbers {ws : List Str} {i k : Nat} {l : List (Nat × Nat × Nat)} (h : ListedAt E ws s i l k) : ∀ x ∈ l, x.2.1 < x.2.2 ∧ AllOf s (Digit E) x.2.1 x.2.2 := by
  induction h with
  | nil => intro x hx; cases hx
  | cons h1 _ ih =>
    intro x hx
    rcases List.mem_cons.1 hx with h | h
    · cases h; exact h1.number
    · exact ih x h

/-! ## What is reported -/

theorem loose_found {k : LooseChain} {hs p q : List RxHit} (hm : hs ∈ chains s ⟨k.firstRe E, some 1⟩ (k.rest E)) (hpq : hs = p ++ q) (hne : p ≠ [])
    (hb : ∀ n, n < p.length → brokenChain E C s (p.take (n + 1)) = false) (hv : validLoose E C s p = true) {h : RxHit} (hh : h ∈ p) :
    ∃ ks ∈ k.kept E C s, h ∈ ks := by
  simp only [LooseChain.kept, List.mem_map]
  exact ⟨_, ⟨hs, hm, rfl⟩, trimmed_of hpq hne hb hv hh⟩

/-- C144: after a separator or at the beginning, `ep`, at most one separator, a number of up to four digits, a version if need be and a list of more numbers if need be, up
to a separator or the end: the episodes and the version are reported.  As for C125, the numbers of a list must increase and not be further apart than
the configured maximum, and the list must be given as far as it goes. -/
theorem C144_list (hE : Usual E) (hL : Literal E) {i d j j' e : Nat} {l : List (Nat × Nat × Nat)}
    (h : EpAt E s i d j) (hv : j' = j ∨ VersionAt E s j j') (hl : FewListedAt E epJoiners 1 4 s j' l e) (hst : Standing s i e)
    (hnew : NewIsLarger ((listedNumbers E s (d) j l).map Prod.snd))
    (hweak : HasStrong C.discreteSeparators.contains (listedNumbers E s (d) j l) ∨
      WeakIsClose C.rangeSeparators.contains C.weak.contains C.gap (listedNumbers E s (d) j l))
    (hclose : ∀ u v, Neighbours ((listedNumbers E s (d) j l).map Prod.snd) u v → ((v - u).natAbs : Int) ≤ C.episodeMax) :
    (∀ x ∈ (d, j) :: l.map Prod.snd,
      ({ name := c!"episode", start := x.1, stop := x.2, value := .ok (numberAt E s x.1 x.2) } : RxMatch Int) ∈ LooseChain.ep.found E C s) ∧
    (VersionAt E s j j' →
      ({ name := c!"version", start := j + 1, stop := j', value := .ok (numberAt E s (j + 1) j') } : RxMatch Int) ∈ LooseChain.ep.versions E C s) := by
  have hw := ep_avoids hE hL
  have he := standing_noDigit hE hst.2
  have hl' := epListed_listed hl
  have hj' := listed_start hw hl' he
  have hj : NoDigitAt E s j := by
    rcases hv with rfl | ⟨⟨c, h1, h2⟩, _⟩
    · exact hj'
    · intro z hz hd
      rw [hz, Option.some.injEq] at h1; subst h1
      exact letter_not_digit hE (by decide) h2 hd
  have hm := ep_first_head hE h hj
  have hdj := h.number.run (by decide)
  have hlen : l.length ≤ s.length := by
    have := listed_grow hw hl'
    by_cases hl0 : l = []
    · subst hl0; simp
    · have := this.2 hl0; omega
  generalize h0e : (⟨i, j, [(2, (d, j))]⟩ : RxHit) = h0
  have hcaps : h0.caps = [(2, (d, j))] := by rw [← h0e]
  have hstop : h0.stop = j := by rw [← h0e]
  have hchain : chainOf s ⟨LooseChain.ep.firstRe E, some 1⟩ (LooseChain.ep.rest E) h0 ∈ chains s ⟨LooseChain.ep.firstRe E, some 1⟩ (LooseChain.ep.rest E) := by
    rw [← h0e]
    refine chains_complete (rest := LooseChain.ep.rest E) (ep_moves hE) hm ?_ (ep_before_free hE h.word hst.1) _ _ (by omega) (by omega)
    · obtain ⟨c, hc, _⟩ := (ep_chars h.word).1
      exact (List.getElem?_eq_some_iff.1 hc).1
  obtain ⟨more, hmore⟩ := epListed_run hE hL hl he s.length hlen
  obtain ⟨xs, hxs, hxl, hxn, hxc⟩ : ∃ xs : List RxHit, E.versionRe.run s 1 j = xs ∧ lastStop j xs = j' ∧
      (∀ x ∈ xs, x.caps = [(8, (j + 1, j'))]) ∧ (VersionAt E s j j' → xs ≠ []) := by
    rcases hv with hv | hv
    · have : E.versionRe.matchAt s j = none := by
        cases h2 : E.versionRe.matchAt s j with
        | none => rfl
        | some z =>
          exfalso
          obtain ⟨⟨⟨c, g1, g2⟩, _⟩, _⟩ := mem_version.1 (matchAt_mem (j := z.1) (c := z.2) h2)
          subst hv
          cases hl with
          | nil =>
            rcases hst.2 with h3 | ⟨c', h3, h4⟩
            · have := (List.getElem?_eq_some_iff.1 g1).1; omega
            · rw [g1, Option.some.injEq] at h3; subst h3
              rw [sep_not_letter hE (by decide) h4] at g2; cases g2
          | cons h3 _ _ =>
            obtain ⟨c', h4, h5⟩ := epMark_first hE hL h3
            rw [g1, Option.some.injEq] at h4; subst h4
            rw [g2] at h5; cases h5
      exact ⟨[], by rw [Re.run, this], hv.symm, by simp, fun g => by have := g.2.1; omega⟩
    · have := matchAt_head (version_head (c := []) hv hj')
      exact ⟨[⟨j, j', [(8, (j + 1, j'))]⟩], by rw [Re.run, this]; rfl, rfl, by simp, by simp⟩
  have heq : chainOf s ⟨LooseChain.ep.firstRe E, some 1⟩ (LooseChain.ep.rest E) h0 = (h0 :: (xs ++ l.map (itemHit 2 5))) ++ more := by
    have e0 : (LooseChain.ep.firstRe E).run s 0 j = [] := rfl
    simp only [chainOf, LooseChain.rest, Option.getD_some, Option.getD_none, hstop, Nat.sub_self, e0, chainTail, lastStop, hxs, hxl,
      List.append_nil, List.singleton_append, List.cons_append, List.append_assoc, List.cons.injEq, true_and]
    rw [List.nil_append]
    exact congrArg (xs ++ ·) hmore
  -- its numbers
  have hxnum : ∀ (ys : List RxHit) (n g : Nat), (∀ y ∈ ys, y ∈ xs) → n ≠ 8 → chainNumbers E s n g ys = [] := by
    intro ys n g hys hn
    refine numbers_none_of fun y hy => ?_
    have : (n == 8) = false := by simpa using hn
    simp only [hxn y (hys y hy), List.lookup, this]
  have heps : ∀ (ys : List RxHit) (n : Nat), (∀ y ∈ ys, y ∈ xs) → chainEpisodes E s (h0 :: (ys ++ (l.take n).map (itemHit 2 5))) = listedNumbers E s (d) j (l.take n) := by
    intro ys n hys
    obtain ⟨k', hk'⟩ := ListedAt_take hl' n
    rw [chainEpisodes, numbers_cons (x := (d, j)) (by rw [hcaps]; rfl) (by rw [hcaps]; rfl), chainNumbers_append, hxnum ys 2 5 hys (by decide),
      List.nil_append, numbers_items hE hk' (by decide), (groupNumber_eq hE hdj).1]
    rfl
  have hseas : ∀ (ys : List RxHit) (n : Nat), (∀ y ∈ ys, y ∈ xs) → chainSeasons E s (h0 :: (ys ++ (l.take n).map (itemHit 2 5))) = [] := by
    intro ys n hys
    have e1 : h0 :: (ys ++ (l.take n).map (itemHit 2 5)) = [h0] ++ (ys ++ (l.take n).map (itemHit 2 5)) := rfl
    rw [e1, chainSeasons, chainNumbers_append, chainNumbers_append, hxnum ys 1 6 hys (by decide), numbers_none (by decide) (by decide),
      List.append_nil, List.append_nil]
    exact numbers_none_of (by intro x hx; simp only [List.mem_singleton] at hx; subst hx; rw [hcaps]; rfl)
  have hnear : ∀ n g, (n = 1 ∧ g = 6) ∨ (n = 2 ∧ g = 5) → nearNumbers E s n g (h0 :: (xs ++ l.map (itemHit 2 5))) = chainNumbers E s n g (h0 :: (xs ++ l.map (itemHit 2 5))) := by
    intro n g hng
    refine near_eq fun x hx v hv => ?_
    rcases List.mem_cons.1 hx with rfl | hx
    · refine near_none hv ?_
      rw [hcaps]
      rcases hng with ⟨rfl, rfl⟩ | ⟨rfl, rfl⟩ <;> rfl
    · rcases List.mem_append.1 hx with hx | hx
      · refine near_none hv ?_
        rw [hxn x hx]
        rcases hng with ⟨rfl, rfl⟩ | ⟨rfl, rfl⟩ <;> rfl
      · obtain ⟨y, hy, rfl⟩ := List.mem_map.1 hx
        rcases hng with ⟨rfl, rfl⟩ | ⟨rfl, rfl⟩
        · exact near_none hv rfl
        · obtain rfl : (y.2.1, y.2.2) = v := by simpa [itemHit, List.lookup] using hv
          exact near_item (epListed_numbers hl' y hy).1
  have hbr : ∀ n, n < (h0 :: (xs ++ l.map (itemHit 2 5))).length → brokenChain E C s ((h0 :: (xs ++ l.map (itemHit 2 5))).take (n + 1)) = false := by
    intro n _
    rw [List.take_succ_cons, List.take_append, ← List.map_take, brokenChain, chainBreaker, heps _ _ (fun y hy => List.mem_of_mem_take hy),
      hseas _ _ (fun y hy => List.mem_of_mem_take hy), Bool.or_eq_false_iff]
    refine ⟨breaks_false fun u v huv => hclose u v (huv.of_prefix ?_), rfl⟩
    simp only [listedNumbers, List.map_cons, List.map_map]
    rw [List.map_take]
    exact (List.prefix_cons_inj _).2 (List.take_prefix _ _)
  have hcs : h0.start = i := by rw [← h0e]
  have hval : validLoose E C s (h0 :: (xs ++ l.map (itemHit 2 5))) = true := by
    have e1 := heps xs l.length fun y hy => hy
    have e2 := hseas xs l.length fun y hy => hy
    rw [List.take_length] at e1 e2
    rw [validLoose, hnear 1 6 (.inl ⟨rfl, rfl⟩), hnear 2 5 (.inr ⟨rfl, rfl⟩)]
    unfold chainEpisodes at e1
    unfold chainSeasons at e2
    rw [e1, e2, Bool.and_eq_true]
    constructor
    · rw [hstop, lastStop_append, hxl, lastStop_items hl', hcs]
      exact standing_iff.2 hst
    · exact (C59_accepted_iff_strong _ _ _ _ _ _).2 ⟨newIsLarger_short (by simp), hnew, .inr (weakIsClose_short (by simp)), hweak⟩
  have hkept := fun (z : RxHit) (hz : z ∈ h0 :: (xs ++ l.map (itemHit 2 5))) => loose_found hchain heq (by simp) hbr hval hz
  have hrep : ∀ z ∈ h0 :: (xs ++ l.map (itemHit 2 5)), ∀ m ∈ numbersOf E s z, m ∈ LooseChain.ep.found E C s := by
    intro z hz m hm
    obtain ⟨ks, g1, g2⟩ := hkept z hz
    exact List.mem_flatMap.2 ⟨ks, g1, List.mem_flatMap.2 ⟨z, g2, hm⟩⟩
  refine ⟨?_, fun hver => ?_⟩
  · intro z hz
    rcases List.mem_cons.1 hz with rfl | hz
    · refine hrep h0 (by simp) _ ?_
      simp only [numbersOf, hcaps, List.mem_filterMap, Option.map_eq_some_iff]
      exact ⟨(2, c!"episode"), by simp, (d, j), rfl, by rw [(groupNumber_eq hE hdj).2]⟩
    · obtain ⟨⟨u, v⟩, hu, rfl⟩ := List.mem_map.1 hz
      refine hrep (itemHit 2 5 (u, v)) (by simp only [List.mem_cons, List.mem_append, List.mem_map]; exact .inr (.inr ⟨_, hu, rfl⟩)) _ ?_
      simp only [numbersOf, itemHit, List.filterMap_cons, List.filterMap_nil, List.lookup]
      simp [(groupNumber_eq hE (epListed_numbers hl' _ hu)).2]
  · obtain ⟨x, hx⟩ := List.exists_mem_of_ne_nil _ (hxc hver)
    obtain ⟨hs, g1, g2⟩ := hkept x (by simp [hx])
    simp only [LooseChain.versions, List.mem_flatMap, List.mem_filterMap]
    refine ⟨hs, g1, x, g2, ?_⟩
    rw [hxn x hx]
    simp only [List.lookup, beq_self_eq_true, Option.map_some]
    rw [(groupNumber_eq hE hver.2).2]

/-- C144: `ep`, at most one separator and a number of up to four digits, between separators or ends of the text, are reported. -/
theorem C144_complete (hE : Usual E) (hL : Literal E) {i d j : Nat} (h : EpAt E s i d j) (hst : Standing s i j) :
    ({ name := c!"episode", start := d, stop := j, value := .ok (numberAt E s (d) j) } : RxMatch Int) ∈ LooseChain.ep.found E C s := by
  have := C144_list (C := C) hE hL h (.inl rfl) .nil hst (newIsLarger_short (by simp [listedNumbers])) (.inr (weakIsClose_short (by simp [listedNumbers]))) ?_
  · exact this.1 (d, j) (by simp)
  · rintro u v ⟨pre, post, he⟩
    have := congrArg List.length he
    simp only [listedNumbers, List.map_nil, List.map_cons, List.length_cons, List.length_nil, List.length_append] at this
    omega

/-! ## What is reported is written -/

theorem ep_hit {ws : List RxHit} (h3 : Of s [E.versionRe, LooseChain.ep.moreRe E] ws) : ∀ h ∈ ws, (VersionAt E s h.start h.stop ∧ h.caps = [(8, (h.start + 1, h.stop))]) ∨
      ∃ d, MarkAt E epJoiners s h.start d ∧ Few E 1 4 s d h.stop ∧ h.caps = [(2, (d, h.stop)), (5, (h.start, d))] := by
  intro h hh
  obtain ⟨r, g1, g2⟩ := h3 h hh
  simp only [List.mem_cons, List.not_mem_nil, or_false] at g1
  rcases g1 with rfl | rfl
  · obtain ⟨g3, g4⟩ := mem_version.1 (matchAt_mem g2)
    exact .inl ⟨g3, g4⟩
  · obtain ⟨d, g3, g4, g5⟩ := mem_epMore.1 (matchAt_mem g2)
    exact .inr ⟨d, g3, g4, g5⟩

/-- The first match of a chain that is kept. -/
theorem ep_kept {ks : List RxHit} {h : RxHit} (hk : ks ∈ LooseChain.ep.kept E C s) (hh : h ∈ ks) : ∃ h0 d ws, EpAt E s h0.start d h0.stop ∧
    h0.caps = [(2, (d, h0.stop))] ∧ Follow h0.stop ws ∧ Of s [E.versionRe, LooseChain.ep.moreRe E] ws ∧ Standing s h0.start (lastStop h0.stop ws) ∧ h ∈ h0 :: ws := by
  obtain ⟨h0, p, ws, h1, h2, h3, h4, h5, h6, h7⟩ := loose_within hk hh
  obtain ⟨d, g1, g2, g3, g4⟩ := mem_epFirst.1 (matchAt_mem h1)
  have hst := loose_standing h4
  rw [← h5] at hst
  refine ⟨h0, d, ws, ⟨g1, g2, g3⟩, g4, h2, h3, hst, ?_⟩
  rcases List.mem_cons.1 h7 with rfl | h7
  · simp
  · exact List.mem_cons_of_mem _ (h6 h h7)

/-- C144: an episode this chain reports is written after `ep` and at most one separator, or later in the list after such a number; `ep` is after a separator or at the
beginning, and the list goes to a separator or the end. -/
theorem C144_sound (hE : Usual E) {m : RxMatch Int} (hm : m ∈ LooseChain.ep.found E C s) : ∃ i d j e, EpAt E s i d j ∧ ManySteps (EpStep E s) j e ∧ Standing s i e ∧
    m.name = c!"episode" ∧ ((m.start = d ∧ m.stop = j) ∨
      ∃ x, ManySteps (EpStep E s) j x ∧ MarkAt E epJoiners s x m.start ∧ Few E 1 4 s m.start m.stop ∧ ManySteps (EpStep E s) m.stop e) ∧
    m.value = .ok (numberAt E s m.start m.stop) := by
  simp only [LooseChain.found, List.mem_flatMap] at hm
  obtain ⟨ks, g1, h, g2, h6⟩ := hm
  obtain ⟨h0, d0, ws, h1, hc, h2, h3, h4, h5⟩ := ep_kept g1 g2
  obtain ⟨h7, h8⟩ := mem_numbersOf h6
  have hstep : ∀ h ∈ ws, EpStep E s h.start h.stop := by
    intro h hh
    rcases ep_hit h3 h hh with ⟨g, _⟩ | ⟨d, g1, g2, _⟩
    · exact .inl g
    · exact .inr ⟨d, g1, g2⟩
  have hsay : m.name = c!"episode" ∧ ((m.start = d0 ∧ m.stop = h0.stop) ∨
      ∃ x, ManySteps (EpStep E s) h0.stop x ∧ MarkAt E epJoiners s x m.start ∧ Few E 1 4 s m.start m.stop ∧ ManySteps (EpStep E s) m.stop (lastStop h0.stop ws)) := by
    rcases List.mem_cons.1 h5 with rfl | h5
    · rw [hc] at h7
      rcases h7 with ⟨e, h7⟩ | ⟨e, h7⟩ <;> simp [List.lookup] at h7
      exact ⟨e, .inl ⟨h7.1.symm, h7.2.symm⟩⟩
    · obtain ⟨f1, f2⟩ := follow_at ws _ h2 hstep h5
      rcases ep_hit h3 h h5 with ⟨_, g4⟩ | ⟨d', g3, g5, g4⟩
      · rw [g4] at h7
        rcases h7 with ⟨e, h7⟩ | ⟨e, h7⟩ <;> simp only [List.lookup] at h7 <;> simp at h7
      · rw [g4] at h7
        rcases h7 with ⟨e, h7⟩ | ⟨e, h7⟩ <;> simp only [List.lookup] at h7 <;> simp at h7
        obtain ⟨rfl, h7⟩ := h7
        rw [h7] at g5 f2
        exact ⟨e, .inr ⟨h.start, f1, g3, g5, f2⟩⟩
  refine ⟨h0.start, d0, h0.stop, lastStop h0.stop ws, h1, follow_steps ws _ h2 hstep, h4, hsay.1, hsay.2, ?_⟩
  rw [h8]
  refine (groupNumber_eq hE ?_).2
  rcases hsay.2 with ⟨g, g'⟩ | ⟨x, _, _, g, _⟩
  · rw [g, g']; exact h1.number.run (by decide)
  · exact g.run (by decide)

/-- C144: a version this chain reports is written right after `v`, after such a number. -/
theorem C144_sound_version (hE : Usual E) {m : RxMatch Int} (hm : m ∈ LooseChain.ep.versions E C s) : ∃ i d j x e, EpAt E s i d j ∧ ManySteps (EpStep E s) j x ∧
    VersionAt E s x m.stop ∧ m.start = x + 1 ∧ ManySteps (EpStep E s) m.stop e ∧ Standing s i e ∧ m.name = c!"version" ∧ m.value = .ok (numberAt E s m.start m.stop) := by
  simp only [LooseChain.versions, List.mem_flatMap, List.mem_filterMap, Option.map_eq_some_iff] at hm
  obtain ⟨ks, g1, h, g2, x, g3, rfl⟩ := hm
  obtain ⟨h0, d0, ws, h1, hc, h2, h3, h4, h5⟩ := ep_kept g1 g2
  have hstep : ∀ h ∈ ws, EpStep E s h.start h.stop := by
    intro h hh
    rcases ep_hit h3 h hh with ⟨g, _⟩ | ⟨d, g1, g2, _⟩
    · exact .inl g
    · exact .inr ⟨d, g1, g2⟩
  rcases List.mem_cons.1 h5 with rfl | h5
  · rw [hc] at g3; simp [List.lookup] at g3
  · obtain ⟨f1, f2⟩ := follow_at ws _ h2 hstep h5
    rcases ep_hit h3 h h5 with ⟨g5, g4⟩ | ⟨d', _, _, g4⟩
    · rw [g4] at g3
      simp only [List.lookup, beq_self_eq_true, Option.some.injEq] at g3
      subst g3
      exact ⟨h0.start, d0, h0.stop, h.start, lastStop h0.stop ws, h1, f1, g5, rfl, f2, h4, rfl, (groupNumber_eq hE g5.2).2⟩
    · rw [g4] at g3
      simp only [List.lookup] at g3
      simp at g3

end
end Guessit
