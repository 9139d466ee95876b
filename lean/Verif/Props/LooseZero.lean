import Verif.Props.LooseEp

/-! # C143: numbers that begin with a zero -/

namespace Guessit
open Spec Re

section
variable {E : RxEnv} {C : EpisodeConfig} {s : Str}

/-! ## The patterns -/

theorem mem_zero {i j : Nat} {c c' : Caps} : (j, c') ∈ (Re.chr fun x => x == '0').exec s i c ↔ CharAt s (· = '0') i ∧ j = i + 1 ∧ c' = c := by
  rw [mem_chr]
  simp only [CharAt, beq_iff_eq]

theorem mem_zeroFirst {i j : Nat} {c : Caps} : (j, c) ∈ (LooseChain.zero.firstRe E).exec s i [] ↔ ZeroAt E s i j ∧ c = [(2, (i + 1, j))] := by
  simp only [LooseChain.firstRe, mem_seq, mem_zero, mem_fewGroup]
  constructor
  · rintro ⟨_, _, ⟨h1, rfl, rfl⟩, h2, rfl⟩; exact ⟨⟨h1, h2⟩, rfl⟩
  · rintro ⟨⟨h1, h2⟩, rfl⟩; exact ⟨_, _, ⟨h1, rfl, rfl⟩, h2, rfl⟩

theorem zeroMark_iff (hL : Literal E) {i d : Nat} : MarkAt E [c!"x", c!"-"] s i d ↔ CharAt s (fun c => E.same 'x' c = true ∨ c = '-') i ∧ d = i + 1 := by
  constructor
  · rintro ⟨w, h1, h2, rfl⟩
    simp only [List.mem_cons, List.not_mem_nil, or_false] at h1
    rcases h1 with rfl | rfl
    · obtain ⟨c, g1, g2⟩ := h2 0 'x' rfl
      exact ⟨⟨c, g1, .inl g2⟩, rfl⟩
    · obtain ⟨c, g1, g2⟩ := h2 0 '-' rfl
      exact ⟨⟨c, g1, .inr ((hL '-' (by decide) c).1 g2)⟩, rfl⟩
  · rintro ⟨⟨c, g1, g2⟩, rfl⟩
    rcases g2 with g2 | g2
    · exact ⟨c!"x", by simp, fun k l hk => by
        match k, hk with
        | 0, hk => cases hk; exact ⟨c, g1, g2⟩, rfl⟩
    · exact ⟨c!"-", by simp, fun k l hk => by
        match k, hk with
        | 0, hk => cases hk; exact ⟨c, g1, (hL '-' (by decide) c).2 g2⟩, rfl⟩

theorem mem_zeroMore (hL : Literal E) {i j : Nat} {c c' : Caps} : (j, c') ∈ (LooseChain.zero.moreRe E).exec s i c ↔
    ZeroMoreAt E s i j ∧ c' = (2, (i + 2, j)) :: (5, (i, i + 1)) :: c := by
  simp only [LooseChain.moreRe, Re.cat, mem_seq, mem_mark, mem_zero, mem_fewGroup, mem_eps, zeroMark_iff hL]
  constructor
  · rintro ⟨_, _, ⟨⟨h1, rfl⟩, rfl⟩, _, _, ⟨h2, rfl, rfl⟩, _, _, ⟨h3, rfl⟩, rfl, rfl⟩
    exact ⟨⟨h1, h2, h3⟩, rfl⟩
  · rintro ⟨⟨h1, h2, h3⟩, rfl⟩
    exact ⟨_, _, ⟨⟨h1, rfl⟩, rfl⟩, _, _, ⟨h2, rfl, rfl⟩, _, _, ⟨h3, rfl⟩, rfl, rfl⟩

theorem zero_head {i : Nat} {c : Caps} (h : CharAt s (· = '0') i) : ((Re.chr fun x => x == '0').exec s i c).head? = some (i + 1, c) := by
  obtain ⟨x, h1, rfl⟩ := h
  exact chr_head h1 (by simp)

theorem zero_first_head {i j : Nat} (h : ZeroAt E s i j) (hj : NoDigitAt E s j) : (LooseChain.zero.firstRe E).matchAt s i = some (j, [(2, (i + 1, j))]) :=
  matchAt_head (seq_head (zero_head h.zero) (grp_head (few_head h.number (.inr hj))))

theorem zero_more_head (hL : Literal E) {i j : Nat} {c : Caps} (h : ZeroMoreAt E s i j) (hj : NoDigitAt E s j) :
    ((LooseChain.zero.moreRe E).exec s i c).head? = some (j, (2, (i + 2, j)) :: (5, (i, i + 1)) :: c) := by
  refine seq_first (mem_mark.2 ⟨(zeroMark_iff hL).2 ⟨h.mark, rfl⟩, rfl⟩) (seq_head (zero_head h.zero) (seq_head (grp_head (few_head h.number (.inr hj))) eps_head)) ?_
  intro k' c' g _
  obtain ⟨g1, rfl⟩ := mem_mark.1 g
  obtain ⟨_, rfl⟩ := (zeroMark_iff hL).1 g1
  exact ⟨rfl, rfl⟩

/-- The match of one more number. -/
def zeroHit (x : Nat × Nat) : RxHit := ⟨x.1, x.2, [(2, (x.1 + 2, x.2)), (5, (x.1, x.1 + 1))]⟩

theorem zeroMore_noDigit (hE : Usual E) {i j : Nat} (h : ZeroMoreAt E s i j) : NoDigitAt E s i := by
  obtain ⟨c, h1, h2⟩ := h.mark
  intro z hz hd
  rw [hz, Option.some.injEq] at h1; subst h1
  rcases h2 with h2 | rfl
  · exact letter_not_digit hE (by decide) h2 hd
  · exact sep_not_digit hE (by decide) hd

theorem zeroListed_start (hE : Usual E) {i e : Nat} {l : List (Nat × Nat)} (h : ZeroListedAt E s i l e) (he : NoDigitAt E s e) : NoDigitAt E s i := by
  cases h with
  | nil => exact he
  | cons h1 _ => exact zeroMore_noDigit hE h1

theorem zeroListed_grow {i e : Nat} {l : List (Nat × Nat)} (h : ZeroListedAt E s i l e) : i + l.length ≤ e ∧ (l ≠ [] → e ≤ s.length) := by
  induction h with
  | nil => simp
  | @cons i j l e h1 h2 ih =>
    have := h1.number.least
    refine ⟨by simp only [List.length_cons]; omega, fun _ => ?_⟩
    cases h2 with
    | nil =>
      have hd := h1.number
      obtain ⟨c, hc, _⟩ := hd.digits (j - 1) (by omega) (by omega)
      have := (List.getElem?_eq_some_iff.1 hc).1
      omega
    | cons h3 h4 => exact ih.2 (by simp)

theorem zeroListed_run (hE : Usual E) (hL : Literal E) {i e : Nat} {l : List (Nat × Nat)} (h : ZeroListedAt E s i l e) (he : NoDigitAt E s e) :
    ∀ f, l.length ≤ f → ∃ more, (LooseChain.zero.moreRe E).run s f i = l.map zeroHit ++ more := by
  induction h with
  | nil => intro f _; exact ⟨_, rfl⟩
  | cons h1 h3 ih =>
    intro f hf
    cases f with
    | zero => simp at hf
    | succ f =>
      obtain ⟨more, h4⟩ := ih he f (by simpa using hf)
      refine ⟨more, ?_⟩
      rw [Re.run, matchAt_head (zero_more_head hL h1 (zeroListed_start hE h3 he))]
      simp only [h4, List.map_cons, List.cons_append]
      rfl

theorem zeroListed_mem {i e : Nat} {l : List (Nat × Nat)} (h : ZeroListedAt E s i l e) : ∀ x ∈ l, ZeroMoreAt E s x.1 x.2 := by
  induction h with
  | nil => intro x hx; cases hx
  | cons h1 _ ih =>
    intro x hx
    rcases List.mem_cons.1 hx with h | h
    · cases h; exact h1
    · exact ih x h

theorem zeroListed_take {i e : Nat} {l : List (Nat × Nat)} (h : ZeroListedAt E s i l e) : ∀ n, ∃ k, ZeroListedAt E s i (l.take n) k := by
  induction h with
  | nil => intro n; exact ⟨_, by rw [List.take_nil]; exact .nil⟩
  | cons h1 _ ih =>
    intro n
    cases n with
    | zero => exact ⟨_, .nil⟩
    | succ n => obtain ⟨k, hk⟩ := ih n; exact ⟨k, .cons h1 hk⟩

theorem zeroListed_stop {i e : Nat} {l : List (Nat × Nat)} (h : ZeroListedAt E s i l e) : lastStop i (l.map zeroHit) = e := by
  induction h with
  | nil => rfl
  | cons _ _ ih => exact ih

theorem zeroListed_numbers (hE : Usual E) {i e : Nat} {l : List (Nat × Nat)} (h : ZeroListedAt E s i l e) :
    chainNumbers E s 2 5 (l.map zeroHit) = l.map fun x => (some (textOf s x.1 (x.1 + 1)), numberAt E s (x.1 + 2) x.2) := by
  induction h with
  | nil => rfl
  | cons h1 _ ih =>
    simp only [List.map_cons, chainNumbers, List.filterMap_cons] at ih ⊢
    simp only [zeroHit, lookup_hd, Option.map_some]
    rw [(groupNumber_eq hE (h1.number.run (by decide))).1, ih]
    rfl

/-! ## The chain -/

theorem zero_moves (hL : Literal E) : Moves s [LooseChain.zero.firstRe E, E.versionRe, LooseChain.zero.moreRe E] := by
  intro r hr i j c hm
  simp only [List.mem_cons, List.not_mem_nil, or_false] at hr
  rcases hr with rfl | rfl | rfl
  · obtain ⟨h1, _⟩ := mem_zeroFirst.1 (matchAt_mem hm)
    have := h1.number.least
    omega
  · obtain ⟨⟨_, h1, _⟩, _⟩ := mem_version.1 (matchAt_mem hm)
    omega
  · obtain ⟨h1, _⟩ := (mem_zeroMore hL).1 (matchAt_mem hm)
    have := h1.number.least
    omega

theorem zero_not_sep {p : Nat} (h : CharAt s (· = '0') p) : ¬ CharAt s (· ∈ seps) p := fun h' => h.false h' (by rintro c rfl h; revert h; decide)

theorem zero_first_before (hE : Usual E) {i : Nat} (hf : FreeBefore s i) :
    ∀ i' j' c', i' < i → (LooseChain.zero.firstRe E).matchAt s i' = some (j', c') → j' < i ∧ AfterDigit E s j' := by
  intro i' j' c' hlt hm
  obtain ⟨h1, _⟩ := mem_zeroFirst.1 (matchAt_mem hm)
  refine ⟨?_, afterDigit_few h1.number (by decide)⟩
  by_contra hcon
  rcases hf with h | h
  · omega
  · by_cases hi : i' = i - 1
    · subst hi; exact zero_not_sep h1.zero h
    · exact (h1.number.digits (i - 1) (by omega) (by omega)).false h fun c a b => sep_not_digit hE b a

theorem zero_before (hE : Usual E) (hL : Literal E) {i : Nat} (hf : FreeBefore s i) (hn : NotListed E s i) :
    ∀ r ∈ [LooseChain.zero.firstRe E, E.versionRe, LooseChain.zero.moreRe E], ∀ i' j' c', i' < i → AfterDigit E s i' → r.matchAt s i' = some (j', c') →
      j' < i ∧ AfterDigit E s j' := by
  intro r hr i' j' c' hlt hq hm
  have hsep : CharAt s (· ∈ seps) (i - 1) := by
    rcases hf with h | h
    · omega
    · exact h
  simp only [List.mem_cons, List.not_mem_nil, or_false] at hr
  rcases hr with rfl | rfl | rfl
  · exact zero_first_before hE hf i' j' c' hlt hm
  · obtain ⟨⟨h1, h2, h3⟩, _⟩ := mem_version.1 (matchAt_mem hm)
    refine ⟨?_, by omega, h3 (j' - 1) (by omega) (by omega)⟩
    by_contra hcon
    by_cases hi : i' = i - 1
    · subst hi
      exact h1.false hsep fun c a b => by rw [sep_not_letter hE (by decide) b] at a; cases a
    · exact (h3 (i - 1) (by omega) (by omega)).false hsep fun c a b => sep_not_digit hE b a
  · obtain ⟨h1, _⟩ := (mem_zeroMore hL).1 (matchAt_mem hm)
    refine ⟨?_, afterDigit_few h1.number (by decide)⟩
    by_contra hcon
    by_cases hi : i' = i - 1
    · subst hi
      obtain ⟨c, g1, g2⟩ := h1.mark
      rcases g2 with g2 | rfl
      · obtain ⟨c', g3, g4⟩ := hsep
        rw [g1, Option.some.injEq] at g3; subst g3
        rw [sep_not_letter hE (by decide) g4] at g2; cases g2
      · exact hn ⟨by have := hq.1; omega, ⟨_, g1, rfl⟩, by have := hq.2; rwa [show i - 1 - 1 = i - 2 by omega] at this⟩
    · by_cases hi2 : i' + 1 = i - 1
      · exact zero_not_sep h1.zero (by rw [hi2]; exact hsep)
      · exact (h1.number.digits (i - 1) (by omega) (by omega)).false hsep fun c a b => sep_not_digit hE b a

/-! ## What is reported -/

/-- C143: a zero and one or two digits, a version if need be and a list of more such numbers if need be, between separators or ends of the text, with no number and dash
before: the episodes and the version are reported, without the zeros.  As for C125, the numbers of a list must increase and not be further apart than the configured maximum,
and the list must be given as far as it goes. -/
theorem C143_list (hE : Usual E) (hL : Literal E) {i j j' e : Nat} {l : List (Nat × Nat)}
    (h : ZeroAt E s i j) (hv : j' = j ∨ VersionAt E s j j') (hl : ZeroListedAt E s j' l e) (hst : Standing s i e)
    (hn : ¬ (2 ≤ i ∧ CharAt s (· = '-') (i - 1) ∧ CharAt s (Digit E) (i - 2)))
    (hnew : NewIsLarger ((zeroNumbers E s i j l).map Prod.snd))
    (hweak : HasStrong C.discreteSeparators.contains (zeroNumbers E s i j l) ∨
      WeakIsClose C.rangeSeparators.contains C.weak.contains C.gap (zeroNumbers E s i j l))
    (hclose : ∀ u v, Neighbours ((zeroNumbers E s i j l).map Prod.snd) u v → ((v - u).natAbs : Int) ≤ C.episodeMax) :
    (({ name := c!"episode", start := i + 1, stop := j, value := .ok (numberAt E s (i + 1) j) } : RxMatch Int) ∈ LooseChain.zero.found E C s ∧
      ∀ x ∈ l, ({ name := c!"episode", start := x.1 + 2, stop := x.2, value := .ok (numberAt E s (x.1 + 2) x.2) } : RxMatch Int) ∈ LooseChain.zero.found E C s) ∧
    (VersionAt E s j j' →
      ({ name := c!"version", start := j + 1, stop := j', value := .ok (numberAt E s (j + 1) j') } : RxMatch Int) ∈ LooseChain.zero.versions E C s) := by
  have he := standing_noDigit hE hst.2
  have hj' := zeroListed_start hE hl he
  have hj : NoDigitAt E s j := by
    rcases hv with rfl | ⟨⟨c, h1, h2⟩, _⟩
    · exact hj'
    · intro z hz hd
      rw [hz, Option.some.injEq] at h1; subst h1
      exact letter_not_digit hE (by decide) h2 hd
  have hm := zero_first_head h hj
  have hdj := h.number.run (by decide)
  have hlen : l.length ≤ s.length := by
    have := zeroListed_grow hl
    by_cases hl0 : l = []
    · subst hl0; simp
    · have := this.2 hl0; omega
  generalize h0e : (⟨i, j, [(2, (i + 1, j))]⟩ : RxHit) = h0
  have hcaps : h0.caps = [(2, (i + 1, j))] := by rw [← h0e]
  have hstop : h0.stop = j := by rw [← h0e]
  have hchain : chainOf s ⟨LooseChain.zero.firstRe E, some 1⟩ (LooseChain.zero.rest E) h0 ∈ chains s ⟨LooseChain.zero.firstRe E, some 1⟩ (LooseChain.zero.rest E) := by
    rw [← h0e]
    refine chains_complete_of (Q := AfterDigit E s) (rest := LooseChain.zero.rest E) (zero_moves hL) hm ?_ (zero_first_before hE hst.1) (zero_before hE hL hst.1 hn) _ _ (by omega) (by omega)
    obtain ⟨c, hc, _⟩ := h.zero
    exact (List.getElem?_eq_some_iff.1 hc).1
  obtain ⟨more, hmore⟩ := zeroListed_run hE hL hl he s.length hlen
  obtain ⟨xs, hxs, hxl, hxn, hxc⟩ : ∃ xs : List RxHit, E.versionRe.run s 1 j = xs ∧ lastStop j xs = j' ∧
      (∀ x ∈ xs, x.caps = [(8, (j + 1, j'))]) ∧ (VersionAt E s j j' → xs ≠ []) := by
    rcases hv with hv | hv
    · have : E.versionRe.matchAt s j = none := by
        cases h2 : E.versionRe.matchAt s j with
        | none => rfl
        | some z =>
          exfalso
          obtain ⟨⟨⟨c, g1, g2⟩, _⟩, _⟩ := mem_version.1 (matchAt_mem (j := z.1) (c := z.2) h2)
          subst hv
          cases hl with
          | nil =>
            rcases hst.2 with h3 | ⟨c', h3, h4⟩
            · have := (List.getElem?_eq_some_iff.1 g1).1; omega
            · rw [g1, Option.some.injEq] at h3; subst h3
              rw [sep_not_letter hE (by decide) h4] at g2; cases g2
          | cons h3 _ =>
            obtain ⟨c', h4, h5⟩ := h3.mark
            rw [g1, Option.some.injEq] at h4; subst h4
            rcases h5 with h5 | rfl
            · exact absurd (hE.apart 'v' (by decide) 'x' (by decide) c g2 h5) (by decide)
            · rw [sep_not_letter hE (by decide) (by decide)] at g2; cases g2
      exact ⟨[], by rw [Re.run, this], hv.symm, by simp, fun g => by have := g.2.1; omega⟩
    · have := matchAt_head (version_head (c := []) hv hj')
      exact ⟨[⟨j, j', [(8, (j + 1, j'))]⟩], by rw [Re.run, this]; rfl, rfl, by simp, by simp⟩
  have heq : chainOf s ⟨LooseChain.zero.firstRe E, some 1⟩ (LooseChain.zero.rest E) h0 = (h0 :: (xs ++ l.map zeroHit)) ++ more := by
    have e0 : (LooseChain.zero.firstRe E).run s 0 j = [] := rfl
    simp only [chainOf, LooseChain.rest, Option.getD_some, Option.getD_none, hstop, Nat.sub_self, e0, chainTail, lastStop, hxs, hxl,
      List.append_nil, List.singleton_append, List.cons_append, List.append_assoc, List.cons.injEq, true_and]
    rw [List.nil_append]
    exact congrArg (xs ++ ·) hmore
  -- its numbers
  have hxnum : ∀ (ys : List RxHit) (n g : Nat), (∀ y ∈ ys, y ∈ xs) → n ≠ 8 → chainNumbers E s n g ys = [] := by
    intro ys n g hys hn
    refine numbers_none_of fun y hy => ?_
    have : (n == 8) = false := by simpa using hn
    simp only [hxn y (hys y hy), List.lookup, this]
  have heps : ∀ (ys : List RxHit) (n : Nat), (∀ y ∈ ys, y ∈ xs) → chainEpisodes E s (h0 :: (ys ++ (l.take n).map zeroHit)) = zeroNumbers E s i j (l.take n) := by
    intro ys n hys
    obtain ⟨k', hk'⟩ := zeroListed_take hl n
    rw [chainEpisodes, numbers_cons (x := (i + 1, j)) (by rw [hcaps]; rfl) (by rw [hcaps]; rfl), chainNumbers_append, hxnum ys 2 5 hys (by decide),
      List.nil_append, zeroListed_numbers hE hk', (groupNumber_eq hE hdj).1]
    rfl
  have hseas : ∀ (ys : List RxHit) (n : Nat), (∀ y ∈ ys, y ∈ xs) → chainSeasons E s (h0 :: (ys ++ (l.take n).map zeroHit)) = [] := by
    intro ys n hys
    have e1 : h0 :: (ys ++ (l.take n).map zeroHit) = [h0] ++ (ys ++ (l.take n).map zeroHit) := rfl
    have e2 : chainNumbers E s 1 6 ((l.take n).map zeroHit) = [] := numbers_none_of (by
      intro x hx
      obtain ⟨y, _, rfl⟩ := List.mem_map.1 hx
      rfl)
    rw [e1, chainSeasons, chainNumbers_append, chainNumbers_append, hxnum ys 1 6 hys (by decide), e2, List.append_nil, List.append_nil]
    exact numbers_none_of (by intro x hx; simp only [List.mem_singleton] at hx; subst hx; rw [hcaps]; rfl)
  have hnear : ∀ n g, (n = 1 ∧ g = 6) ∨ (n = 2 ∧ g = 5) → nearNumbers E s n g (h0 :: (xs ++ l.map zeroHit)) = chainNumbers E s n g (h0 :: (xs ++ l.map zeroHit)) := by
    intro n g hng
    refine near_eq fun x hx v hv => ?_
    rcases List.mem_cons.1 hx with rfl | hx
    · refine near_none hv ?_
      rw [hcaps]
      rcases hng with ⟨rfl, rfl⟩ | ⟨rfl, rfl⟩ <;> rfl
    · rcases List.mem_append.1 hx with hx | hx
      · refine near_none hv ?_
        rw [hxn x hx]
        rcases hng with ⟨rfl, rfl⟩ | ⟨rfl, rfl⟩ <;> rfl
      · obtain ⟨y, hy, rfl⟩ := List.mem_map.1 hx
        rcases hng with ⟨rfl, rfl⟩ | ⟨rfl, rfl⟩
        · exact near_none hv rfl
        · obtain rfl : (y.1 + 2, y.2) = v := by simpa [zeroHit, List.lookup] using hv
          have hlt := (zeroListed_mem hl y hy).number.least
          have h1 : ¬ y.2 ≤ y.1 + 2 := by omega
          simp [nearSeparator, zeroHit, List.lookup, h1]
  have hbr : ∀ n, n < (h0 :: (xs ++ l.map zeroHit)).length → brokenChain E C s ((h0 :: (xs ++ l.map zeroHit)).take (n + 1)) = false := by
    intro n _
    rw [List.take_succ_cons, List.take_append, ← List.map_take, brokenChain, chainBreaker, heps _ _ (fun y hy => List.mem_of_mem_take hy),
      hseas _ _ (fun y hy => List.mem_of_mem_take hy), Bool.or_eq_false_iff]
    refine ⟨breaks_false fun u v huv => hclose u v (huv.of_prefix ?_), rfl⟩
    simp only [zeroNumbers, List.map_cons, List.map_map]
    rw [List.map_take]
    exact (List.prefix_cons_inj _).2 (List.take_prefix _ _)
  have hcs : h0.start = i := by rw [← h0e]
  have hval : validLoose E C s (h0 :: (xs ++ l.map zeroHit)) = true := by
    have e1 := heps xs l.length fun y hy => hy
    have e2 := hseas xs l.length fun y hy => hy
    rw [List.take_length] at e1 e2
    rw [validLoose, hnear 1 6 (.inl ⟨rfl, rfl⟩), hnear 2 5 (.inr ⟨rfl, rfl⟩)]
    unfold chainEpisodes at e1
    unfold chainSeasons at e2
    rw [e1, e2, Bool.and_eq_true]
    constructor
    · rw [hstop, lastStop_append, hxl, zeroListed_stop hl, hcs]
      exact standing_iff.2 hst
    · exact (C59_accepted_iff_strong _ _ _ _ _ _).2 ⟨newIsLarger_short (by simp), hnew, .inr (weakIsClose_short (by simp)), hweak⟩
  have hkept := fun (z : RxHit) (hz : z ∈ h0 :: (xs ++ l.map zeroHit)) => loose_found hchain heq (by simp) hbr hval hz
  have hrep : ∀ z ∈ h0 :: (xs ++ l.map zeroHit), ∀ m ∈ numbersOf E s z, m ∈ LooseChain.zero.found E C s := by
    intro z hz m hm
    obtain ⟨ks, g1, g2⟩ := hkept z hz
    exact List.mem_flatMap.2 ⟨ks, g1, List.mem_flatMap.2 ⟨z, g2, hm⟩⟩
  refine ⟨⟨?_, fun x hx => ?_⟩, fun hver => ?_⟩
  · refine hrep h0 (by simp) _ ?_
    simp only [numbersOf, hcaps, List.mem_filterMap, Option.map_eq_some_iff]
    exact ⟨(2, c!"episode"), by simp, (i + 1, j), rfl, by rw [(groupNumber_eq hE hdj).2]⟩
  · refine hrep (zeroHit x) (by simp only [List.mem_cons, List.mem_append, List.mem_map]; exact .inr (.inr ⟨_, hx, rfl⟩)) _ ?_
    simp only [numbersOf, zeroHit, List.filterMap_cons, List.filterMap_nil, List.lookup]
    simp [(groupNumber_eq hE ((zeroListed_mem hl x hx).number.run (by decide))).2]
  · obtain ⟨x, hx⟩ := List.exists_mem_of_ne_nil _ (hxc hver)
    obtain ⟨hs, g1, g2⟩ := hkept x (by simp [hx])
    simp only [LooseChain.versions, List.mem_flatMap, List.mem_filterMap]
    refine ⟨hs, g1, x, g2, ?_⟩
    rw [hxn x hx]
    simp only [List.lookup, beq_self_eq_true, Option.map_some]
    rw [(groupNumber_eq hE hver.2).2]

/-- C143: a zero and one or two digits between separators or ends of the text, with no number and dash before, are reported. -/
theorem C143_complete (hE : Usual E) (hL : Literal E) {i j : Nat} (h : ZeroAt E s i j) (hst : Standing s i j)
    (hn : ¬ (2 ≤ i ∧ CharAt s (· = '-') (i - 1) ∧ CharAt s (Digit E) (i - 2))) :
    ({ name := c!"episode", start := i + 1, stop := j, value := .ok (numberAt E s (i + 1) j) } : RxMatch Int) ∈ LooseChain.zero.found E C s := by
  have := C143_list (C := C) hE hL h (.inl rfl) .nil hst hn (newIsLarger_short (by simp [zeroNumbers])) (.inr (weakIsClose_short (by simp [zeroNumbers]))) ?_
  · exact this.1.1
  · rintro u v ⟨pre, post, he⟩
    have := congrArg List.length he
    simp only [zeroNumbers, List.map_nil, List.map_cons, List.length_cons, List.length_nil, List.length_append] at this
    omega

/-! ## What is reported is written -/

theorem zero_kept {ks : List RxHit} {h : RxHit} (hk : ks ∈ LooseChain.zero.kept E C s) (hh : h ∈ ks) : ∃ h0 ws, ZeroAt E s h0.start h0.stop ∧
    h0.caps = [(2, (h0.start + 1, h0.stop))] ∧ Follow h0.stop ws ∧ Of s [E.versionRe, LooseChain.zero.moreRe E] ws ∧ Standing s h0.start (lastStop h0.stop ws) ∧ h ∈ h0 :: ws := by
  obtain ⟨h0, p, ws, h1, h2, h3, h4, h5, h6, h7⟩ := loose_within hk hh
  obtain ⟨g1, g4⟩ := mem_zeroFirst.1 (matchAt_mem h1)
  have hst := loose_standing h4
  rw [← h5] at hst
  refine ⟨h0, ws, g1, g4, h2, h3, hst, ?_⟩
  rcases List.mem_cons.1 h7 with rfl | h7
  · simp
  · exact List.mem_cons_of_mem _ (h6 h h7)

theorem zero_hit (hL : Literal E) {ws : List RxHit} (h3 : Of s [E.versionRe, LooseChain.zero.moreRe E] ws) : ∀ h ∈ ws, (VersionAt E s h.start h.stop ∧ h.caps = [(8, (h.start + 1, h.stop))]) ∨
      (ZeroMoreAt E s h.start h.stop ∧ h.caps = [(2, (h.start + 2, h.stop)), (5, (h.start, h.start + 1))]) := by
  intro h hh
  obtain ⟨r, g1, g2⟩ := h3 h hh
  simp only [List.mem_cons, List.not_mem_nil, or_false] at g1
  rcases g1 with rfl | rfl
  · exact .inl (mem_version.1 (matchAt_mem g2))
  · exact .inr ((mem_zeroMore hL).1 (matchAt_mem g2))

/-- C143: an episode this chain reports is written after a zero, at the beginning of a list or later in it; the list goes from a separator or the beginning of the text to a
separator or the end. -/
theorem C143_sound (hE : Usual E) (hL : Literal E) {m : RxMatch Int} (hm : m ∈ LooseChain.zero.found E C s) : ∃ i j e, ZeroAt E s i j ∧ ManySteps (ZeroStep E s) j e ∧ Standing s i e ∧
    m.name = c!"episode" ∧ ((m.start = i + 1 ∧ m.stop = j) ∨
      ∃ x, ManySteps (ZeroStep E s) j x ∧ ZeroMoreAt E s x m.stop ∧ m.start = x + 2 ∧ ManySteps (ZeroStep E s) m.stop e) ∧
    m.value = .ok (numberAt E s m.start m.stop) := by
  simp only [LooseChain.found, List.mem_flatMap] at hm
  obtain ⟨ks, g1, h, g2, h6⟩ := hm
  obtain ⟨h0, ws, h1, hc, h2, h3, h4, h5⟩ := zero_kept g1 g2
  obtain ⟨h7, h8⟩ := mem_numbersOf h6
  have hstep : ∀ h ∈ ws, ZeroStep E s h.start h.stop := by
    intro h hh
    rcases zero_hit hL h3 h hh with ⟨g, _⟩ | ⟨g, _⟩
    · exact .inl g
    · exact .inr g
  have hsay : m.name = c!"episode" ∧ ((m.start = h0.start + 1 ∧ m.stop = h0.stop) ∨
      ∃ x, ManySteps (ZeroStep E s) h0.stop x ∧ ZeroMoreAt E s x m.stop ∧ m.start = x + 2 ∧ ManySteps (ZeroStep E s) m.stop (lastStop h0.stop ws)) := by
    rcases List.mem_cons.1 h5 with rfl | h5
    · rw [hc] at h7
      rcases h7 with ⟨e, h7⟩ | ⟨e, h7⟩ <;> simp [List.lookup] at h7
      exact ⟨e, .inl ⟨h7.1.symm, h7.2.symm⟩⟩
    · obtain ⟨f1, f2⟩ := follow_at ws _ h2 hstep h5
      rcases zero_hit hL h3 h h5 with ⟨_, g4⟩ | ⟨g3, g4⟩
      · rw [g4] at h7
        rcases h7 with ⟨e, h7⟩ | ⟨e, h7⟩ <;> simp only [List.lookup] at h7 <;> simp at h7
      · rw [g4] at h7
        rcases h7 with ⟨e, h7⟩ | ⟨e, h7⟩ <;> simp only [List.lookup] at h7 <;> simp at h7
        obtain ⟨h7', h7⟩ := h7
        rw [h7] at g3 f2
        exact ⟨e, .inr ⟨h.start, f1, g3, h7'.symm, f2⟩⟩
  refine ⟨h0.start, h0.stop, lastStop h0.stop ws, h1, follow_steps ws _ h2 hstep, h4, hsay.1, hsay.2, ?_⟩
  rw [h8]
  refine (groupNumber_eq hE ?_).2
  rcases hsay.2 with ⟨g, g'⟩ | ⟨x, _, g, g', _⟩
  · rw [g, g']; exact h1.number.run (by decide)
  · rw [g']; exact g.number.run (by decide)

/-- C143: a version this chain reports is written right after `v`, after such a number. -/
theorem C143_sound_version (hE : Usual E) (hL : Literal E) {m : RxMatch Int} (hm : m ∈ LooseChain.zero.versions E C s) : ∃ i j x e, ZeroAt E s i j ∧ ManySteps (ZeroStep E s) j x ∧
    VersionAt E s x m.stop ∧ m.start = x + 1 ∧ ManySteps (ZeroStep E s) m.stop e ∧ Standing s i e ∧ m.name = c!"version" ∧ m.value = .ok (numberAt E s m.start m.stop) := by
  simp only [LooseChain.versions, List.mem_flatMap, List.mem_filterMap, Option.map_eq_some_iff] at hm
  obtain ⟨ks, g1, h, g2, x, g3, rfl⟩ := hm
  obtain ⟨h0, ws, h1, hc, h2, h3, h4, h5⟩ := zero_kept g1 g2
  have hstep : ∀ h ∈ ws, ZeroStep E s h.start h.stop := by
    intro h hh
    rcases zero_hit hL h3 h hh with ⟨g, _⟩ | ⟨g, _⟩
    · exact .inl g
    · exact .inr g
  rcases List.mem_cons.1 h5 with rfl | h5
  · rw [hc] at g3; simp [List.lookup] at g3
  · obtain ⟨f1, f2⟩ := follow_at ws _ h2 hstep h5
    rcases zero_hit hL h3 h h5 with ⟨g5, g4⟩ | ⟨_, g4⟩
    · rw [g4] at g3
      simp only [List.lookup, beq_self_eq_true, Option.some.injEq] at g3
      subst g3
      exact ⟨h0.start, h0.stop, h.start, lastStop h0.stop ws, h1, f1, g5, rfl, f2, h4, rfl, (groupNumber_eq hE g5.2).2⟩
    · rw [g4] at g3
      simp only [List.lookup] at g3
      simp at g3

end
end Guessit
