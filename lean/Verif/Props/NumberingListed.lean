import Verif.Props.NumberingFound

/-! # C128: numbers that are read as episodes -/

namespace Guessit
open Spec Re

section
variable {E : RxEnv} {C : EpisodeConfig} {s : Str}

theorem numbers_none_of {n g : Nat} {hs : List RxHit} (h : ∀ x ∈ hs, x.caps.lookup n = none) : chainNumbers E s n g hs = [] := by
  rw [chainNumbers, List.filterMap_eq_nil_iff]
  intro x hx
  rw [h x hx]; rfl

theorem newIsLarger_short {l : List Int} (h : l.length ≤ 1) : NewIsLarger l := by
  intro pre v post he
  cases pre with
  | nil => exact .inr (by simp)
  | cons u pre => subst he; simp at h

theorem weakIsClose_short {a b : Str → Bool} {g : Int} {l : List (Option Str × Int)} (h : l.length ≤ 1) : WeakIsClose a b g l := by
  rintro p sep w ⟨pre, q, post, he⟩
  have := congrArg List.length he
  simp only [List.length_cons, List.length_append] at this
  omega

/-- C128: a number of the digits asked for (12; 112; 1; e112 or 1e18; 102 as season 1 and episode 02), a version if need be (12v2) and a list of more numbers if
need be (12-13) stand between separators, and no number and dash are before: all the episodes, the season and the version are reported.  As for C125, the
numbers of a list must increase and not be further apart than the configured maximum, and the list must be given as far as it goes. -/
theorem C128_list (hE : Usual E) (hL : Literal E) {k : Numbering} {i d j j' e : Nat} {season : Option (Nat × Nat)} {l : List (Nat × Nat × Nat)}
    (h : NumberedAt E k s i season d j) (hv : j' = j ∨ VersionAt E s j j') (hl : FewListedAt E (joiners k) (digitsListed k).1 (digitsListed k).2 s j' l e) (hst : Standing s i e)
    (hn : ¬ (2 ≤ i ∧ CharAt s (· = '-') (i - 1) ∧ CharAt s (Digit E) (i - 2)))
    (hnew : NewIsLarger ((listedNumbers E s d j l).map Prod.snd))
    (hweak : HasStrong C.discreteSeparators.contains (listedNumbers E s d j l) ∨
      WeakIsClose C.rangeSeparators.contains C.weak.contains C.gap (listedNumbers E s d j l))
    (hclose : ∀ u v, Neighbours ((listedNumbers E s d j l).map Prod.snd) u v → ((v - u).natAbs : Int) ≤ C.episodeMax) :
    (∀ x ∈ (d, j) :: l.map Prod.snd,
      ({ name := c!"episode", start := x.1, stop := x.2, value := .ok (numberAt E s x.1 x.2) } : RxMatch Int) ∈ (EpisodeChain.numbers k).found E C s) ∧
    (∀ a b, season = some (a, b) →
      ({ name := c!"season", start := a, stop := b, value := .ok (numberAt E s a b) } : RxMatch Int) ∈ (EpisodeChain.numbers k).found E C s) ∧
    (VersionAt E s j j' →
      ({ name := c!"version", start := j + 1, stop := j', value := .ok (numberAt E s (j + 1) j') } : RxMatch Int) ∈ (EpisodeChain.numbers k).versions E C s) := by
  have hw := numbering_avoids hE hL k
  have he := standing_noDigit hE hst.2
  have hl' := fewListed_listed hl
  have hj' := listed_start hw hl' he
  have hj : NoDigitAt E s j := by
    rcases hv with rfl | ⟨⟨c, h1, h2⟩, _⟩
    · exact hj'
    · intro z hz hd
      rw [hz, Option.some.injEq] at h1; subst h1
      exact letter_not_digit hE (by decide) h2 hd
  obtain ⟨c0, hm, hc1, hc2, hc5, hc6, hc8⟩ := numbered_head hE h hj
  obtain ⟨hij, _, hnosep⟩ := numbered_bounds hE h
  have hlen : l.length ≤ s.length := by
    have := listed_grow hw hl'
    by_cases hl0 : l = []
    · subst hl0; simp
    · have := this.2 hl0; omega
  have hdj : d < j ∧ AllOf s (Digit E) d j := by
    cases k with
    | two => obtain ⟨_, rfl, h⟩ := h; exact h.run (by decide)
    | long => obtain ⟨_, rfl, h⟩ := h; exact h.run (by decide)
    | one => obtain ⟨_, rfl, h⟩ := h; exact h.run (by decide)
    | marked => exact h.2.run (by decide)
    | duplicate => exact h.2.2.run (by decide)
  have hseason : ∀ a b, season = some (a, b) → a < b ∧ AllOf s (Digit E) a b := by
    intro a b hab
    cases k with
    | two => rw [h.1] at hab; cases hab
    | long => rw [h.1] at hab; cases hab
    | one => rw [h.1] at hab; cases hab
    | marked =>
      rcases h.1 with ⟨h1, _⟩ | ⟨b', h1, h2, _⟩
      · rw [h1] at hab; cases hab
      · rw [h1, Option.some.injEq, Prod.mk.injEq] at hab
        obtain ⟨rfl, rfl⟩ := hab
        exact h2.run (by decide)
    | duplicate =>
      rw [h.1, Option.some.injEq, Prod.mk.injEq] at hab
      obtain ⟨rfl, rfl⟩ := hab
      exact h.2.1.run (by decide)
  generalize h0e : (⟨i, j, c0⟩ : RxHit) = h0
  have hcaps : h0.caps = c0 := by rw [← h0e]
  have hstart : h0.start = i := by rw [← h0e]
  have hstop : h0.stop = j := by rw [← h0e]
  have hchain : chainOf s ((EpisodeChain.numbers k).first E C) ((EpisodeChain.numbers k).rest E C) h0 ∈
      chains s ((EpisodeChain.numbers k).first E C) ((EpisodeChain.numbers k).rest E C) := by
    rw [← h0e]
    refine chains_complete_of (Q := AfterDigit E s) (numbers_moves hE hL k) hm ?_ (numbers_first_before hE hst.1) (numbers_before hE hL hst.1 hn) _ _ (by omega) (by omega)
    obtain ⟨c, hc, _⟩ := hnosep i (by omega) hij
    exact (List.getElem?_eq_some_iff.1 hc).1
  obtain ⟨more, hmore⟩ := fewListed_run hE hL hl he s.length hlen
  -- the version
  obtain ⟨xs, hxs, hxl, hxn, hxc⟩ : ∃ xs : List RxHit, E.versionRe.run s 1 j = xs ∧ lastStop j xs = j' ∧
      (∀ x ∈ xs, x.caps = [(8, (j + 1, j'))]) ∧ (VersionAt E s j j' → xs ≠ []) := by
    rcases hv with hv | hv
    · have : E.versionRe.matchAt s j = none := by
        cases h2 : E.versionRe.matchAt s j with
        | none => rfl
        | some z =>
          exfalso
          obtain ⟨⟨⟨c, g1, g2⟩, _⟩, _⟩ := mem_version.1 (matchAt_mem (j := z.1) (c := z.2) h2)
          subst hv
          cases hl with
          | nil =>
            rcases hst.2 with h3 | ⟨c', h3, h4⟩
            · have := (List.getElem?_eq_some_iff.1 g1).1; omega
            · rw [g1, Option.some.injEq] at h3; subst h3
              rw [sep_not_letter hE (by decide) h4] at g2; cases g2
          | cons h3 _ _ =>
            obtain ⟨_, c', h4, h5⟩ := numbering_mark hE hL h3
            rw [g1, Option.some.injEq] at h4; subst h4
            rcases h5 with rfl | h5
            · rw [sep_not_letter hE (l := 'v') (by decide) (by decide)] at g2; cases g2
            · exact h5 (.inr (.inr g2))
      exact ⟨[], by rw [Re.run, this], hv.symm, by simp, fun g => by have := g.2.1; omega⟩
    · have := matchAt_head (version_head (c := []) hv hj')
      exact ⟨[⟨j, j', [(8, (j + 1, j'))]⟩], by rw [Re.run, this]; rfl, rfl, by simp, by simp⟩
  have heq : chainOf s ((EpisodeChain.numbers k).first E C) ((EpisodeChain.numbers k).rest E C) h0 = (h0 :: (xs ++ l.map (itemHit 2 5))) ++ more := by
    have e0 : (k.firstRe E).run s 0 j = [] := rfl
    simp only [chainOf, EpisodeChain.first, EpisodeChain.rest, Option.getD_some, Option.getD_none, hstop, Nat.sub_self, e0, chainTail, lastStop, hxs, hxl,
      List.append_nil, List.singleton_append, List.cons_append, List.append_assoc, List.cons.injEq, true_and]
    rw [List.nil_append]
    exact congrArg (xs ++ ·) hmore
  -- its numbers
  have hxnum : ∀ (ys : List RxHit) (n g : Nat), (∀ y ∈ ys, y ∈ xs) → n ≠ 8 → chainNumbers E s n g ys = [] := by
    intro ys n g hys hn
    refine numbers_none_of fun y hy => ?_
    have : (n == 8) = false := by simpa using hn
    simp only [hxn y (hys y hy), List.lookup, this]
  have heps : ∀ (ys : List RxHit) (n : Nat), (∀ y ∈ ys, y ∈ xs) → chainEpisodes E s (h0 :: (ys ++ (l.take n).map (itemHit 2 5))) = listedNumbers E s d j (l.take n) := by
    intro ys n hys
    obtain ⟨k', hk'⟩ := ListedAt_take hl' n
    rw [chainEpisodes, numbers_cons (x := (d, j)) (by rw [hcaps]; exact hc2) (by rw [hcaps]; exact hc5), chainNumbers_append, hxnum ys 2 5 hys (by decide),
      List.nil_append, numbers_items hE hk' (by decide), (groupNumber_eq hE hdj).1]
    rfl
  have hseas : ∀ (ys : List RxHit) (n : Nat), (∀ y ∈ ys, y ∈ xs) → (chainSeasons E s (h0 :: (ys ++ (l.take n).map (itemHit 2 5)))).length ≤ 1 := by
    intro ys n hys
    have e1 : h0 :: (ys ++ (l.take n).map (itemHit 2 5)) = [h0] ++ (ys ++ (l.take n).map (itemHit 2 5)) := rfl
    rw [e1, chainSeasons, chainNumbers_append, chainNumbers_append, hxnum ys 1 6 hys (by decide), numbers_none (by decide) (by decide),
      List.append_nil, List.append_nil]
    exact chainNumbers_single E s 1 6 h0
  have hbr : ∀ n, n < (h0 :: (xs ++ l.map (itemHit 2 5))).length → brokenChain E C s ((h0 :: (xs ++ l.map (itemHit 2 5))).take (n + 1)) = false := by
    intro n _
    rw [List.take_succ_cons, List.take_append, ← List.map_take, brokenChain, chainBreaker, heps _ _ (fun y hy => List.mem_of_mem_take hy), Bool.or_eq_false_iff]
    refine ⟨breaks_false fun u v huv => hclose u v (huv.of_prefix ?_), breaks_short ?_⟩
    · simp only [listedNumbers, List.map_cons, List.map_map]
      rw [List.map_take]
      exact (List.prefix_cons_inj _).2 (List.take_prefix _ _)
    · rw [List.length_map]
      exact hseas _ _ fun y hy => List.mem_of_mem_take hy
  have hval : validChain E C s (h0 :: (xs ++ l.map (itemHit 2 5))) = true := by
    have e1 := heps xs l.length fun y hy => hy
    have e2 := hseas xs l.length fun y hy => hy
    rw [List.take_length] at e1 e2
    rw [validChain, e1, Bool.and_eq_true]
    constructor
    · rw [lastStop, hstop, lastStop_append, hxl, lastStop_items hl', hstart]
      exact standing_iff.2 hst
    · exact (C59_accepted_iff_strong _ _ _ _ _ _).2 ⟨newIsLarger_short (by rw [List.length_map]; exact e2), hnew, .inr (weakIsClose_short e2), hweak⟩
  have hrep := fun (z : RxHit) (hz : z ∈ h0 :: (xs ++ l.map (itemHit 2 5))) (m : RxMatch Int) (hm : m ∈ numbersOf E s z) =>
    chain_reported hchain heq (by simp) hbr hval hz hm
  refine ⟨?_, ?_, fun hver => ?_⟩
  · intro z hz
    rcases List.mem_cons.1 hz with rfl | hz
    · refine hrep h0 (by simp) _ ?_
      simp only [numbersOf, hcaps, List.mem_filterMap, Option.map_eq_some_iff]
      exact ⟨(2, c!"episode"), by simp, (d, j), hc2, by rw [(groupNumber_eq hE hdj).2]⟩
    · obtain ⟨⟨u, v⟩, hu, rfl⟩ := List.mem_map.1 hz
      have hnum : v.1 < v.2 ∧ AllOf s (Digit E) v.1 v.2 := by
        clear * - hl' hu
        induction hl' with
        | nil => cases hu
        | cons h1 _ ih =>
          rcases List.mem_cons.1 hu with h | h
          · cases h; exact h1.number
          · exact ih h
      refine hrep (itemHit 2 5 (u, v)) (by simp only [List.mem_cons, List.mem_append, List.mem_map]; exact .inr (.inr ⟨_, hu, rfl⟩)) _ ?_
      simp only [numbersOf, itemHit, List.filterMap_cons, List.filterMap_nil, List.lookup]
      simp [(groupNumber_eq hE hnum).2]
  · intro a b hab
    refine hrep h0 (by simp) _ ?_
    simp only [numbersOf, hcaps, List.mem_filterMap, Option.map_eq_some_iff]
    exact ⟨(1, c!"season"), by simp, (a, b), by rw [hc1, hab], by rw [(groupNumber_eq hE (hseason a b hab)).2]⟩
  · obtain ⟨x, hx⟩ := List.exists_mem_of_ne_nil _ (hxc hver)
    obtain ⟨hs, g1, g2⟩ := chain_kept hchain heq (by simp) hbr hval (h := x) (by simp [hx])
    simp only [EpisodeChain.versions, List.mem_flatMap, List.mem_filterMap]
    refine ⟨hs, g1, x, g2, ?_⟩
    rw [hxn x hx]
    simp only [List.lookup, beq_self_eq_true, Option.map_some]
    rw [(groupNumber_eq hE hver.2).2]

/-- C128: such a number between separators, with no number and dash before, is reported. -/
theorem C128_complete (hE : Usual E) (hL : Literal E) {k : Numbering} {i d j : Nat} {season : Option (Nat × Nat)} (h : NumberedAt E k s i season d j)
    (hst : Standing s i j) (hn : ¬ (2 ≤ i ∧ CharAt s (· = '-') (i - 1) ∧ CharAt s (Digit E) (i - 2))) :
    ({ name := c!"episode", start := d, stop := j, value := .ok (numberAt E s d j) } : RxMatch Int) ∈ (EpisodeChain.numbers k).found E C s ∧
    ∀ a b, season = some (a, b) →
      ({ name := c!"season", start := a, stop := b, value := .ok (numberAt E s a b) } : RxMatch Int) ∈ (EpisodeChain.numbers k).found E C s := by
  have := C128_list (C := C) hE hL h (.inl rfl) .nil hst hn (newIsLarger_short (by simp [listedNumbers])) (.inr (weakIsClose_short (by simp [listedNumbers]))) ?_
  · exact ⟨this.1 (d, j) (by simp), this.2.1⟩
  · rintro u v ⟨pre, post, he⟩
    have := congrArg List.length he
    simp only [listedNumbers, List.map_nil, List.map_cons, List.length_cons, List.length_nil, List.length_append] at this
    omega

end
end Guessit
