import Verif.Props.LooseEp

/-! # C145: seasons and episodes after `cap` -/

namespace Guessit
open Spec Re

section
variable {E : RxEnv} {C : EpisodeConfig} {s : Str}

theorem mem_sepNoFs {i j : Nat} {c c' : Caps} : (j, c') ∈ (Re.chr fun x => sepsNoFs.contains x).exec s i c ↔
    CharAt s (fun x => x ∈ seps ∧ x ≠ '/' ∧ x ≠ '\\') i ∧ j = i + 1 ∧ c' = c := by
  rw [mem_chr]
  simp only [CharAt, sepsNoFs_iff]

theorem mem_capFirst {i j : Nat} {c : Caps} : (j, c) ∈ (LooseChain.cap.firstRe E).exec s i [] ↔
    ∃ a d, CapAt E s i a d j ∧ c = [(2, (d, j)), (1, (a, d)), (3, (i, i + 3))] := by
  simp only [LooseChain.firstRe, Re.cat, mem_seq, mem_grp, mem_word, mem_dash, mem_few, mem_eps]
  constructor
  · rintro ⟨_, _, ⟨_, ⟨h1, rfl, rfl⟩, rfl⟩, a, _, ⟨h2, rfl⟩, d, _, ⟨_, ⟨h3, rfl⟩, rfl⟩, _, _, ⟨_, ⟨h4, rfl⟩, rfl⟩, rfl, rfl⟩
    exact ⟨a, d, ⟨h1, h2, h3, h4⟩, rfl⟩
  · rintro ⟨a, d, h, rfl⟩
    exact ⟨_, _, ⟨_, ⟨h.word, rfl, rfl⟩, rfl⟩, a, _, ⟨h.sep, rfl⟩, d, _, ⟨_, ⟨h.season, rfl⟩, rfl⟩, _, _, ⟨_, ⟨h.episode, rfl⟩, rfl⟩, rfl, rfl⟩

theorem mem_capMore {i j : Nat} {c c' : Caps} : (j, c') ∈ (LooseChain.cap.moreRe E).exec s i c ↔
    ∃ d, CapMoreAt E s i d j ∧ c' = (2, (d, j)) :: (1, (i + 1, d)) :: (5, (i, i + 1)) :: c := by
  simp only [LooseChain.moreRe, Re.cat, mem_seq, mem_grp, mem_sepNoFs, mem_few, mem_eps]
  constructor
  · rintro ⟨_, _, ⟨_, ⟨h1, rfl, rfl⟩, rfl⟩, d, _, ⟨_, ⟨h3, rfl⟩, rfl⟩, _, _, ⟨_, ⟨h4, rfl⟩, rfl⟩, rfl, rfl⟩
    exact ⟨d, ⟨h1, h3, h4⟩, rfl⟩
  · rintro ⟨d, h, rfl⟩
    exact ⟨_, _, ⟨_, ⟨h.sep, rfl, rfl⟩, rfl⟩, d, _, ⟨_, ⟨h.season, rfl⟩, rfl⟩, _, _, ⟨_, ⟨h.episode, rfl⟩, rfl⟩, rfl, rfl⟩

theorem pair_head {a d j : Nat} {c : Caps} (h1 : Few E 1 2 s a d) (h2 : Few E 2 2 s d j) (hj : NoDigitAt E s j) :
    ((Re.cat [.grp 1 (digitsRe E.u 1 2), .grp 2 (digitsRe E.u 2 2)]).exec s a c).head? = some (j, (2, (d, j)) :: (1, (a, d)) :: c) := by
  have l1 := h1.least
  have l2 := h1.most
  have l3 := h2.least
  have l4 := h2.most
  have h2' : ((Re.cat [.grp 2 (digitsRe E.u 2 2)]).exec s d ((1, (a, d)) :: c)).head? = some (j, (2, (d, j)) :: (1, (a, d)) :: c) :=
    seq_head (grp_head (few_head h2 (.inr hj))) eps_head
  by_cases hd : d = a + 2
  · exact seq_head (grp_head (few_head h1 (.inl hd))) h2'
  · refine seq_first (mem_fewGroup.2 ⟨h1, rfl⟩) h2' ?_
    intro k' c' g0 g2
    obtain ⟨g1, rfl⟩ := mem_fewGroup.1 g0
    obtain ⟨⟨e, c2⟩, g2⟩ := List.exists_mem_of_ne_nil _ g2
    simp only [Re.cat, mem_seq, mem_fewGroup] at g2
    obtain ⟨e', _, ⟨g3, rfl⟩, _⟩ := g2
    have m1 := g1.least
    have m2 := g1.most
    have m3 := g3.least
    by_cases hk : k' = d
    · subst hk; exact ⟨rfl, rfl⟩
    · obtain ⟨x, hx, hp⟩ := g3.digits j (by omega) (by omega)
      exact absurd hp (hj x hx)

theorem cap_chars {i : Nat} (h : LiteralAt E s c!"cap" i) : CharAt s (fun c => E.same 'c' c = true) i ∧ CharAt s (fun c => E.same 'a' c = true) (i + 1) ∧
    CharAt s (fun c => E.same 'p' c = true) (i + 2) := ⟨h 0 'c' rfl, h 1 'a' rfl, h 2 'p' rfl⟩

theorem cap_first_head (hE : Usual E) {i a d j : Nat} (h : CapAt E s i a d j) (hj : NoDigitAt E s j) :
    (LooseChain.cap.firstRe E).matchAt s i = some (j, [(2, (d, j)), (1, (a, d)), (3, (i, i + 3))]) := by
  refine matchAt_head (seq_head (grp_head (word_head h.word)) (seq_head (dash_head h.sep ?_) (pair_head h.season h.episode hj)))
  intro he x hx hs
  obtain ⟨y, hy, hd⟩ := digits_char (h.season.run (by decide))
  rw [he] at hy
  simp only [List.length_cons, List.length_nil] at hx hy
  rw [hx, Option.some.injEq] at hy; subst hy
  exact sep_not_digit hE hs hd

theorem cap_more_head {j d k : Nat} {c : Caps} (h : CapMoreAt E s j d k) (hk : NoDigitAt E s k) :
    ((LooseChain.cap.moreRe E).exec s j c).head? = some (k, (2, (d, k)) :: (1, (j + 1, d)) :: (5, (j, j + 1)) :: c) := by
  obtain ⟨x, hx, hp⟩ := h.sep
  exact seq_head (grp_head (chr_head hx (sepsNoFs_iff.2 hp))) (pair_head h.season h.episode hk)

theorem cap_bounds {i a d j : Nat} (h : CapAt E s i a d j) : i + 3 ≤ a ∧ a < d ∧ j = d + 2 ∧ d ≤ a + 2 := by
  have h1 := h.season.least
  have h2 := h.season.most
  have h3 := h.episode.least
  have h4 := h.episode.most
  rcases h.sep with h5 | ⟨h5, _⟩ <;> omega

theorem capMore_bounds {j d k : Nat} (h : CapMoreAt E s j d k) : j + 1 < d ∧ k = d + 2 ∧ d ≤ j + 3 := by
  have h1 := h.season.least
  have h2 := h.season.most
  have h3 := h.episode.least
  have h4 := h.episode.most
  omega

theorem cap_digits {i a d j : Nat} (h : CapAt E s i a d j) : AllOf s (Digit E) a j := fun p h1 h2 => by
  by_cases hp : p < d
  · exact h.season.digits p h1 hp
  · exact h.episode.digits p (by omega) h2

theorem capMore_digits {j d k : Nat} (h : CapMoreAt E s j d k) : AllOf s (Digit E) (j + 1) k := fun p h1 h2 => by
  by_cases hp : p < d
  · exact h.season.digits p h1 hp
  · exact h.episode.digits p (by omega) h2

theorem cap_moves : Moves s [LooseChain.cap.firstRe E, LooseChain.cap.moreRe E] := by
  intro r hr i j c hm
  simp only [List.mem_cons, List.not_mem_nil, or_false] at hr
  rcases hr with rfl | rfl
  · obtain ⟨a, d, h, _⟩ := mem_capFirst.1 (matchAt_mem hm)
    have := cap_bounds h
    omega
  · obtain ⟨d, h, _⟩ := mem_capMore.1 (matchAt_mem hm)
    have := capMore_bounds h
    omega

/-- A match that starts before `cap` does not reach into it. -/
theorem cap_before (hE : Usual E) {i : Nat} (hi : LiteralAt E s c!"cap" i) (hf : FreeBefore s i) :
    ∀ r ∈ [LooseChain.cap.firstRe E, LooseChain.cap.moreRe E], ∀ i' j' c', i' < i → r.matchAt s i' = some (j', c') → j' < i := by
  intro r hr i' j' c' hlt hm
  have hc := (cap_chars hi).1
  have hsep : CharAt s (· ∈ seps) (i - 1) := by
    rcases hf with h | h
    · omega
    · exact h
  have hdig : ∀ {a b : Nat}, AllOf s (Digit E) a b → a ≤ i → a < b → b < i := by
    intro a b h g hab
    by_contra hcon
    by_cases e : i < b
    · exact (h i g e).false hc fun c x y => letter_not_digit hE (by decide) y x
    · exact (h (i - 1) (by omega) (by omega)).false hsep fun c x y => sep_not_digit hE y x
  have hlet : ∀ {l : Char}, l ∈ c!"abcdefghijklmnopqrstuvwxyz" → ¬ CharAt s (fun c => E.same l c = true) (i - 1) := by
    intro l hl h
    exact h.false hsep fun c x y => by rw [sep_not_letter hE hl y] at x; cases x
  simp only [List.mem_cons, List.not_mem_nil, or_false] at hr
  rcases hr with rfl | rfl
  · obtain ⟨a, d, h, _⟩ := mem_capFirst.1 (matchAt_mem hm)
    have hb := cap_bounds h
    obtain ⟨k1, k2, k3⟩ := cap_chars h.word
    have n0 : i - 1 ≠ i' := fun e => hlet (l := 'c') (by decide) (e ▸ k1)
    have n1 : i - 1 ≠ i' + 1 := fun e => hlet (l := 'a') (by decide) (e ▸ k2)
    have n2 : i - 1 ≠ i' + 2 := fun e => hlet (l := 'p') (by decide) (e ▸ k3)
    refine hdig (cap_digits h) ?_ (by omega)
    rcases h.sep with e | ⟨e, _⟩ <;> omega
  · obtain ⟨d, h, _⟩ := mem_capMore.1 (matchAt_mem hm)
    have hb := capMore_bounds h
    exact hdig (capMore_digits h) (by omega) (by omega)

/-! ## What is reported -/

/-- The match of `cap 112`. -/
def capHit (i a d j : Nat) : RxHit := ⟨i, j, [(2, (d, j)), (1, (a, d)), (3, (i, i + 3))]⟩
/-- The match of `_114`. -/
def capMoreHit (j d k : Nat) : RxHit := ⟨j, k, [(2, (d, k)), (1, (j + 1, d)), (5, (j, j + 1))]⟩

theorem cap_first_number (hE : Usual E) {i a d j : Nat} (h : CapAt E s i a d j) (l : List RxHit) :
    nearNumbers E s 1 6 (capHit i a d j :: l) = (none, numberAt E s a d) :: nearNumbers E s 1 6 l ∧
    nearNumbers E s 2 5 (capHit i a d j :: l) = (none, numberAt E s d j) :: nearNumbers E s 2 5 l := by
  have e1 := (groupNumber_eq hE (h.season.run (by decide))).1
  have e2 := (groupNumber_eq hE (h.episode.run (by decide))).1
  constructor <;> simp [nearNumbers, capHit, nearSeparator, List.lookup, e1, e2]

theorem cap_more_number (hE : Usual E) {j d k : Nat} (h : CapMoreAt E s j d k) :
    nearNumbers E s 1 6 [capMoreHit j d k] = [(none, numberAt E s (j + 1) d)] ∧ nearNumbers E s 2 5 [capMoreHit j d k] = [(none, numberAt E s d k)] := by
  have e1 := (groupNumber_eq hE (h.season.run (by decide))).1
  have e2 := (groupNumber_eq hE (h.episode.run (by decide))).1
  have hb := capMore_bounds h
  have h1 : j + 1 < d := hb.1
  constructor
  · simp [nearNumbers, capMoreHit, nearSeparator, List.lookup, e1]
  · simp [nearNumbers, capMoreHit, nearSeparator, List.lookup, e2, h1]

theorem cap_values (hE : Usual E) {i a d j : Nat} (h : CapAt E s i a d j) {d' k : Nat} (h' : CapMoreAt E s j d' k) :
    (chainEpisodes E s [capHit i a d j, capMoreHit j d' k]).map Prod.snd = [numberAt E s d j, numberAt E s d' k] ∧
    (chainSeasons E s [capHit i a d j, capMoreHit j d' k]).map Prod.snd = [numberAt E s a d, numberAt E s (j + 1) d'] := by
  have e1 := (groupNumber_eq hE (h.season.run (by decide))).1
  have e2 := (groupNumber_eq hE (h.episode.run (by decide))).1
  have e3 := (groupNumber_eq hE (h'.season.run (by decide))).1
  have e4 := (groupNumber_eq hE (h'.episode.run (by decide))).1
  constructor <;> simp [chainEpisodes, chainSeasons, chainNumbers, capHit, capMoreHit, List.lookup, e1, e2, e3, e4]

theorem pair_larger {u v : Int} : NewIsLarger [u, v] ↔ u ≤ v := by
  constructor
  · intro h
    rcases h [u] v [] rfl with h | h
    · simp at h; omega
    · exact Int.le_of_lt (h u (by simp))
  · intro h pre w post he
    match pre, he with
    | [], he => exact .inr (by simp)
    | [x], he =>
      simp only [List.cons_append, List.nil_append, List.cons.injEq] at he
      obtain ⟨rfl, rfl, rfl⟩ := he
      by_cases hx : u = v
      · exact .inl (by simp [hx])
      · refine .inr fun y hy => ?_
        obtain rfl := List.mem_singleton.1 hy
        omega
    | x :: y :: pre, he =>
      have := congrArg List.length he
      simp only [List.length_cons, List.length_nil, List.length_append] at this
      omega

theorem weak_pair {a b : Str → Bool} {g u v : Int} : WeakIsClose a b g [(none, u), (none, v)] := by
  rintro p sep w ⟨pre, q, post, he⟩
  match pre, he with
  | [], he => simp at he
  | x :: pre, he =>
    have := congrArg List.length he
    simp only [List.length_cons, List.length_nil, List.length_append] at this
    omega

/-- The two matches are valid together exactly when they stand and the numbers do not decrease. -/
theorem cap_valid_two (hE : Usual E) {i a d j : Nat} (h : CapAt E s i a d j) {d' k : Nat} (h' : CapMoreAt E s j d' k) :
    validLoose E C s [capHit i a d j, capMoreHit j d' k] = true ↔ Standing s i k ∧ numberAt E s a d ≤ numberAt E s (j + 1) d' ∧ numberAt E s d j ≤ numberAt E s d' k := by
  rw [validLoose, (cap_first_number hE h _).1, (cap_first_number hE h _).2, (cap_more_number hE h').1, (cap_more_number hE h').2, show (capHit i a d j).start = i from rfl, Bool.and_eq_true,
    C59_accepted_iff_strong]
  simp only [List.map_cons, List.map_nil, pair_larger]
  have e : lastStop (capHit i a d j).stop [capMoreHit j d' k] = k := rfl
  rw [e, standing_iff]
  constructor
  · rintro ⟨h1, h2, h3, _⟩; exact ⟨h1, h2, h3⟩
  · rintro ⟨h1, h2, h3⟩; exact ⟨h1, h2, h3, .inr weak_pair, .inr weak_pair⟩

theorem cap_valid_one (hE : Usual E) {i a d j : Nat} (h : CapAt E s i a d j) : validLoose E C s [capHit i a d j] = true ↔ Standing s i j := by
  rw [validLoose, (cap_first_number hE h _).1, (cap_first_number hE h _).2, show (capHit i a d j).start = i from rfl, Bool.and_eq_true, C59_accepted_iff_strong]
  have e : lastStop (capHit i a d j).stop [] = j := rfl
  rw [e, standing_iff]
  constructor
  · exact fun h => h.1
  · intro h
    exact ⟨h, newIsLarger_short (by simp [nearNumbers]), newIsLarger_short (by simp [nearNumbers]), .inr (weakIsClose_short (by simp [nearNumbers])),
      .inr (weakIsClose_short (by simp [nearNumbers]))⟩

theorem cap_reports (hE : Usual E) {i a d j : Nat} (h : CapAt E s i a d j) :
    ({ name := c!"season", start := a, stop := d, value := .ok (numberAt E s a d) } : RxMatch Int) ∈ numbersOf E s (capHit i a d j) ∧
    ({ name := c!"episode", start := d, stop := j, value := .ok (numberAt E s d j) } : RxMatch Int) ∈ numbersOf E s (capHit i a d j) := by
  constructor <;>
    simp [numbersOf, capHit, List.lookup, (groupNumber_eq hE (h.season.run (by decide))).2, (groupNumber_eq hE (h.episode.run (by decide))).2]

theorem capMore_reports (hE : Usual E) {j d k : Nat} (h : CapMoreAt E s j d k) :
    ({ name := c!"season", start := j + 1, stop := d, value := .ok (numberAt E s (j + 1) d) } : RxMatch Int) ∈ numbersOf E s (capMoreHit j d k) ∧
    ({ name := c!"episode", start := d, stop := k, value := .ok (numberAt E s d k) } : RxMatch Int) ∈ numbersOf E s (capMoreHit j d k) := by
  constructor <;>
    simp [numbersOf, capMoreHit, List.lookup, (groupNumber_eq hE (h.season.run (by decide))).2, (groupNumber_eq hE (h.episode.run (by decide))).2]

theorem cap_chain (hE : Usual E) {i a d j : Nat} (h : CapAt E s i a d j) (hf : FreeBefore s i) (hj : NoDigitAt E s j) :
    chainOf s ⟨LooseChain.cap.firstRe E, some 1⟩ (LooseChain.cap.rest E) (capHit i a d j) ∈ chains s ⟨LooseChain.cap.firstRe E, some 1⟩ (LooseChain.cap.rest E) := by
  refine chains_complete (rest := LooseChain.cap.rest E) cap_moves (cap_first_head hE h hj) ?_ (cap_before hE h.word hf) _ _ (by omega) (by omega)
  obtain ⟨c, hc, _⟩ := (cap_chars h.word).1
  exact (List.getElem?_eq_some_iff.1 hc).1

theorem cap_chainOf (h : RxHit) : chainOf s ⟨LooseChain.cap.firstRe E, some 1⟩ (LooseChain.cap.rest E) h = h :: (LooseChain.cap.moreRe E).run s 1 h.stop := by
  simp [chainOf, LooseChain.rest, chainTail, Re.run, lastStop]

theorem loose_mem {k : LooseChain} {ks : List RxHit} {z : RxHit} {m : RxMatch Int} (h1 : ks ∈ k.kept E C s) (h2 : z ∈ ks) (h3 : m ∈ numbersOf E s z) : m ∈ k.found E C s :=
  List.mem_flatMap.2 ⟨ks, h1, List.mem_flatMap.2 ⟨z, h2, h3⟩⟩

/-- C145: `cap 112` between separators: the season is reported, and the episode. -/
theorem C145_complete (hE : Usual E) {i a d j : Nat} (h : CapAt E s i a d j) (hst : Standing s i j) :
    ({ name := c!"season", start := a, stop := d, value := .ok (numberAt E s a d) } : RxMatch Int) ∈ LooseChain.cap.found E C s ∧
    ({ name := c!"episode", start := d, stop := j, value := .ok (numberAt E s d j) } : RxMatch Int) ∈ LooseChain.cap.found E C s := by
  obtain ⟨ks, h1, h2⟩ := loose_found (C := C) (k := .cap) (p := [capHit i a d j]) (cap_chain hE h hst.1 (standing_noDigit hE hst.2)) (cap_chainOf _) (by simp)
    (fun n hn => by
      obtain rfl : n = 0 := by simpa using hn
      exact broken_single E C s _) ((cap_valid_one hE h).2 hst) (List.mem_singleton.2 rfl)
  exact ⟨loose_mem h1 h2 (cap_reports hE h).1, loose_mem h1 h2 (cap_reports hE h).2⟩

/-- C145: `cap 112_114` between separators, whatever the separators are, when neither number decreases and they are not further apart than the configured maximum: both seasons
and both episodes are reported. -/
theorem C145_pair (hE : Usual E) {i a d j d' k : Nat} (h : CapAt E s i a d j) (h' : CapMoreAt E s j d' k) (hst : Standing s i k)
    (hs : numberAt E s a d ≤ numberAt E s (j + 1) d') (he : numberAt E s d j ≤ numberAt E s d' k)
    (hs' : numberAt E s (j + 1) d' - numberAt E s a d ≤ C.seasonMax) (he' : numberAt E s d' k - numberAt E s d j ≤ C.episodeMax) :
    (({ name := c!"season", start := a, stop := d, value := .ok (numberAt E s a d) } : RxMatch Int) ∈ LooseChain.cap.found E C s ∧
      ({ name := c!"episode", start := d, stop := j, value := .ok (numberAt E s d j) } : RxMatch Int) ∈ LooseChain.cap.found E C s) ∧
    (({ name := c!"season", start := j + 1, stop := d', value := .ok (numberAt E s (j + 1) d') } : RxMatch Int) ∈ LooseChain.cap.found E C s ∧
      ({ name := c!"episode", start := d', stop := k, value := .ok (numberAt E s d' k) } : RxMatch Int) ∈ LooseChain.cap.found E C s) := by
  have hj : NoDigitAt E s j := by
    obtain ⟨c, h1, h2, _⟩ := h'.sep
    intro z hz hd
    rw [hz, Option.some.injEq] at h1; subst h1
    exact sep_not_digit hE h2 hd
  have heq : chainOf s ⟨LooseChain.cap.firstRe E, some 1⟩ (LooseChain.cap.rest E) (capHit i a d j) = [capHit i a d j, capMoreHit j d' k] ++ [] := by
    rw [cap_chainOf]
    have : (LooseChain.cap.moreRe E).matchAt s j = some (k, [(2, (d', k)), (1, (j + 1, d')), (5, (j, j + 1))]) :=
      matchAt_head (cap_more_head h' (standing_noDigit hE hst.2))
    have e : (capHit i a d j).stop = j := rfl
    rw [e, Re.run, this]
    rfl
  have hb : ∀ n, n < [capHit i a d j, capMoreHit j d' k].length → brokenChain E C s ([capHit i a d j, capMoreHit j d' k].take (n + 1)) = false := by
    intro n hn
    have : n = 0 ∨ n = 1 := by simp only [List.length_cons, List.length_nil] at hn; omega
    rcases this with rfl | rfl
    · exact broken_single E C s _
    · have hv := cap_values hE h h'
      rw [List.take_of_length_le (by simp), brokenChain, chainBreaker, hv.1, hv.2]
      simp only [breaksAt, List.reverse_cons, List.reverse_nil, List.nil_append, List.cons_append, Bool.or_eq_false_iff, decide_eq_false_iff_not]
      omega
  have hkept := fun z hz => loose_found (C := C) (k := .cap) (h := z) (cap_chain hE h hst.1 hj) heq (by simp) hb ((cap_valid_two hE h h').2 ⟨hst, hs, he⟩) hz
  obtain ⟨k1, h1, h2⟩ := hkept (capHit i a d j) (by simp)
  obtain ⟨k2, h3, h4⟩ := hkept (capMoreHit j d' k) (by simp)
  exact ⟨⟨loose_mem h1 h2 (cap_reports hE h).1, loose_mem h1 h2 (cap_reports hE h).2⟩, loose_mem h3 h4 (capMore_reports hE h').1, loose_mem h3 h4 (capMore_reports hE h').2⟩

/-- The match is the season from `a` to `d`, or the episode from `d` to `j`. -/
def CapSays (m : RxMatch Int) (a d j : Nat) : Prop := (m.name = c!"season" ∧ m.start = a ∧ m.stop = d) ∨ (m.name = c!"episode" ∧ m.start = d ∧ m.stop = j)

theorem keepHits_two {broken : List RxHit → Bool} {h0 h1 : RxHit} (hb : broken [h0] = false) : keepHits broken [] [h0, h1] = if broken [h0, h1] then [h0] else [h0, h1] := by
  simp only [keepHits, List.nil_append, hb, List.cons_append]
  rfl

/-- C145: what this chain reports is written so: `cap 112` after a separator and up to one, or `cap 112_114`, of which neither number decreases and the numbers are not further
apart than the configured maximum. -/
theorem C145_sound (hE : Usual E) {m : RxMatch Int} (hm : m ∈ LooseChain.cap.found E C s) : ∃ i a d j, CapAt E s i a d j ∧ FreeBefore s i ∧
    m.value = .ok (numberAt E s m.start m.stop) ∧ ((FreeAfter s j ∧ CapSays m a d j) ∨
      ∃ d' k, CapMoreAt E s j d' k ∧ FreeAfter s k ∧ numberAt E s a d ≤ numberAt E s (j + 1) d' ∧ numberAt E s d j ≤ numberAt E s d' k ∧
        numberAt E s (j + 1) d' - numberAt E s a d ≤ C.seasonMax ∧ numberAt E s d' k - numberAt E s d j ≤ C.episodeMax ∧ (CapSays m a d j ∨ CapSays m (j + 1) d' k)) := by
  simp only [LooseChain.found, LooseChain.kept, List.mem_flatMap, List.mem_map] at hm
  obtain ⟨_, ⟨l, h1, rfl⟩, h, hh, h6⟩ := hm
  obtain ⟨h0, h4, rfl⟩ := chains_sound _ _ h1
  obtain ⟨a, d, hcap, hc⟩ := mem_capFirst.1 (matchAt_mem h4)
  obtain ⟨i, j, c⟩ := h0
  obtain rfl : c = [(2, (d, j)), (1, (a, d)), (3, (i, i + 3))] := hc
  have he0 : (⟨i, j, [(2, (d, j)), (1, (a, d)), (3, (i, i + 3))]⟩ : RxHit) = capHit i a d j := rfl
  rw [he0] at hh
  simp only at hcap
  obtain ⟨h7, h8⟩ := mem_numbersOf h6
  have hvalue : ∀ {a d j : Nat}, CapSays m a d j → (a < d ∧ AllOf s (Digit E) a d) → (d < j ∧ AllOf s (Digit E) d j) → m.value = .ok (numberAt E s m.start m.stop) := by
    intro a d j hs g1 g2
    rw [h8]
    rcases hs with ⟨_, e1, e2⟩ | ⟨_, e1, e2⟩
    · rw [e1, e2]; exact (groupNumber_eq hE g1).2
    · rw [e1, e2]; exact (groupNumber_eq hE g2).2
  have hsay0 : h = capHit i a d j → CapSays m a d j := by
    rintro rfl
    rcases h7 with ⟨e, h7⟩ | ⟨e, h7⟩ <;> simp only [capHit, List.lookup] at h7 <;> simp at h7
    · exact .inl ⟨e, h7.1.symm, h7.2.symm⟩
    · exact .inr ⟨e, h7.1.symm, h7.2.symm⟩
  have hrun : (LooseChain.cap.moreRe E).run s 1 j = [] ∨ ∃ d' k, CapMoreAt E s j d' k ∧ (LooseChain.cap.moreRe E).run s 1 j = [capMoreHit j d' k] := by
    rw [Re.run]
    cases hr : (LooseChain.cap.moreRe E).matchAt s j with
    | none => exact .inl rfl
    | some z =>
      obtain ⟨k, c'⟩ := z
      obtain ⟨d', g1, rfl⟩ := mem_capMore.1 (matchAt_mem hr)
      exact .inr ⟨d', k, g1, rfl⟩
  have hone : h ∈ [capHit i a d j] → validLoose E C s [capHit i a d j] = true → ∃ i a d j, CapAt E s i a d j ∧ FreeBefore s i ∧
      m.value = .ok (numberAt E s m.start m.stop) ∧ (FreeAfter s j ∧ CapSays m a d j) := by
    intro g1 g2
    have hst := (cap_valid_one hE hcap).1 g2
    have hs := hsay0 (List.mem_singleton.1 g1)
    exact ⟨i, a, d, j, hcap, hst.1, hvalue hs (hcap.season.run (by decide)) (hcap.episode.run (by decide)), hst.2, hs⟩
  rw [cap_chainOf] at hh
  have e1 : (capHit i a d j).stop = j := rfl
  rw [e1] at hh
  obtain ⟨p, g1, g2, g3, g4⟩ := trimmed_within (broken_single E C s _) hh
  rcases hrun with hr | ⟨d', k, hmore, hr⟩
  · rw [hr, List.sublist_nil] at g2
    subst g2
    obtain ⟨i, a, d, j, q1, q2, q3, q4⟩ := hone g3 g1
    exact ⟨i, a, d, j, q1, q2, q3, .inl q4⟩
  · rw [hr] at g2 g4
    rw [keepHits_two (broken_single E C s _)] at g4
    by_cases hbr : brokenChain E C s [capHit i a d j, capMoreHit j d' k] = true
    · rw [if_pos hbr] at g4
      obtain ⟨⟨t, g5⟩, _⟩ := trimChain_sound (valid := validLoose E C s) [capHit i a d j].reverse
      rw [g4] at g5
      have hp : p = [] := by
        have := congrArg List.length g5
        simp only [List.reverse_reverse, List.length_cons, List.length_nil, List.length_append] at this
        cases p with
        | nil => rfl
        | cons _ _ => simp only [List.length_cons] at this; omega
      subst hp
      obtain ⟨i, a, d, j, q1, q2, q3, q4⟩ := hone g3 g1
      exact ⟨i, a, d, j, q1, q2, q3, .inl q4⟩
    · have hv := cap_values hE hcap hmore
      rw [Bool.not_eq_true, brokenChain, chainBreaker, hv.1, hv.2] at hbr
      simp only [breaksAt, List.reverse_cons, List.reverse_nil, List.nil_append, List.cons_append, Bool.or_eq_false_iff, decide_eq_false_iff_not] at hbr
      cases p with
      | nil =>
        obtain ⟨i, a, d, j, q1, q2, q3, q4⟩ := hone g3 g1
        exact ⟨i, a, d, j, q1, q2, q3, .inl q4⟩
      | cons x p =>
        obtain ⟨rfl, rfl⟩ : x = capMoreHit j d' k ∧ p = [] := by
          have hl := g2.length_le
          have hm := g2.subset (List.mem_cons_self)
          simp only [List.length_cons, List.length_nil] at hl
          exact ⟨List.mem_singleton.1 hm, List.eq_nil_of_length_eq_zero (by omega)⟩
        obtain ⟨hst, q1, q2⟩ := (cap_valid_two hE hcap hmore).1 g1
        have hsay : CapSays m a d j ∨ CapSays m (j + 1) d' k := by
          rcases List.mem_cons.1 g3 with e | e
          · exact .inl (hsay0 e)
          · obtain rfl := List.mem_singleton.1 e
            refine .inr ?_
            rcases h7 with ⟨e, h7⟩ | ⟨e, h7⟩ <;> simp only [capMoreHit, List.lookup] at h7 <;> simp at h7
            · exact .inl ⟨e, h7.1.symm, h7.2.symm⟩
            · exact .inr ⟨e, h7.1.symm, h7.2.symm⟩
        refine ⟨i, a, d, j, hcap, hst.1, ?_, .inr ⟨d', k, hmore, hst.2, q1, q2, by omega, by omega, hsay⟩⟩
        rcases hsay with hs | hs
        · exact hvalue hs (hcap.season.run (by decide)) (hcap.episode.run (by decide))
        · exact hvalue hs (hmore.season.run (by decide)) (hmore.episode.run (by decide))

/-- C145: of `cap 114_112` nothing of the second number is reported: the season or the episode decreases. -/
theorem C145_decreasing (hE : Usual E) {i a d j d' k : Nat} (h : CapAt E s i a d j) (h' : CapMoreAt E s j d' k) (hst : FreeAfter s k)
    (hdec : numberAt E s (j + 1) d' < numberAt E s a d ∨ numberAt E s d' k < numberAt E s d j) {m : RxMatch Int} (hm : m ∈ LooseChain.cap.found E C s) :
    m.start ≠ j + 1 ∧ m.start ≠ d' := by
  obtain ⟨i1, a1, d1, j1, g1, _, _, g4⟩ := C145_sound hE hm
  have b0 := cap_bounds h
  have b1 := cap_bounds g1
  have b2 := capMore_bounds h'
  have hsep : CharAt s (· ∈ seps) j := by
    obtain ⟨c, hc, hs, _⟩ := h'.sep
    exact ⟨c, hc, hs⟩
  have hnd : ∀ p, CharAt s (Digit E) p → CharAt s (· ∈ seps) p → False := fun p x y => x.false y fun c u v => sep_not_digit hE v u
  -- before the season there is no digit
  have hbefore : ∀ {i a d j : Nat}, CapAt E s i a d j → ¬ CharAt s (Digit E) (a - 1) := by
    intro i a d j h hd
    rcases h.sep with e | ⟨e, hs⟩
    · rw [e, show i + 3 - 1 = i + 2 by omega] at hd
      exact hd.false (cap_chars h.word).2.2 fun c x y => letter_not_digit hE (by decide) y x
    · rw [e, Nat.add_sub_cancel] at hd
      exact hd.false hs fun c x y => sep_not_digit hE y.1 x
  have hdig := capMore_digits h'
  have hdig0 := cap_digits h
  have hdig1 := cap_digits g1
  -- nothing of a first number is there
  have hfirst : ¬ CapSays m a1 d1 j1 ∨ (m.start ≠ j + 1 ∧ m.start ≠ d') := by
    by_cases hs : CapSays m a1 d1 j1
    swap
    · exact .inl hs
    refine .inr ?_
    have key : ∀ q, a1 ≤ q → q < j1 → q = j + 1 ∨ q = d' → False := by
      intro q q1 q2 q3
      by_cases c1 : a1 ≤ j
      · exact hnd j (hdig1 j c1 (by omega)) hsep
      · have c2 : a1 = j + 1 := by
          by_contra c3
          exact hbefore g1 (hdig (a1 - 1) (by omega) (by omega))
        have hp := (cap_chars g1.word).2.2
        rcases g1.sep with e | ⟨e, _⟩
        · have : i1 + 2 = j := by omega
          rw [this] at hp
          exact hp.false hsep fun c x y => by rw [sep_not_letter hE (by decide) y] at x; cases x
        · have : i1 + 2 = j - 1 := by omega
          rw [this] at hp
          exact (hdig0 (j - 1) (by omega) (by omega)).false hp fun c x y => letter_not_digit hE (by decide) y x
    constructor
    · intro e
      rcases hs with ⟨_, e1, _⟩ | ⟨_, e1, _⟩ <;> exact key m.start (by omega) (by omega) (.inl e)
    · intro e
      rcases hs with ⟨_, e1, _⟩ | ⟨_, e1, _⟩ <;> exact key m.start (by omega) (by omega) (.inr e)
  rcases g4 with ⟨_, hs⟩ | ⟨d2, k2, g5, g6, g7, g8, _, _, hs⟩
  · rcases hfirst with h | h
    · exact absurd hs h
    · exact h
  · rcases hs with hs | hs
    · rcases hfirst with h | h
      · exact absurd hs h
      · exact h
    · have b3 := capMore_bounds g5
      have hdig2 := capMore_digits g5
      have hsep2 : CharAt s (· ∈ seps) j1 := by
        obtain ⟨c, hc, hs, _⟩ := g5.sep
        exact ⟨c, hc, hs⟩
      have key : ∀ q, j1 < q → q < k2 → q = j + 1 ∨ q = d' → False := by
        intro q q1 q2 q3
        have ej : j1 = j := by
          rcases Nat.lt_trichotomy j1 j with c | c | c
          · exact (hnd j (hdig2 j (by omega) (by omega)) hsep).elim
          · exact c
          · exact (hnd j1 (hdig j1 (by omega) (by omega)) hsep2).elim
        subst ej
        have ek : k2 = k := by
          rcases Nat.lt_trichotomy k2 k with c | c | c
          · exact (standing_noDigit hE g6 _ (hdig k2 (by omega) c).choose_spec.1 (hdig k2 (by omega) c).choose_spec.2).elim
          · exact c
          · exact (standing_noDigit hE hst _ (hdig2 k (by omega) c).choose_spec.1 (hdig2 k (by omega) c).choose_spec.2).elim
        subst ek
        obtain rfl : d2 = d' := by omega
        obtain rfl : d1 = d := by omega
        have ea : a1 = a := by
          rcases Nat.lt_trichotomy a1 a with c | c | c
          · exact (hbefore h (hdig1 (a - 1) (by omega) (by omega))).elim
          · exact c
          · exact (hbefore g1 (hdig0 (a1 - 1) (by omega) (by omega))).elim
        subst ea
        omega
      constructor
      · intro e
        rcases hs with ⟨_, e1, _⟩ | ⟨_, e1, _⟩ <;> exact key m.start (by omega) (by omega) (.inl e)
      · intro e
        rcases hs with ⟨_, e1, _⟩ | ⟨_, e1, _⟩ <;> exact key m.start (by omega) (by omega) (.inr e)

end
end Guessit
