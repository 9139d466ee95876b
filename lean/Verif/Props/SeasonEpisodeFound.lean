import Verif.Props.SeasonEpisode

/-! # C125: S01E02, and lists of episodes after it -/

namespace Guessit
open Spec Re

section
variable {E : RxEnv} {C : EpisodeConfig} {s : Str}

theorem lookup_hd {n : Nat} {x : Nat × Nat} {l : Caps} : List.lookup n ((n, x) :: l) = some x := by simp [List.lookup]

theorem groupNumber_eq (hE : Usual E) {d j : Nat} (h : d < j ∧ AllOf s (Digit E) d j) : groupNumber E s (d, j) = numberAt E s d j ∧
    pyInt E.u ((s.take j).drop d) = .ok (numberAt E s d j) := by
  have := number_pyInt hE (number_of h.1 h.2)
  exact ⟨by simp only [groupNumber, this]; rfl, this⟩

/-- What remains of a chain is kept. -/
theorem chain_kept {k : EpisodeChain} {hs p q : List RxHit} (hm : hs ∈ chains s (k.first E C) (k.rest E C)) (hpq : hs = p ++ q) (hne : p ≠ [])
    (hb : ∀ n, n < p.length → brokenChain E C s (p.take (n + 1)) = false) (hv : validChain E C s p = true) {h : RxHit} (hh : h ∈ p) :
    ∃ ks ∈ k.kept E C s, h ∈ ks := by
  simp only [EpisodeChain.kept, List.mem_map]
  refine ⟨_, ⟨hs, hm, rfl⟩, ?_⟩
  rw [hpq, keepHits_whole p [] q (by simpa using hb), List.nil_append]
  obtain ⟨l, h1, _⟩ := keepHits_prefix (broken := brokenChain E C s) q p
  rw [h1, List.reverse_append]
  obtain ⟨l', h2⟩ := trimChain_complete hv l.reverse hne
  rw [h2]
  simp [hh]

/-- What remains of a chain is reported. -/
theorem chain_reported {k : EpisodeChain} {hs p q : List RxHit} (hm : hs ∈ chains s (k.first E C) (k.rest E C)) (hpq : hs = p ++ q) (hne : p ≠ [])
    (hb : ∀ n, n < p.length → brokenChain E C s (p.take (n + 1)) = false) (hv : validChain E C s p = true) {h : RxHit} (hh : h ∈ p) {m : RxMatch Int}
    (hn : m ∈ numbersOf E s h) : m ∈ k.found E C s := by
  obtain ⟨ks, h1, h2⟩ := chain_kept hm hpq hne hb hv hh
  exact List.mem_flatMap.2 ⟨ks, h1, List.mem_flatMap.2 ⟨h, h2, hn⟩⟩

/-- What is reported remains of a chain that is valid. -/
theorem reported_chain {k : EpisodeChain} {m : RxMatch Int} (hm : m ∈ k.found E C s) : ∃ h0 hs p, (k.first E C).re.matchAt s h0.start = some (h0.stop, h0.caps) ∧
    chainOf s (k.first E C) (k.rest E C) h0 = h0 :: hs ∧ Follow h0.stop hs ∧ Of s ((k.first E C).re :: (k.rest E C).map ChainPart.re) hs ∧
    p.Sublist (h0 :: hs) ∧ validChain E C s p = true ∧ ∃ h ∈ p, m ∈ numbersOf E s h := by
  simp only [EpisodeChain.found, EpisodeChain.kept, List.mem_flatMap, List.mem_map] at hm
  obtain ⟨_, ⟨l, h1, rfl⟩, h, h2, h3⟩ := hm
  obtain ⟨h0, h4, rfl⟩ := chains_sound _ _ h1
  obtain ⟨hs, h5, h6, h7⟩ := chainOf_cons s (k.first E C) (k.rest E C) h0
  obtain ⟨⟨l, h8⟩, h9⟩ := trimChain_sound (valid := validChain E C s) (keepHits (brokenChain E C s) [] (chainOf s (k.first E C) (k.rest E C) h0)).reverse
  refine ⟨h0, hs, _, h4, h5, h6, h7, ?_, h9 (List.ne_nil_of_mem h2), h, h2, h3⟩
  obtain ⟨l', g1, g2⟩ := keepHits_prefix (broken := brokenChain E C s) (chainOf s (k.first E C) (k.rest E C) h0) []
  rw [List.reverse_reverse] at h8
  rw [List.nil_append] at g1
  rw [← h5]
  refine List.Sublist.trans ?_ g2
  have h10 := List.sublist_append_left (trimChain (validChain E C s) (keepHits (brokenChain E C s) [] (chainOf s (k.first E C) (k.rest E C) h0)).reverse) l
  rw [← h8] at h10
  rw [← g1]
  exact h10

/-! ## Words -/

theorem seps_avoid (hE : Usual E) (hL : Literal E) {w : Str} (hw : ∀ c ∈ w, c ∈ c!"abcdefghijklmnopqrstuvwxyz&" ++ seps) : ∀ l ∈ w, ∀ c, E.same l c = true → ¬ Digit E c := by
  intro l hl c hs hd
  have hall : ∀ l ∈ c!"abcdefghijklmnopqrstuvwxyz&" ++ seps, l ∈ c!"abcdefghijklmnopqrstuvwxyz" ∨ l ∈ c!"&" ++ seps := by decide
  rcases hall l (hw l hl) with h | h
  · exact letter_not_digit hE h hs hd
  · obtain rfl := (hL l h c).1 hs
    rcases List.mem_append.1 h with h | h
    · have : c = '&' := by simpa using h
      subst this
      have := hE.digit '&' (by decide)
      simp only [Digit, Uni.isDigit, this] at hd
      exact absurd hd (by decide)
    · exact sep_not_digit hE h hd

theorem weak_seps {w : Str} (h : w ∈ C.weak) : ∃ c ∈ seps, w = [c] := by
  simp only [EpisodeConfig.weak, List.mem_filter, List.mem_map] at h
  obtain ⟨⟨c, h1, rfl⟩, _⟩ := h
  exact ⟨c, (sepsNoFs_iff.1 (List.contains_iff_mem.2 h1)).1, rfl⟩

/-- The words before a number of a list. -/
def moreWords (C : EpisodeConfig) : List Str := C.episodeMarkers ++ C.discMarkers ++ C.separators

theorem moreWords_cases {w : Str} (h : w ∈ moreWords C) : (w ∈ C.episodeMarkers ++ C.discMarkers) ∨ (w ∈ C.rangeSeparators ++ C.discreteSeparators) ∨ w ∈ C.weak := by
  simp only [moreWords, EpisodeConfig.separators, List.mem_append] at h ⊢
  tauto

theorem separators_avoid (hE : Usual E) (hL : Literal E) (hC : PlainEpisodes C) {ws : List Str} (hws : ∀ w ∈ ws, Lettered w) :
    Avoids E (ws ++ C.separators) (Digit E) := by
  intro w hw
  have hw' : w ∈ ws ∨ w ∈ C.rangeSeparators ++ C.discreteSeparators ∨ w ∈ C.weak := by
    simp only [EpisodeConfig.separators, List.mem_append] at hw ⊢
    tauto
  rcases hw' with h | h | h
  · exact ⟨(hws w h).1, fun l hl c hs => letter_not_digit hE ((hws w h).2 l hl) hs⟩
  · exact ⟨(hC.separators w h).1, seps_avoid hE hL (hC.separators w h).2⟩
  · obtain ⟨c, hc, rfl⟩ := weak_seps h
    refine ⟨by simp, seps_avoid hE hL ?_⟩
    intro x hx
    rw [List.mem_singleton.1 hx]
    exact List.mem_append_right _ hc

theorem moreWords_avoid (hE : Usual E) (hL : Literal E) (hC : PlainEpisodes C) : Avoids E (moreWords C) (Digit E) :=
  separators_avoid hE hL hC fun w h => hC.markers w (by
    rcases List.mem_append.1 h with h | h <;> simp [h])

/-- A character that begins a word for seasons. -/
def Begins (E : RxEnv) (C : EpisodeConfig) (c : Char) : Prop := ∃ w ∈ C.seasonMarkers, ∃ l, w.head? = some l ∧ E.same l c = true

theorem begins_letter (hC : PlainEpisodes C) {c : Char} (h : Begins E C c) : ∃ l ∈ c!"abcdefghijklmnopqrstuvwxyz", E.same l c = true ∧
    ∀ w' ∈ C.episodeMarkers ++ C.discMarkers ++ C.rangeSeparators ++ C.discreteSeparators, l ∉ w' := by
  obtain ⟨w, h1, l, h2, h3⟩ := h
  exact ⟨l, (hC.markers w (by simp [h1])).2 l (List.mem_of_head? h2), h3, hC.apart w h1 l h2⟩

theorem begins_not_sep (hE : Usual E) (hC : PlainEpisodes C) {c : Char} (h : Begins E C c) : c ∉ seps := by
  obtain ⟨l, h1, h2, _⟩ := begins_letter hC h
  intro hc
  rw [sep_not_letter hE h1 hc] at h2; cases h2

theorem begins_not_digit (hE : Usual E) (hC : PlainEpisodes C) {c : Char} (h : Begins E C c) : ¬ Digit E c := by
  obtain ⟨l, h1, h2, _⟩ := begins_letter hC h
  exact letter_not_digit hE h1 h2

theorem moreWords_begins (hE : Usual E) (hL : Literal E) (hC : PlainEpisodes C) : Avoids E (moreWords C) (Begins E C) := by
  intro w hw
  refine ⟨(moreWords_avoid hE hL hC w hw).1, ?_⟩
  intro l hl c hs hb
  obtain ⟨l0, h1, h2, h3⟩ := begins_letter hC hb
  have hamp : E.same l0 '&' = false := by
    cases h : E.same l0 '&' with
    | false => rfl
    | true =>
      have := (hE.same l0 h1 '&' (by decide)).1 h
      have hall : ∀ l ∈ c!"abcdefghijklmnopqrstuvwxyz", '&' ≠ l ∧ '&' ≠ l.toUpper := by decide
      have h5 := hall l0 h1
      rcases this with h | h
      · exact absurd h h5.1
      · exact absurd h h5.2
  have hlit : ∀ l ∈ c!"abcdefghijklmnopqrstuvwxyz&" ++ seps, E.same l c = true → l = l0 := by
    intro l hl hs
    have hall : ∀ l ∈ c!"abcdefghijklmnopqrstuvwxyz&" ++ seps, l ∈ c!"abcdefghijklmnopqrstuvwxyz" ∨ l ∈ c!"&" ++ seps := by decide
    rcases hall l hl with h | h
    · exact hE.apart l h l0 h1 c hs h2
    · obtain rfl := (hL l h c).1 hs
      rcases List.mem_append.1 h with h | h
      · have : c = '&' := by simpa using h
        subst this
        rw [hamp] at h2; cases h2
      · exact absurd h (begins_not_sep hE hC hb)
  rcases moreWords_cases hw with h | h | h
  · have hlet := hC.markers w (by rcases List.mem_append.1 h with h | h <;> simp [h])
    have := hE.apart l (hlet.2 l hl) l0 h1 c hs h2
    subst this
    exact h3 w (by rcases List.mem_append.1 h with h | h <;> simp [h]) hl
  · have := hlit l ((hC.separators w h).2 l hl) hs
    subst this
    exact h3 w (by rcases List.mem_append.1 h with h | h <;> simp [h]) hl
  · obtain ⟨x, hx, rfl⟩ := weak_seps h
    rw [List.mem_singleton.1 hl] at hs
    obtain rfl := (hL x (List.mem_append_right _ hx) c).1 hs
    exact begins_not_sep hE hC hb hx

theorem mark_begins (hC : PlainEpisodes C) {i a : Nat} (h : MarkAt E C.seasonMarkers s i a) : i < a ∧ CharAt s (Begins E C) i := by
  obtain ⟨w, h1, h2, rfl⟩ := h
  obtain ⟨l, w', rfl⟩ := List.exists_cons_of_ne_nil (hC.markers w (by simp [h1])).1
  obtain ⟨c, h3, h4⟩ := h2 0 l rfl
  exact ⟨by simp, c, h3, _, h1, l, rfl, h4⟩

/-! ## Lists -/

/-- The match of an item of a list. -/
def itemHit (n g : Nat) (x : Nat × Nat × Nat) : RxHit := ⟨x.1, x.2.2, [(n, (x.2.1, x.2.2)), (g, (x.1, x.2.1))]⟩

theorem listed_grow {ws : List Str} (hw : Avoids E ws (Digit E)) {i k : Nat} {l : List (Nat × Nat × Nat)} (h : ListedAt E ws s i l k) :
    i + l.length ≤ k ∧ (l ≠ [] → k ≤ s.length) := by
  induction h with
  | nil => simp
  | cons h1 h2 ih =>
    have g1 := (h1.mark.first hw).1
    have g2 := h1.number.1
    have g3 := h1.number.2.le g2
    refine ⟨by simp only [List.length_cons]; omega, fun _ => ?_⟩
    cases h2 with
    | nil => exact g3
    | cons _ _ => exact ih.2 (by simp)

theorem listed_start {ws : List Str} (hw : Avoids E ws (Digit E)) {i k : Nat} {l : List (Nat × Nat × Nat)} (h : ListedAt E ws s i l k) (hk : NoDigitAt E s k) :
    NoDigitAt E s i := by
  cases h with
  | nil => exact hk
  | cons h1 _ =>
    intro z hz hd
    obtain ⟨z', hz', h4⟩ := (h1.mark.first hw).2 i (by omega) (h1.mark.first hw).1
    rw [hz, Option.some.injEq] at hz'; subst hz'
    exact h4 hd

theorem run_listed {ws : List Str} (hw : Avoids E ws (Digit E)) {n g i k : Nat} {l : List (Nat × Nat × Nat)} (h : ListedAt E ws s i l k) (hk : NoDigitAt E s k) :
    ∀ f, l.length ≤ f → ∃ more, (Re.cat [.grp g (E.words ws), .grp n E.digits]).run s f i = l.map (itemHit n g) ++ more := by
  induction h with
  | nil => intro f _; exact ⟨_, rfl⟩
  | cons h1 h2 ih =>
    intro f hf
    cases f with
    | zero => simp at hf
    | succ f =>
      obtain ⟨more, h3⟩ := ih hk f (by simpa using hf)
      refine ⟨more, ?_⟩
      rw [Re.run, matchAt_head (marked_head hw h1 (listed_start hw h2 hk))]
      simp only [h3, List.map_cons, List.cons_append]
      rfl

theorem lastStop_items {ws : List Str} {n g i k : Nat} {l : List (Nat × Nat × Nat)} (h : ListedAt E ws s i l k) : lastStop i (l.map (itemHit n g)) = k := by
  induction h with
  | nil => rfl
  | cons _ _ ih => exact ih

theorem numbers_items (hE : Usual E) {ws : List Str} {i k : Nat} {l : List (Nat × Nat × Nat)} (h : ListedAt E ws s i l k) {n g : Nat} (hng : n ≠ g) :
    chainNumbers E s n g (l.map (itemHit n g)) = l.map fun x => (some (textOf s x.1 x.2.1), numberAt E s x.2.1 x.2.2) := by
  induction h with
  | nil => rfl
  | cons h1 _ ih =>
    simp only [List.map_cons, chainNumbers, List.filterMap_cons] at ih ⊢
    simp only [itemHit, lookup_hd, Option.map_some]
    rw [(groupNumber_eq hE h1.number).1]
    have : (g == n) = false := by simpa using Ne.symm hng
    simp only [List.lookup, this, beq_self_eq_true, Option.map_some]
    exact congrArg _ ih

theorem numbers_none {n g n' g' : Nat} (h1 : n' ≠ n) (h2 : n' ≠ g) (l : List (Nat × Nat × Nat)) : chainNumbers E s n' g' (l.map (itemHit n g)) = [] := by
  induction l with
  | nil => rfl
  | cons x l ih =>
    simp only [List.map_cons, chainNumbers, List.filterMap_cons] at ih ⊢
    have e1 : (n' == n) = false := by simpa using h1
    have e2 : (n' == g) = false := by simpa using h2
    simp only [itemHit, List.lookup, e1, e2, Option.map_none]
    exact ih

end
end Guessit
