import Verif.Props.EpisodeWords

/-! # C130: S01ExAll; C131: versions -/

namespace Guessit
open Spec Re

section
variable {E : RxEnv} {W : EpisodeWords} {s : Str}

/-- The markers between a season and `All`. -/
def allMarks : List Str := [c!"xe", c!"ex", c!"e", c!"x"]

theorem allMarks_lettered : ∀ w ∈ allMarks, Lettered w := by
  intro w hw
  have : ∀ w ∈ allMarks, w ≠ [] ∧ ∀ c ∈ w, c ∈ c!"abcdefghijklmnopqrstuvwxyz" := by decide
  exact this w hw

/-- The first letter of `All`. -/
def AllFirst (E : RxEnv) (W : EpisodeWords) (c : Char) : Prop := ∃ w ∈ W.allWords, ∃ l, w.head? = some l ∧ E.same l c = true

theorem allFirst_letter (hW : PlainWords W) {c : Char} (h : AllFirst E W c) : ∃ l ∈ c!"abcdefghijklmnopqrstuvwxyz", l ∉ c!"sex" ∧ E.same l c = true := by
  obtain ⟨w, h1, l, h2, h3⟩ := h
  refine ⟨l, (hW.all w h1).2 l ?_, hW.allFirst w h1 l h2, h3⟩
  cases w with
  | nil => cases h2
  | cons x w => cases h2; simp

theorem all_first (hW : PlainWords W) {d j : Nat} (h : MarkAt E W.allWords s d j) : CharAt s (AllFirst E W) d := by
  obtain ⟨w, h1, h2, _⟩ := h
  have := hW.all w h1
  cases w with
  | nil => exact absurd rfl this.1
  | cons l w =>
    obtain ⟨c, g1, g2⟩ := (Spec.LiteralAt.cons.1 h2).1
    exact ⟨c, g1, _, h1, l, rfl, g2⟩

theorem allMarks_avoid (hE : Usual E) (hW : PlainWords W) : Avoids E allMarks fun c => c ∈ seps ∨ AllFirst E W c := by
  intro w hw
  have hall : ∀ w ∈ allMarks, w ≠ [] ∧ ∀ c ∈ w, c ∈ c!"abcdefghijklmnopqrstuvwxyz" ∧ c ∈ c!"sex" := by decide
  refine ⟨(hall w hw).1, fun l hl c hs hc => ?_⟩
  have := (hall w hw).2 l hl
  rcases hc with hc | hc
  · rw [sep_not_letter hE this.1 hc] at hs; cases hs
  · obtain ⟨l', h1, h2, h3⟩ := allFirst_letter hW hc
    rw [hE.apart l this.1 l' h1 c hs h3] at this
    exact h2 this.2

/-- Words of letters written at the same place, one of them no longer than the other: it is its beginning. -/
theorem literal_prefix (hE : Usual E) : ∀ {w w' : Str}, (∀ c ∈ w, c ∈ c!"abcdefghijklmnopqrstuvwxyz") → (∀ c ∈ w', c ∈ c!"abcdefghijklmnopqrstuvwxyz") → ∀ {i : Nat},
    LiteralAt E s w i → LiteralAt E s w' i → w.length ≤ w'.length → w <+: w'
  | [], w', _, _, _, _, _, _ => List.nil_prefix
  | l :: w, [], _, _, _, _, _, h => by simp at h
  | l :: w, l' :: w', hw, hw', i, h1, h2, h => by
    obtain ⟨a1, b1⟩ := Spec.LiteralAt.cons.1 h1
    obtain ⟨a2, b2⟩ := Spec.LiteralAt.cons.1 h2
    obtain ⟨c, g1, g2⟩ := a1
    obtain ⟨c', g3, g4⟩ := a2
    rw [g1] at g3; cases g3
    obtain rfl := hE.apart l (hw l (by simp)) l' (hw' l' (by simp)) c g2 g4
    rw [List.cons_prefix_cons]
    exact ⟨rfl, literal_prefix hE (fun c hc => hw c (by simp [hc])) (fun c hc => hw' c (by simp [hc])) b1 b2 (by simpa using h)⟩

theorem all_unique (hE : Usual E) (hW : PlainWords W) {d j j' : Nat} (h : MarkAt E W.allWords s d j) (h' : MarkAt E W.allWords s d j') : j' = j := by
  obtain ⟨w, h1, h2, rfl⟩ := h
  obtain ⟨w', h3, h4, rfl⟩ := h'
  rcases Nat.le_total w.length w'.length with hl | hl
  · rw [hW.allWhole w h1 w' h3 (literal_prefix hE (hW.all w h1).2 (hW.all w' h3).2 h2 h4 hl)]
  · rw [hW.allWhole w' h3 w h1 (literal_prefix hE (hW.all w' h3).2 (hW.all w h1).2 h4 h2 hl)]

theorem allGroup_head (hE : Usual E) (hW : PlainWords W) {d j : Nat} {c : Caps} (h : MarkAt E W.allWords s d j) :
    ((Re.grp 7 (E.words W.allWords)).exec s d c).head? = some (j, (7, (d, j)) :: c) := by
  refine grp_head ?_
  have hmem : (j, c) ∈ (E.words W.allWords).exec s d c := mem_anyWord.2 ⟨h, rfl⟩
  cases hh : ((E.words W.allWords).exec s d c).head? with
  | none => rw [List.head?_eq_none_iff] at hh; rw [hh] at hmem; cases hmem
  | some x =>
    obtain ⟨j', c'⟩ := x
    obtain ⟨h1, rfl⟩ := mem_anyWord.1 (List.mem_of_head? hh)
    rw [all_unique hE hW h h1]

theorem mem_all {i j : Nat} {c : Caps} : (j, c) ∈ (allPattern E W).re.exec s i [] ↔ ∃ a b d, CompleteAt E W s i a b d j ∧ c = [(7, (d, j)), (1, (a, b))] := by
  have hopt : ∀ j c1, (j, c1) ∈ (E.letter 's').exec s i [] → j ≠ i := by
    intro j c1 h
    obtain ⟨_, h, _⟩ := mem_letter.1 h
    omega
  have : (allPattern E W).re = Re.cat [.opt (E.letter 's'), .grp 1 E.digits, dashRe, E.words allMarks, dashRe, .grp 7 (E.words W.allWords)] := rfl
  rw [this]
  simp only [Re.cat, mem_seq, mem_optional hopt, mem_letter, mem_run, mem_dash, mem_anyWord, mem_mark, mem_eps]
  constructor
  · rintro ⟨a, c1, h0, b, c2, ⟨h1, rfl⟩, x, c3, ⟨h2, rfl⟩, y, c4, ⟨h3, rfl⟩, d, c5, ⟨h4, rfl⟩, j', c6, ⟨h5, rfl⟩, rfl, rfl⟩
    rcases h0 with ⟨h0, rfl, rfl⟩ | ⟨rfl, rfl⟩
    · exact ⟨_, b, d, ⟨.inr ⟨rfl, h0⟩, h1, ⟨x, y, h2, h3, h4⟩, h5⟩, rfl⟩
    · exact ⟨_, b, d, ⟨.inl rfl, h1, ⟨x, y, h2, h3, h4⟩, h5⟩, rfl⟩
  · rintro ⟨a, b, d, ⟨h0, h1, ⟨x, y, h2, h3, h4⟩, h5⟩, rfl⟩
    refine ⟨a, [], ?_, b, _, ⟨h1, rfl⟩, x, _, ⟨h2, rfl⟩, y, _, ⟨h3, rfl⟩, d, _, ⟨h4, rfl⟩, j, _, ⟨h5, rfl⟩, rfl, rfl⟩
    rcases h0 with rfl | ⟨rfl, h0⟩
    · exact .inr ⟨rfl, rfl⟩
    · exact .inl ⟨h0, rfl, rfl⟩

theorem Spec.CompleteAt.unique (hE : Usual E) (hW : PlainWords W) {i a b d j a' b' d' j' : Nat} (h : CompleteAt E W s i a b d j) (h' : CompleteAt E W s i a' b' d' j') :
    a' = a ∧ b' = b ∧ d' = d ∧ j' = j := by
  obtain ⟨h0, h1, ⟨x, y, h2, h3, h4⟩, h5⟩ := h
  obtain ⟨g0, g1, ⟨x', y', g2, g3, g4⟩, g5⟩ := h'
  have hs : ∀ {a b : Nat}, (a < b ∧ AllOf s (Digit E) a b) → CharAt s (fun c => E.same 's' c = true) a → False := fun h g =>
    (digits_char h).false g fun c a b => letter_not_digit hE (by decide) b a
  have ha : a' = a := by
    rcases h0 with rfl | ⟨rfl, h0⟩ <;> rcases g0 with rfl | ⟨rfl, g0⟩
    · rfl
    · exact (hs h1 g0).elim
    · exact (hs g1 h0).elim
    · rfl
  subst ha
  have hav := lettered_avoids hE allMarks_lettered
  have hjs : ∀ {b d : Nat}, JoinAt E allMarks s b d → NoDigitAt E s b := fun h c hc hd =>
    (join_start hE allMarks_lettered h).false ⟨c, hc, hd⟩ fun c a b => a b
  have hb : b' = b := by
    have n1 := hjs ⟨x, y, h2, h3, h4⟩
    have n2 := hjs ⟨x', y', g2, g3, g4⟩
    have l1 := noDigit_bound n1 (Nat.le_of_lt h1.1) g1.2
    have l2 := noDigit_bound n2 (Nat.le_of_lt g1.1) h1.2
    omega
  subst hb
  have hx : x' = x := by
    obtain ⟨w, m1, m2, _⟩ := h3
    obtain ⟨w', m3, m4, _⟩ := g3
    exact (sep_word hE (allMarks_lettered w m1) (allMarks_lettered w' m3) h2 m2 g2 m4).symm
  subst hx
  have hP := allMarks_avoid hE hW
  obtain rfl := mark_unique hP h3 g3 (maybeSep_char h4 (all_first hW h5)) (maybeSep_char g4 (all_first hW g5))
  have hd : d' = d := by
    obtain ⟨w, m1, m2, _⟩ := h5
    obtain ⟨w', m3, m4, _⟩ := g5
    exact (sep_word hE (hW.all w m1) (hW.all w' m3) h4 m2 g4 m4).symm
  subst hd
  exact ⟨rfl, rfl, rfl, all_unique hE hW h5 g5⟩

theorem all_matchAt (hE : Usual E) (hW : PlainWords W) {i j : Nat} {c : Caps} : (allPattern E W).re.matchAt s i = some (j, c) ↔
    ∃ a b d, CompleteAt E W s i a b d j ∧ c = [(7, (d, j)), (1, (a, b))] := by
  constructor
  · intro h; exact mem_all.1 (matchAt_mem h)
  · rintro ⟨a, b, d, h, rfl⟩
    refine matchAt_unique (mem_all.2 ⟨a, b, d, h, rfl⟩) ?_
    intro j' c' hm
    obtain ⟨a', b', d', h', rfl⟩ := mem_all.1 hm
    obtain ⟨rfl, rfl, rfl, rfl⟩ := h.unique hE hW h'
    exact ⟨rfl, rfl⟩

theorem complete_lt (hE : Usual E) (hW : PlainWords W) {i a b d j : Nat} (h : CompleteAt E W s i a b d j) : i ≤ a ∧ b < d ∧ d < j := by
  have h1 := join_le hE allMarks_lettered h.join
  have h2 := (h.all.first (lettered_avoids hE hW.all)).1
  refine ⟨?_, h1, h2⟩
  rcases h.mark with h | ⟨h, _⟩ <;> omega

theorem all_eats (hE : Usual E) (hW : PlainWords W) : (allPattern E W).re.Eats := by
  intro s i j c _ h
  obtain ⟨a, b, d, h, _⟩ := (all_matchAt hE hW).1 h
  have := complete_lt hE hW h
  have := h.season.1
  omega

/-- No earlier match reaches a season that stands after a separator. -/
theorem all_clear (hE : Usual E) (hW : PlainWords W) {i a b d j : Nat} (h : CompleteAt E W s i a b d j) (hf : FreeBefore s i) {i' j' : Nat} {c' : Caps} (hlt : i' < i)
    (hm : (allPattern E W).re.matchAt s i' = some (j', c')) : j' ≤ i := by
  have hsep : CharAt s (· ∈ seps) (i - 1) := by
    rcases hf with h | h
    · omega
    · exact h
  -- the first character is a digit or the letter s
  have hfirst : CharAt s (fun c => Digit E c ∨ E.same 's' c = true) i := by
    rcases h.mark with rfl | ⟨rfl, h0⟩
    · obtain ⟨c, g1, g2⟩ := digits_char h.season
      exact ⟨c, g1, .inl g2⟩
    · obtain ⟨c, g1, g2⟩ := h0
      exact ⟨c, g1, .inr g2⟩
  have hnot : ∀ l ∈ c!"abcdefghijklmnopqrstuvwxyz", l ≠ 's' → ¬ CharAt s (fun c => E.same l c = true) i := by
    intro l hl hne hc
    refine hfirst.false hc fun c a b => ?_
    rcases a with a | a
    · exact letter_not_digit hE hl b a
    · exact hne (hE.apart l hl 's' (by decide) c b a)
  have hnd' : ∀ {p q : Nat}, AllOf s (Digit E) p q → ¬ (p ≤ i - 1 ∧ i - 1 < q) := fun h ⟨h1, h2⟩ => (h (i - 1) h1 h2).false hsep fun c a b => sep_not_digit hE b a
  have hns : ∀ {p q : Nat}, MaybeSep s p q → ¬ (p ≤ i ∧ i < q) := by
    rintro p q h ⟨h1, h2⟩
    rcases h with h | ⟨h, hs⟩
    · omega
    · rw [show p = i by omega] at hs
      refine hs.false hfirst fun c a b => ?_
      rcases b with b | b
      · exact sep_not_digit hE a.1 b
      · rw [sep_not_letter hE (by decide) a.1] at b; cases b
  have hnm : ∀ {ws : List Str} {p q : Nat}, (∀ w ∈ ws, Lettered w) → MarkAt E ws s p q → ¬ (p ≤ i - 1 ∧ i - 1 < q) := by
    rintro ws p q hw h ⟨h1, h2⟩
    exact ((h.first (lettered_avoids hE hw)).2 (i - 1) h1 h2).false hsep fun c a b => a (.inl b)
  -- a word begins with another letter
  have hnf : ∀ {ws : List Str} {q : Nat}, (∀ w ∈ ws, Lettered w ∧ ∀ l, w.head? = some l → l ≠ 's') → ¬ MarkAt E ws s i q := by
    rintro ws q hw ⟨w, m1, m2, _⟩
    obtain ⟨m3, m4⟩ := hw w m1
    cases w with
    | nil => exact m3.1 rfl
    | cons l w => exact hnot l (m3.2 l (by simp)) (m4 l rfl) (Spec.LiteralAt.cons.1 m2).1
  obtain ⟨a', b', d', g, _⟩ := (all_matchAt hE hW).1 hm
  by_contra hcon
  obtain ⟨g0, g1, ⟨x, y, g2, g3, g4⟩, g5⟩ := g
  have k1 := hnd' g1.2
  have k2 := hns g2
  have k3 := hnm allMarks_lettered g3
  have k4 := hns g4
  have k5 := hnm hW.all g5
  have l2 := maybeSep_le g2
  have l4 := maybeSep_le g4
  have k6 : i ≠ x := by
    rintro rfl
    refine hnf (fun w hw => ⟨allMarks_lettered w hw, ?_⟩) g3
    have : ∀ w ∈ allMarks, ∀ l ∈ w, l ≠ 's' := by decide
    intro l hl
    refine this w hw l ?_
    cases w with
    | nil => cases hl
    | cons x w => cases hl; simp
  have k7 : i ≠ d' := by
    rintro rfl
    refine hnf (fun w hw => ⟨hW.all w hw, ?_⟩) g5
    rintro l hl rfl
    exact hW.allFirst w hw 's' hl (by decide)
  have k8 : ¬ (i' = i - 1 ∧ a' = i) := by
    rintro ⟨rfl, rfl⟩
    rcases g0 with g0 | ⟨_, g0⟩
    · omega
    · exact g0.false hsep fun c a b => by rw [sep_not_letter hE (by decide) b] at a; cases a
  have k9 : a' = i' ∨ a' = i' + 1 := by
    rcases g0 with g0 | ⟨g0, _⟩
    · exact .inl g0
    · exact .inr g0
  have := g1.1
  have := (g3.first (lettered_avoids hE allMarks_lettered)).1
  have := (g5.first (lettered_avoids hE hW.all)).1
  omega

theorem all_accepts {h : RxHit} : (allPattern E W).accepts s h = sepsSurround s h.start h.stop := by
  simp [RxPattern.accepts, allPattern, surrounded, RxPattern.parent]

theorem all_kids (hE : Usual E) (hW : PlainWords W) {i a b d j : Nat} (h : CompleteAt E W s i a b d j) :
    (allPattern E W).kids s ⟨i, j, [(7, (d, j)), (1, (a, b))]⟩ = [⟨c!"season", a, b, .ok (.int (numberAt E s a b))⟩, ⟨c!"other", d, j, .ok (.str c!"Complete")⟩] := by
  have he := (groupNumber_eq hE h.season).2
  have hd := (complete_lt hE hW h).2.2
  simp [RxPattern.kids, allPattern, h.season.1, hd, List.lookup, he, Except.map]

/-- C130: a season is reported as complete exactly where `S01ExAll`, or `1xAll`, stands by itself: the season is its number, and `Complete` is reported at `All`. -/
theorem C130_exact (hE : Usual E) (hW : PlainWords W) (m : RxMatch MVal) : m ∈ (allPattern E W).found s ↔
    ∃ i a b d j, CompleteAt E W s i a b d j ∧ Standing s i j ∧
      (m = ⟨c!"season", a, b, .ok (.int (numberAt E s a b))⟩ ∨ m = ⟨c!"other", d, j, .ok (.str c!"Complete")⟩) := by
  rw [mem_found]
  have hch : (allPattern E W).children = true := rfl
  constructor
  · rintro ⟨⟨i, j, c⟩, hh, ha, hm⟩
    rw [hch, if_pos rfl] at hm
    rw [all_accepts, standing_iff] at ha
    obtain ⟨h1, _⟩ := hits_sound hh
    simp only at h1
    obtain ⟨a, b, d, hw, rfl⟩ := (all_matchAt hE hW).1 h1
    rw [all_kids hE hW hw] at hm
    exact ⟨i, a, b, d, j, hw, ha, by simpa using hm⟩
  · rintro ⟨i, a, b, d, j, hw, hs, hm⟩
    refine ⟨⟨i, j, _⟩, hits_complete (all_eats hE hW) ((all_matchAt hE hW).2 ⟨a, b, d, hw, rfl⟩) ?_ ?_, ?_, ?_⟩
    · have := (complete_lt hE hW hw).1
      have := hw.season.2.le hw.season.1
      have := hw.season.1
      omega
    · intro i' j' c' hlt hm'
      exact all_clear hE hW hw hs.1 hlt hm'
    · rw [all_accepts, standing_iff]; exact hs
    · rw [hch, if_pos rfl, all_kids hE hW hw]; simpa using hm

/-! ## Versions -/

theorem version_eats : (versionPattern E).re.Eats := by
  intro s i j c _ h
  have := (mem_version.1 (matchAt_mem h)).1.2.1
  omega

/-- C131: a version is reported exactly where `v` and a number stand by themselves. -/
theorem C131_exact (hE : Usual E) (m : RxMatch Int) : m ∈ (versionPattern E).found s ↔
    ∃ i j, VersionAt E s i j ∧ Standing s i j ∧ m = ⟨c!"version", i + 1, j, .ok (numberAt E s (i + 1) j)⟩ := by
  rw [mem_found]
  have hch : (versionPattern E).children = true := rfl
  have hacc : ∀ h : RxHit, (versionPattern E).accepts s h = sepsSurround s h.start h.stop := by
    intro h; simp [RxPattern.accepts, versionPattern, surrounded, RxPattern.parent]
  have hk : ∀ {i j : Nat}, VersionAt E s i j → (versionPattern E).kids s ⟨i, j, [(8, (i + 1, j))]⟩ = [⟨c!"version", i + 1, j, .ok (numberAt E s (i + 1) j)⟩] := by
    intro i j h
    have he := (groupNumber_eq hE h.2).2
    simp [RxPattern.kids, versionPattern, h.2.1, List.lookup, he]
  constructor
  · rintro ⟨⟨i, j, c⟩, hh, ha, hm⟩
    rw [hch, if_pos rfl] at hm
    rw [hacc, standing_iff] at ha
    obtain ⟨h1, _⟩ := hits_sound hh
    simp only at h1
    obtain ⟨h2, rfl⟩ := mem_version.1 (matchAt_mem h1)
    rw [hk h2] at hm
    exact ⟨i, j, h2, ha, by simpa using hm⟩
  · rintro ⟨i, j, h, hs, rfl⟩
    refine ⟨⟨i, j, _⟩, hits_complete version_eats (matchAt_head (version_head h (standing_noDigit hE hs.2))) ?_ ?_, ?_, ?_⟩
    · have := h.2.2.le h.2.1
      have := h.2.1
      omega
    · intro i' j' c' hlt hm'
      obtain ⟨g1, g2, g3⟩ := (mem_version.1 (matchAt_mem hm')).1
      have hsep : CharAt s (· ∈ seps) (i - 1) := by
        rcases hs.1 with h | h
        · omega
        · exact h
      by_contra hcon
      by_cases hi : i' = i - 1
      · subst hi
        exact g1.false hsep fun c a b => by rw [sep_not_letter hE (by decide) b] at a; cases a
      · exact (g3 (i - 1) (by omega) (by omega)).false hsep fun c a b => sep_not_digit hE b a
    · rw [hacc, standing_iff]; exact hs
    · rw [hch, if_pos rfl, hk h]; simp

end
end Guessit
