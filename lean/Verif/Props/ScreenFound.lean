import Verif.Props.ScreenGreedy

/-! # C122: which screen sizes are found -/

namespace Guessit
open Spec Re

theorem scanned_unique {E : RxEnv} (hE : Usual E) {C : ScreenConfig} (hC : PlainScreen C) {hs : List Str}
    (hh : ∀ t ∈ hs, (t.length = 3 ∨ t.length = 4) ∧ ∀ c ∈ t, c ∈ c!"0123456789")
    (hf : ∀ t ∈ hs, ∀ t' ∈ hs, t <+: t' → t = t') {l : Char} (hl : l ∈ c!"abcdefghijklmnopqrstuvwxyz") (hx : l ≠ 'x') {s : Str} {i j : Nat} {p p' : Pieces}
    (h : ScannedAt E C hs l s i j p) (h' : ScannedAt E C hs l s i j p') : p = p' := by
  obtain ⟨w, h0, sc, r⟩ := p
  obtain ⟨w', h0', sc', r'⟩ := p'
  obtain ⟨a, b, h1, h2, h3, ⟨x, g1, g2⟩, h5, h6⟩ := h
  obtain ⟨a', b', h1', h2', h3', ⟨x', g1', g2'⟩, h5', h6'⟩ := h'
  simp only at *
  obtain ⟨rfl, rfl, rfl⟩ := start_unique hE hh hf h1 h2 ⟨x, g1, letter_apart hE hl hx g2⟩ h1' h2' ⟨x', g1', letter_apart hE hl hx g2'⟩
  subst h3 h3' h5 h5'
  have : r = r' := by
    rcases h6 with ⟨rfl, rfl⟩ | ⟨rfl, h6⟩ <;> rcases h6' with ⟨rfl, h7⟩ | ⟨rfl, h6'⟩
    · rfl
    · have := rate_longer hC h6'; omega
    · have := rate_longer hC h6; omega
    · rfl
  rw [this]

theorem size_unique {E : RxEnv} (hE : Usual E) {C : ScreenConfig} (hC : PlainScreen C) {k : SizeForm} {s : Str} {i j : Nat} {p p' : Pieces}
    (h : SizeAt E C s i j p k) (h' : SizeAt E C s i j p' k) : p = p' := by
  have hI : ∀ t ∈ C.interlaced, (t.length = 3 ∨ t.length = 4) ∧ ∀ c ∈ t, c ∈ c!"0123456789" := fun t ht => hC.heights t (by simp [ht])
  have hP : ∀ t ∈ C.progressive, (t.length = 3 ∨ t.length = 4) ∧ ∀ c ∈ t, c ∈ c!"0123456789" := fun t ht => hC.heights t (by simp [ht])
  cases k with
  | interlaced => exact scanned_unique hE hC hI hC.interlaced (by decide) (by decide) h h'
  | progressive => exact scanned_unique hE hC hP hC.progressive (by decide) (by decide) h h'
  | hd =>
    obtain ⟨w, h0, sc, r⟩ := p
    obtain ⟨w', h0', sc', r'⟩ := p'
    obtain ⟨hr, a, b, d, h1, h2, h3, h4, h5, h6⟩ := h
    obtain ⟨hr', a', b', d', h1', h2', h3', h4', h5', h6'⟩ := h'
    simp only at *
    obtain ⟨u, v⟩ := hd_apart hE h4 h5
    obtain ⟨rfl, rfl, rfl⟩ := start_unique hE hP hC.progressive h1 h2 u h1' h2' (hd_apart hE h4' h5').1
    rw [hr, hr', h3, h3', (v d' _ h4' h5').2]
  | loose =>
    obtain ⟨w, h0, sc, r⟩ := p
    obtain ⟨w', h0', sc', r'⟩ := p'
    obtain ⟨hr, a, b, d, h1, h2, h3, h4, q, h5⟩ := h
    obtain ⟨hr', a', b', d', h1', h2', h3', h4', q', h5'⟩ := h'
    simp only at *
    have g := height_digits hE hP h2
    have g' := height_digits hE hP h2'
    have l1 := g.1; have l2 := g.2.1; have l1' := g'.1; have l2' := g'.2.1
    have m1 : b ≤ d ∧ d ≤ b + 1 ∧ d ≤ j ∧ j ≤ d + 1 := by
      rcases h4 with ⟨_, rfl⟩ | ⟨_, _, rfl⟩ <;> rcases h5 with ⟨_, rfl⟩ | ⟨_, _, rfl⟩ <;> omega
    have m2 : b' ≤ d' ∧ d' ≤ b' + 1 ∧ d' ≤ j ∧ j ≤ d' + 1 := by
      rcases h4' with ⟨_, rfl⟩ | ⟨_, _, rfl⟩ <;> rcases h5' with ⟨_, h⟩ | ⟨_, _, h⟩ <;> omega
    have hw : a = a' ∧ w = w' := by
      rcases h1 with ⟨rfl, rfl⟩ | ⟨x, rfl, e1, e2, rfl⟩ <;> rcases h1' with ⟨rfl, rfl⟩ | ⟨x', rfl, e1', e2', rfl⟩
      · exact ⟨rfl, rfl⟩
      · have := e1'.1; omega
      · have := e1.1; omega
      · obtain rfl := width_unique hE e1 e2 e1' e2'
        exact ⟨rfl, rfl⟩
    obtain ⟨rfl, rfl⟩ := hw
    obtain rfl := height_unique hC.progressive h2 h2'
    have px : CharAt s (fun c => E.same 'p' c = true) b → CharAt s (fun c => E.same 'x' c = true) b → False :=
      fun u v => u.false v fun c x y => absurd (hE.apart 'p' (by decide) 'x' (by decide) c x y) (by decide)
    have : sc = sc' := by
      rcases h4 with ⟨rfl, rfl⟩ | ⟨rfl, u, rfl⟩ <;> rcases h4' with ⟨rfl, rfl⟩ | ⟨rfl, u', rfl⟩
      · rfl
      · rcases h5 with ⟨_, rfl⟩ | ⟨_, v, rfl⟩
        · omega
        · exact (px u' v).elim
      · rcases h5' with ⟨_, rfl⟩ | ⟨_, v, rfl⟩
        · omega
        · exact (px u v).elim
      · rfl
    rw [hr, hr', h3, h3', this]
  | pixels =>
    obtain ⟨w, h0, sc, r⟩ := p
    obtain ⟨w', h0', sc', r'⟩ := p'
    obtain ⟨hs, hr, x, y, a, h1, h2, h3, h4, h5, h6, h7⟩ := h
    obtain ⟨hs', hr', x', y', a', h1', h2', h3', h4', h5', h6', h7'⟩ := h'
    simp only at *
    obtain ⟨rfl, rfl⟩ := pixels_gap hE h2 h3 h4 h5 h7 h2' h3' h4' h5' h7'
    rw [hs, hs', hr, hr', h1, h1', h6, h6']

/-- None of the parts is empty. -/
theorem size_longer {E : RxEnv} (hE : Usual E) {C : ScreenConfig} (hC : PlainScreen C) {k : SizeForm} {s : Str} {i j : Nat} {p : Pieces}
    (h : SizeAt E C s i j p k) : i < j ∧ (∀ x ∈ p.width, x.1 < x.2) ∧ p.height.1 < p.height.2 ∧ (∀ x ∈ p.scan, x.1 < x.2) ∧ ∀ x ∈ p.rate, x.1 < x.2 := by
  have hI : ∀ t ∈ C.interlaced, (t.length = 3 ∨ t.length = 4) ∧ ∀ c ∈ t, c ∈ c!"0123456789" := fun t ht => hC.heights t (by simp [ht])
  have hP : ∀ t ∈ C.progressive, (t.length = 3 ∨ t.length = 4) ∧ ∀ c ∈ t, c ∈ c!"0123456789" := fun t ht => hC.heights t (by simp [ht])
  have hW : ∀ {a w}, WidthAt E s i a w → i ≤ a ∧ ∀ x ∈ w, x.1 < x.2 := by
    rintro a w (⟨rfl, rfl⟩ | ⟨x, rfl, h1, _, rfl⟩)
    · simp
    · have := h1.1
      refine ⟨by omega, ?_⟩
      rintro y hy
      cases hy
      simp only; omega
  have hL : ∀ {l b d w}, LetterMaybe E l s b d w → b ≤ d ∧ ∀ x ∈ w, x.1 < x.2 := by
    rintro l b d w (⟨rfl, rfl⟩ | ⟨rfl, _, rfl⟩)
    · simp
    · refine ⟨by omega, ?_⟩
      rintro y hy
      cases hy
      simp
  have hS : ∀ {hs l}, (∀ t ∈ hs, (t.length = 3 ∨ t.length = 4) ∧ ∀ c ∈ t, c ∈ c!"0123456789") → ScannedAt E C hs l s i j p →
      i < j ∧ (∀ x ∈ p.width, x.1 < x.2) ∧ p.height.1 < p.height.2 ∧ (∀ x ∈ p.scan, x.1 < x.2) ∧ ∀ x ∈ p.rate, x.1 < x.2 := by
    rintro hs l hh ⟨a, b, h1, h2, h3, h4, h5, h6⟩
    obtain ⟨w1, w2⟩ := hW h1
    have := (height_digits hE hh h2).1
    rw [h3, h5]
    refine ⟨?_, w2, by simp only; omega, by simp, ?_⟩
    · rcases h6 with ⟨_, rfl⟩ | ⟨_, h6⟩
      · omega
      · have := rate_longer hC h6; omega
    · rcases h6 with ⟨h, _⟩ | ⟨h, h6⟩
      · rw [h]; simp
      · rw [h]; intro x hx; cases hx; exact rate_longer hC h6
  cases k with
  | interlaced => exact hS hI h
  | progressive => exact hS hP h
  | hd =>
    obtain ⟨hr, a, b, d, h1, h2, h3, h4, h5, h6⟩ := h
    obtain ⟨w1, w2⟩ := hW h1
    obtain ⟨l1, l2⟩ := hL h4
    have := (height_digits hE hP h2).1
    rw [h3, hr]
    exact ⟨by omega, w2, by simp only; omega, l2, by simp⟩
  | loose =>
    obtain ⟨hr, a, b, d, h1, h2, h3, h4, q, h5⟩ := h
    obtain ⟨w1, w2⟩ := hW h1
    obtain ⟨l1, l2⟩ := hL h4
    obtain ⟨l3, _⟩ := hL h5
    have := (height_digits hE hP h2).1
    rw [h3, hr]
    exact ⟨by omega, w2, by simp only; omega, l2, by simp⟩
  | pixels =>
    obtain ⟨hs, hr, x, y, a, h1, h2, h3, h4, h5, h6, h7⟩ := h
    rw [hs, hr, h1, h6]
    have := h2.1; have := h7.1; have := (pixels_noDigit hE h3 h4 h5).1
    refine ⟨by omega, ?_, by simp only; omega, by simp, by simp⟩
    intro z hz; cases hz; simp only; omega

theorem size_starts {E : RxEnv} (hE : Usual E) {C : ScreenConfig} (hC : PlainScreen C) {k : SizeForm} {s : Str} {i j : Nat} {p : Pieces}
    (h : SizeAt E C s i j p k) : CharAt s (Digit E) i := by
  have hI : ∀ t ∈ C.interlaced, (t.length = 3 ∨ t.length = 4) ∧ ∀ c ∈ t, c ∈ c!"0123456789" := fun t ht => hC.heights t (by simp [ht])
  have hP : ∀ t ∈ C.progressive, (t.length = 3 ∨ t.length = 4) ∧ ∀ c ∈ t, c ∈ c!"0123456789" := fun t ht => hC.heights t (by simp [ht])
  have hx : ∀ {i x}, PixelsAt E s i x → CharAt s (Digit E) i := fun h => h.2.2 _ (Nat.le_refl _) (by have := h.1; omega)
  have hW : ∀ {a w b hs}, (∀ t ∈ hs, (t.length = 3 ∨ t.length = 4) ∧ ∀ c ∈ t, c ∈ c!"0123456789") → WidthAt E s i a w → HeightAt hs s a b → CharAt s (Digit E) i := by
    rintro a w b hs hh (⟨rfl, rfl⟩ | ⟨x, rfl, h1, _, rfl⟩) h2
    · exact hx (height_digits hE hh h2)
    · exact hx h1
  cases k with
  | interlaced => obtain ⟨a, b, h1, h2, _⟩ := h; exact hW hI h1 h2
  | progressive => obtain ⟨a, b, h1, h2, _⟩ := h; exact hW hP h1 h2
  | hd => obtain ⟨_, a, b, d, h1, h2, _⟩ := h; exact hW hP h1 h2
  | loose => obtain ⟨_, a, b, d, h1, h2, _⟩ := h; exact hW hP h1 h2
  | pixels => obtain ⟨_, _, x, y, a, _, h1, _⟩ := h; exact hx h1

theorem kids_children {re : Re} {s : Str} {i j : Nat} {p : Pieces} (h : i < j ∧ (∀ x ∈ p.width, x.1 < x.2) ∧ p.height.1 < p.height.2 ∧ (∀ x ∈ p.scan, x.1 < x.2) ∧
    ∀ x ∈ p.rate, x.1 < x.2) : (screenPattern re).kids s ⟨i, j, p.caps⟩ = p.children s := by
  obtain ⟨w, ⟨a, b⟩, sc, r⟩ := p
  obtain ⟨_, h1, h2, h3, h4⟩ := h
  simp only at h1 h2 h3 h4
  rcases w with _ | ⟨w1, w2⟩ <;> rcases sc with _ | ⟨s1, s2⟩ <;> rcases r with _ | ⟨r1, r2⟩ <;>
    simp_all [RxPattern.kids, screenPattern, Pieces.caps, groupIf, Pieces.children, List.lookup, rawText, textOf]

/-- The five forms. -/
theorem mem_screenRes {E : RxEnv} {C : ScreenConfig} {r : Re} : r ∈ screenRes E C ↔ ∃ k : SizeForm, r = k.re E C := by
  simp only [screenRes, List.mem_cons, List.not_mem_nil, or_false]
  constructor
  · rintro (h | h | h | h | h)
    · exact ⟨.interlaced, h⟩
    · exact ⟨.progressive, h⟩
    · exact ⟨.hd, h⟩
    · exact ⟨.loose, h⟩
    · exact ⟨.pixels, h⟩
  · rintro ⟨k, rfl⟩
    cases k <;> simp [SizeForm.re]

theorem form_matchAt {E : RxEnv} (hE : Usual E) (hd : PlainDigits E) {C : ScreenConfig} (hC : PlainScreen C) {k : SizeForm} {s : Str} {i j : Nat} {c : Caps} :
    (k.re E C).matchAt s i = some (j, c) ↔ ∃ p, SizeAt E C s i j p k ∧ (∀ j' p', SizeAt E C s i j' p' k → j' ≤ j) ∧ c = p.caps := by
  constructor
  · intro h
    obtain ⟨p, h1, rfl⟩ := (mem_form hd hC).1 (matchAt_mem h)
    exact ⟨p, h1, fun j' p' h' => form_greedy hE hd hC _ h _ ((mem_form hd hC).2 ⟨p', h', rfl⟩), rfl⟩
  · rintro ⟨p, h1, h2, rfl⟩
    obtain ⟨j', c', h3⟩ := matchAt_of_mem ((mem_form hd hC).2 ⟨p, h1, rfl⟩)
    obtain ⟨p', h4, rfl⟩ := (mem_form hd hC).1 (matchAt_mem h3)
    have e1 := form_greedy hE hd hC _ h3 _ ((mem_form hd hC).2 ⟨p, h1, rfl⟩)
    have e2 := h2 j' p' h4
    obtain rfl : j = j' := by simp only at e1; omega
    rw [h3, size_unique hE hC h4 h1]

theorem form_eats {E : RxEnv} (hE : Usual E) (hd : PlainDigits E) {C : ScreenConfig} (hC : PlainScreen C) (k : SizeForm) : (k.re E C).Eats := by
  intro s i j c _ h
  obtain ⟨p, h1, _⟩ := (form_matchAt hE hd hC).1 h
  exact (size_longer hE hC h1).1

/-- C122: what is reported as a screen size is one, written in one of the five ways between separators and as long as it can be, and its
children are its width, its height, its scan type and its frame rate. -/
theorem C122_sound (E : RxEnv) (hE : Usual E) (hd : PlainDigits E) (C : ScreenConfig) (hC : PlainScreen C) (s : Str) (m : RxMatch Str)
    (ch : List (RxMatch Str)) (h : (m, ch) ∈ screensFound E C s) :
    m.name = c!"screen_size" ∧ m.value = .ok (textOf s m.start m.stop) ∧ Standing s m.start m.stop ∧
      ∃ k p, SizeAt E C s m.start m.stop p k ∧ (∀ j p', SizeAt E C s m.start j p' k → j ≤ m.stop) ∧ ch = p.children s := by
  simp only [screensFound, List.mem_flatMap, RxPattern.foundWithin, List.mem_map, List.mem_filter, mem_screenRes] at h
  obtain ⟨_, ⟨k, rfl⟩, ⟨i, j, c⟩, ⟨h1, h2⟩, h3⟩ := h
  obtain ⟨h4, _⟩ := hits_sound h1
  obtain ⟨p, h5, h6, rfl⟩ := (form_matchAt hE hd hC).1 h4
  simp only [Prod.mk.injEq] at h3
  obtain ⟨rfl, rfl⟩ := h3
  refine ⟨rfl, rfl, ?_, k, p, h5, h6, kids_children (size_longer hE hC h5)⟩
  simp only [RxPattern.accepts, Bool.and_eq_true, screenPattern, Bool.false_and, Bool.false_or] at h2
  exact standing_iff.1 h2.1

/-- C122: a screen size between separators, as long as it can be, is reported, unless one of the same form starts before it and ends
within it. -/
theorem C122_complete (E : RxEnv) (hE : Usual E) (hd : PlainDigits E) (C : ScreenConfig) (hC : PlainScreen C) (s : Str) (i j : Nat) (k : SizeForm)
    (p : Pieces) (h : SizeAt E C s i j p k) (hl : ∀ j' p', SizeAt E C s i j' p' k → j' ≤ j) (hs : Standing s i j)
    (hn : ∀ i' j' p', i' < i → i < j' → ¬ SizeAt E C s i' j' p' k) :
    (⟨c!"screen_size", i, j, .ok (textOf s i j)⟩, p.children s) ∈ screensFound E C s := by
  have hm := (form_matchAt hE hd hC).2 ⟨p, h, hl, rfl⟩
  have hi : i ≤ s.length := by
    obtain ⟨x, h1, _⟩ := size_starts hE hC h
    have := (List.getElem?_eq_some_iff.1 h1).1; omega
  simp only [screensFound, List.mem_flatMap, RxPattern.foundWithin, List.mem_map, List.mem_filter, mem_screenRes]
  refine ⟨_, ⟨k, rfl⟩, ⟨i, j, p.caps⟩, ⟨hits_complete (form_eats hE hd hC k) hm hi ?_, ?_⟩, ?_⟩
  · intro i' j' c' hlt h'
    obtain ⟨p', h1, _⟩ := (form_matchAt hE hd hC).1 h'
    by_contra hc
    exact hn i' j' p' hlt (by omega) h1
  · simp only [RxPattern.accepts, Bool.and_eq_true, screenPattern, Bool.false_and, Bool.false_or]
    exact ⟨standing_iff.2 hs, by simp⟩
  · rw [kids_children (size_longer hE hC h)]; rfl

/-! ## The order of the heights and of the frame rates -/

theorem hits_congr {r r' : Re} (h : ∀ s i, r.exec s i [] = r'.exec s i []) (s : Str) : r.hits s = r'.hits s := by
  have hm : ∀ i, r.matchAt s i = r'.matchAt s i := fun i => by rw [Re.matchAt, Re.matchAt, h]
  have hs : ∀ f i, r.searchFrom s i f = r'.searchFrom s i f := by
    intro f
    induction f with
    | zero => intro i; rw [Re.searchFrom, Re.searchFrom, hm]
    | succ f ih => intro i; rw [Re.searchFrom, Re.searchFrom, hm, ih]
  have hh : ∀ f i, r.hitsFrom s f i = r'.hitsFrom s f i := by
    intro f
    induction f with
    | zero => intro i; rfl
    | succ f ih => intro i; simp only [Re.hitsFrom, hs, ih]
  exact hh _ _

theorem words_perm {E : RxEnv} (hd : PlainDigits E) {hs hs' : List Str} (hh : ∀ t ∈ hs, ∀ c ∈ t, c ∈ c!"0123456789")
    (hf : ∀ t ∈ hs, ∀ t' ∈ hs, t <+: t' → t = t') (hp : hs.Perm hs') (s : Str) (i : Nat) (c : Caps) :
    (E.words hs).exec s i c = (E.words hs').exec s i c := by
  unfold RxEnv.words
  rw [alts_exec, alts_exec, List.flatMap_map, List.flatMap_map]
  refine flatMap_perm hp ?_
  have key : ∀ t ∈ hs, (E.word t).exec s i c ≠ [] → TextAt s t i := by
    intro t ht h
    obtain ⟨⟨j, c1⟩, h⟩ := List.exists_mem_of_ne_nil _ h
    exact (digits_literal hd (hh t ht)).1 (mem_word.1 h).1
  intro a ha b hb na nb
  rw [textAt_free hf ha hb (key a ha na) (key b hb nb)]

theorem rates_perm {E : RxEnv} (hd : PlainDigits E) {C C' : ScreenConfig} (hC : PlainScreen C) (hp : C.rates.Perm C'.rates) (s : Str) (i : Nat) (c : Caps) :
    (E.rates C).exec s i c = (E.rates C').exec s i c := by
  unfold RxEnv.rates
  rw [exec, exec, alts_exec, alts_exec, List.flatMap_map, List.flatMap_map]
  congr 1
  refine flatMap_perm hp ?_
  intro a ha b hb na nb
  rw [rate_unique hC ha hb (rate_exec_text hd hC ha na) (rate_exec_text hd hC hb nb)]

/-- C122: Python lists the heights and the frame rates of the configuration, which are sets, in an order that changes from one run to the
next; the screen sizes do not depend on it. -/
theorem C122_order (E : RxEnv) (hd : PlainDigits E) (C C' : ScreenConfig) (hC : PlainScreen C) (hi : C.interlaced.Perm C'.interlaced)
    (hp : C.progressive.Perm C'.progressive) (hr : C.rates.Perm C'.rates) (s : Str) : screensFound E C s = screensFound E C' s := by
  have e1 := words_perm hd hC.digits.1 hC.interlaced hi
  have e2 := words_perm hd hC.digits.2 hC.progressive hp
  have e3 := rates_perm hd hC hr
  have o3 : ∀ s i c, (Re.opt (E.rates C)).exec s i c = (Re.opt (E.rates C')).exec s i c := by
    intro s i c
    simp only [Re.opt, exec, Option.getD_some]
    congr 1
    funext i c; exact e3 s i c
  have h1 : ∀ s, (E.interlacedRe C).hits s = (E.interlacedRe C').hits s := hits_congr (fun s i => by
    simp only [RxEnv.interlacedRe, Re.cat, exec, e1, o3])
  have h2 : ∀ s, (E.progressiveRe C).hits s = (E.progressiveRe C').hits s := hits_congr (fun s i => by
    simp only [RxEnv.progressiveRe, Re.cat, exec, e2, o3])
  have h3 : ∀ s, (E.hdRe C).hits s = (E.hdRe C').hits s := hits_congr (fun s i => by simp only [RxEnv.hdRe, Re.cat, exec, e2])
  have h4 : ∀ s, (E.looseRe C).hits s = (E.looseRe C').hits s := hits_congr (fun s i => by simp only [RxEnv.looseRe, Re.cat, exec, e2])
  have hf : ∀ r r' : Re, r.hits s = r'.hits s → (screenPattern r).foundWithin s = (screenPattern r').foundWithin s := by
    intro r r' h
    show ((r.hits s).filter _).map _ = ((r'.hits s).filter _).map _
    rw [h]; rfl
  simp only [screensFound, screenRes, List.flatMap_cons, List.flatMap_nil, hf _ _ (h1 s), hf _ _ (h2 s), hf _ _ (h3 s), hf _ _ (h4 s)]

end Guessit
