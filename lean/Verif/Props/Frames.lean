import Verif.Props.ScreenFound

/-! # C123: which frame rates are found -/

namespace Guessit
open Spec Re

theorem defaultScreen_rates : PlainRates defaultScreen where
  parts := by
    intro n f h
    simp only [defaultScreen, List.mem_cons, List.not_mem_nil, or_false, reduceCtorEq, RateEntry.exact.injEq, false_or] at h
    rcases h with ⟨_, rfl⟩ | ⟨_, rfl⟩ <;> simp
  nonzero := by decide +kernel
  apart := by decide +kernel

theorem rate_shape {C : ScreenConfig} (hR : PlainRates C) {s : Str} {i a : Nat} (h : RateAt C s i a) : ∃ e ∈ C.rates, TextAt s (rateWhole e) i ∧
    (a = i + (rateWhole e).length ∨ ∃ d, (d = ratePart e ∨ d ∈ [c!"0", c!"00", c!"000"]) ∧ d ≠ [] ∧ s[i + (rateWhole e).length]? = some '.' ∧
      TextAt s d (i + (rateWhole e).length + 1) ∧ a = i + (rateWhole e).length + 1 + d.length) := by
  obtain ⟨e, he, t, ht, h1, rfl⟩ := h
  refine ⟨e, he, rate_whole ht h1, ?_⟩
  cases e with
  | exact n f =>
    rw [rateTexts, List.mem_singleton] at ht
    subst ht
    obtain ⟨_, h2⟩ := textAt_append.1 h1
    obtain ⟨h3, h4⟩ := textAt_cons.1 h2
    exact .inr ⟨f, .inl rfl, hR.parts n f he, h3, h4, by simp [rateWhole]; omega⟩
  | round n =>
    simp only [rateTexts, List.mem_cons, List.not_mem_nil, or_false] at ht
    rcases ht with rfl | rfl | rfl | rfl
    · exact .inl rfl
    · obtain ⟨h3, h4⟩ := textAt_cons.1 (textAt_append.1 h1).2
      exact .inr ⟨c!"0", .inr (by simp), by simp, h3, h4, by simp [rateWhole]; omega⟩
    · obtain ⟨h3, h4⟩ := textAt_cons.1 (textAt_append.1 h1).2
      exact .inr ⟨c!"00", .inr (by simp), by simp, h3, h4, by simp [rateWhole]; omega⟩
    · obtain ⟨h3, h4⟩ := textAt_cons.1 (textAt_append.1 h1).2
      exact .inr ⟨c!"000", .inr (by simp), by simp, h3, h4, by simp [rateWhole]; omega⟩

theorem text_digits {E : RxEnv} (hE : Usual E) {s t : Str} {a : Nat} (ht : ∀ c ∈ t, c ∈ c!"0123456789") (h : TextAt s t a) : AllOf s (Digit E) a (a + t.length) := by
  intro k k1 k2
  have hk : k - a < t.length := by omega
  have := h (k - a) t[k - a] (List.getElem?_eq_getElem hk)
  rw [show a + (k - a) = k by omega] at this
  exact ⟨_, this, ascii_digit hE (ht _ (List.getElem_mem hk))⟩

/-- A frame rate is digits, or digits, a point and digits. -/
theorem rate_digits {E : RxEnv} (hE : Usual E) {C : ScreenConfig} (hC : PlainScreen C) (hR : PlainRates C) {s : Str} {i a : Nat} (h : RateAt C s i a) :
    ∃ e ∈ C.rates, TextAt s (rateWhole e) i ∧ ∃ x, i < x ∧ x = i + (rateWhole e).length ∧ AllOf s (Digit E) i x ∧ (a = x ∨ ∃ d, (d = ratePart e ∨ d ∈ [c!"0", c!"00", c!"000"]) ∧
      s[x]? = some '.' ∧ x + 1 < a ∧ TextAt s d (x + 1) ∧ a = x + 1 + d.length ∧ AllOf s (Digit E) (x + 1) a) := by
  obtain ⟨e, he, h1, h2⟩ := rate_shape hR h
  obtain ⟨g1, g2, g3⟩ := hC.rates e he
  have := List.length_pos_iff.2 g1
  refine ⟨e, he, h1, i + (rateWhole e).length, by omega, rfl, text_digits hE g2 h1, ?_⟩
  rcases h2 with h2 | ⟨d, h2, h3, h4, h5, rfl⟩
  · exact .inl h2
  · have := List.length_pos_iff.2 h3
    refine .inr ⟨d, h2, h4, by omega, h5, rfl, text_digits hE ?_ h5⟩
    rcases h2 with rfl | h2
    · exact g3
    · have : ∀ d ∈ [c!"0", c!"00", c!"000"], ∀ c ∈ d, c ∈ c!"0123456789" := by decide
      exact this d h2

theorem rate_amount {E : RxEnv} (hE : Usual E) (fl : Floats) {C : ScreenConfig} (hC : PlainScreen C) (hR : PlainRates C) {s : Str} {i a : Nat}
    (h : RateAt C s i a) : ∃ v, Amount E fl s i a v := by
  obtain ⟨_, _, _, x, h1, _, h2, rfl | ⟨_, _, h3, h4, _, _, h5⟩⟩ := rate_digits hE hC hR h
  · exact ⟨_, .whole _ (number_of h1 h2)⟩
  · exact ⟨_, .decimal x h1 h2 h3 h4 h5⟩

/-- Neither a digit nor a separator. -/
def Plainly (E : RxEnv) (c : Char) : Prop := c ∉ seps ∧ ¬ Digit E c

/-- The unit starts at the first character that is neither a digit nor a separator. -/
theorem rate_before {E : RxEnv} (hE : Usual E) {C : ScreenConfig} (hC : PlainScreen C) (hR : PlainRates C) {s : Str} {i a b : Nat} (h : RateAt C s i a)
    (hs : MaybeSep s a b) : i < b ∧ ∀ k, i ≤ k → k < b → ¬ CharAt s (Plainly E) k := by
  have bad : ∀ {k}, CharAt s (Digit E) k → ¬ CharAt s (Plainly E) k := fun h h' => h.false h' fun c u v => v.2 u
  have bad' : ∀ {k}, CharAt s (· ∈ seps) k → ¬ CharAt s (Plainly E) k := fun h h' => h.false h' fun c u v => v.1 u
  obtain ⟨_, _, _, x, h1, _, h2, h3⟩ := rate_digits hE hC hR h
  have hxa : x ≤ a := by
    rcases h3 with rfl | ⟨_, _, _, h, _⟩ <;> omega
  have hin : ∀ k, i ≤ k → k < a → ¬ CharAt s (Plainly E) k := by
    intro k k1 k2
    by_cases hkx : k < x
    · exact bad (h2 k k1 hkx)
    · rcases h3 with rfl | ⟨_, _, h3, h4, _, _, h5⟩
      · omega
      · by_cases hk : k = x
        · subst hk
          exact bad' ⟨'.', h3, by decide⟩
        · exact bad (h5 k (by omega) k2)
  rcases hs with rfl | ⟨rfl, c, g1, g2, _⟩
  · exact ⟨by omega, hin⟩
  · refine ⟨by omega, fun k k1 k2 => ?_⟩
    by_cases hk : k = a
    · subst hk; exact bad' ⟨c, g1, g2⟩
    · exact hin k k1 (by omega)

theorem mem_frameUnit {E : RxEnv} {s : Str} {b j : Nat} {c c' : Caps} : (j, c') ∈ (Re.alt (E.letter 'p') (E.word c!"fps")).exec s b c ↔
    (∃ w ∈ [c!"p", c!"fps"], LiteralAt E s w b ∧ j = b + w.length) ∧ c' = c := by
  have hp : LiteralAt E s c!"p" b ↔ CharAt s (fun c => E.same 'p' c = true) b := by
    constructor
    · intro h
      obtain ⟨x, h1, h2⟩ := h 0 'p' rfl
      exact ⟨x, h1, h2⟩
    · rintro ⟨x, h1, h2⟩ k l hk
      cases k with
      | zero => simp at hk; subst hk; exact ⟨x, h1, h2⟩
      | succ k => simp at hk
  rw [mem_alt, mem_letter, mem_word, ← hp]
  constructor
  · rintro (⟨h1, rfl, rfl⟩ | ⟨h1, rfl, rfl⟩)
    · exact ⟨⟨_, by simp, h1, rfl⟩, rfl⟩
    · exact ⟨⟨c!"fps", by simp, h1, rfl⟩, rfl⟩
  · rintro ⟨⟨w, hw, h1, rfl⟩, rfl⟩
    simp only [List.mem_cons, List.not_mem_nil, or_false] at hw
    rcases hw with rfl | rfl
    · exact .inl ⟨h1, rfl, rfl⟩
    · exact .inr ⟨h1, rfl, rfl⟩

theorem frameUnit_letters : ∀ w ∈ [c!"p", c!"fps"], w ≠ [] ∧ ∀ c ∈ w, c ∈ c!"abcdefghijklmnopqrstuvwxyz" := by decide

theorem frameUnit_plain {E : RxEnv} (hE : Usual E) {s w : Str} {b k : Nat} (hw : w ∈ [c!"p", c!"fps"]) (hl : LiteralAt E s w b) (h1 : b ≤ k) (h2 : k < b + w.length) :
    CharAt s (Plainly E) k := by
  have hk : k - b < w.length := by omega
  obtain ⟨x, hx, hs⟩ := hl (k - b) w[k - b] (List.getElem?_eq_some_iff.2 ⟨hk, rfl⟩)
  rw [show b + (k - b) = k by omega] at hx
  have hla := (frameUnit_letters w hw).2 _ (List.getElem_mem hk)
  refine ⟨x, hx, fun h => ?_, letter_not_digit hE hla hs⟩
  rw [sep_not_letter hE hla h] at hs; cases hs

theorem frameUnit_unique {E : RxEnv} (hE : Usual E) {s w w' : Str} {b : Nat} (hw : w ∈ [c!"p", c!"fps"]) (hl : LiteralAt E s w b) (hw' : w' ∈ [c!"p", c!"fps"])
    (hl' : LiteralAt E s w' b) : w = w' := by
  have pf : LiteralAt E s c!"p" b → LiteralAt E s c!"fps" b → False := by
    intro u v
    obtain ⟨x, h1, h2⟩ := u 0 'p' rfl
    obtain ⟨y, h3, h4⟩ := v 0 'f' rfl
    rw [h1] at h3; cases h3
    exact absurd (hE.apart 'p' (by decide) 'f' (by decide) x h2 h4) (by decide)
  simp only [List.mem_cons, List.not_mem_nil, or_false] at hw hw'
  rcases hw with rfl | rfl <;> rcases hw' with rfl | rfl
  · rfl
  · exact (pf hl hl').elim
  · exact (pf hl' hl).elim
  · rfl

theorem mem_frames {E : RxEnv} (hd : PlainDigits E) {C : ScreenConfig} (hC : PlainScreen C) {cap : Str → Str} {fl : Floats} {s : Str} {i j : Nat} {c' : Caps} :
    (j, c') ∈ (ratePattern E cap fl C).re.exec s i [] ↔ ∃ a b, RateAt C s i a ∧ MaybeSep s a b ∧ (∃ w ∈ [c!"p", c!"fps"], LiteralAt E s w b ∧ j = b + w.length) ∧
      c' = [(4, (i, a))] := by
  show (j, c') ∈ (Re.seq (E.rates C) (.seq dashRe (.seq (.alt (E.letter 'p') (E.word c!"fps")) .eps))).exec s i [] ↔ _
  simp only [mem_seq, mem_rates hd hC, mem_dash, mem_frameUnit, mem_eps]
  constructor
  · rintro ⟨a, c1, ⟨h1, rfl⟩, b, c2, ⟨h2, rfl⟩, j', c3, ⟨h3, rfl⟩, rfl, rfl⟩
    exact ⟨a, b, h1, h2, h3, rfl⟩
  · rintro ⟨a, b, h1, h2, h3, rfl⟩
    exact ⟨a, _, ⟨h1, rfl⟩, b, _, ⟨h2, rfl⟩, j, _, ⟨h3, rfl⟩, rfl, rfl⟩

theorem frames_end {E : RxEnv} (hE : Usual E) {C : ScreenConfig} (hC : PlainScreen C) (hR : PlainRates C) {s w w' : Str} {i a b a' b' : Nat} (h1 : RateAt C s i a)
    (h2 : MaybeSep s a b) (hw : w ∈ [c!"p", c!"fps"]) (hl : LiteralAt E s w b) (h1' : RateAt C s i a') (h2' : MaybeSep s a' b') (hw' : w' ∈ [c!"p", c!"fps"])
    (hl' : LiteralAt E s w' b') : b = b' ∧ w = w' := by
  have p1 : CharAt s (Plainly E) b := frameUnit_plain hE hw hl (Nat.le_refl _) (by have := List.length_pos_iff.2 (frameUnit_letters w hw).1; omega)
  have p1' : CharAt s (Plainly E) b' := frameUnit_plain hE hw' hl' (Nat.le_refl _) (by have := List.length_pos_iff.2 (frameUnit_letters w' hw').1; omega)
  obtain ⟨l1, n1⟩ := rate_before hE hC hR h1 h2
  obtain ⟨l1', n1'⟩ := rate_before hE hC hR h1' h2'
  have : b = b' := by
    rcases Nat.lt_trichotomy b b' with h | h | h
    · exact (n1' b (by omega) h p1).elim
    · exact h
    · exact (n1 b' (by omega) h p1').elim
  subst this
  exact ⟨rfl, frameUnit_unique hE hw hl hw' hl'⟩

/-- No frame rate starts in the middle of another and after a separator. -/
theorem frames_clear {E : RxEnv} (hE : Usual E) {C : ScreenConfig} (hC : PlainScreen C) (hR : PlainRates C) {s w' : Str} {i i' a a' b' : Nat} (h1 : RateAt C s i a)
    (hi : CharAt s (· ∈ seps) (i - 1)) (hlt : i' < i) (h1' : RateAt C s i' a') (h2' : MaybeSep s a' b') (hw' : w' ∈ [c!"p", c!"fps"]) (hl' : LiteralAt E s w' b') :
    b' + w'.length ≤ i := by
  by_contra hc
  obtain ⟨e, he, t1, x, u1, ux, u2, _⟩ := rate_digits hE hC hR h1
  have hdig : CharAt s (Digit E) i := u2 i (Nat.le_refl _) u1
  obtain ⟨e', he', t1', x', v1, vx, v2, v3⟩ := rate_digits hE hC hR h1'
  have sd : ∀ {k}, CharAt s (· ∈ seps) k → CharAt s (Digit E) k → False := fun h h' => h.false h' fun c u v => sep_not_digit hE u v
  have p1' : ∀ {k}, b' ≤ k → k < b' + w'.length → CharAt s (Digit E) k → False := fun g1 g2 h => (frameUnit_plain hE hw' hl' g1 g2).false h fun c u v => u.2 v
  have hb : i < b' := by
    by_contra h
    exact p1' (by omega) (by omega) hdig
  have ha : i < a' := by
    by_contra h
    rcases h2' with rfl | ⟨rfl, c, g1, g2, _⟩
    · omega
    · rw [show i = a' by omega] at hdig
      exact sd ⟨c, g1, g2⟩ hdig
  have hx : ¬ i - 1 < x' := fun h => sd hi (v2 (i - 1) (by omega) h)
  rcases v3 with rfl | ⟨d, hd, g1, g2, g3, g4, g5⟩
  · omega
  · have hx2 : i = x' + 1 := by
      by_contra h
      exact sd hi (g5 (i - 1) (by omega) (by omega))
    subst hx2
    have hnd : NoDigitAt E s a' := by
      rcases h2' with rfl | ⟨rfl, c, k1, k2, _⟩
      · exact charAt_noDigit (frameUnit_plain hE hw' hl' (Nat.le_refl _) (by have := List.length_pos_iff.2 (frameUnit_letters w' hw').1; omega)) fun _ h => h.2
      · exact charAt_noDigit (p := (· ∈ seps)) ⟨c, k1, k2⟩ fun _ => sep_not_digit hE
    have hle := noDigit_bound hnd (by omega) u2
    have hpre : rateWhole e <+: d := textAt_prefix t1 g3 (by omega)
    rcases hd with rfl | hd
    · exact hR.apart e he e' he' hpre
    · have hz := hR.nonzero e he
      have hne := (hC.rates e he).1
      obtain ⟨z, t, hzt⟩ := List.exists_cons_of_ne_nil hne
      rw [hzt] at hpre hz
      have : ∀ d ∈ [c!"0", c!"00", c!"000"], d.head? = some '0' := by decide
      have hd0 := this d hd
      obtain ⟨r, hr⟩ := hpre
      rw [← hr] at hd0
      exact hz (by simpa using hd0)

theorem frames_value {E : RxEnv} (hE : Usual E) {cap : Str → Str} {fl : Floats} {s w : Str} {i a b : Nat} {v : Mag fl} (h1 : Amount E fl s i a v) (h2 : MaybeSep s a b)
    (hw : w ∈ [c!"p", c!"fps"]) (hl : LiteralAt E s w b) : fromString (qenv E cap fl) .frameRate ((s.take (b + w.length)).drop i) = .ok ⟨.frameRate, v, c!"fps"⟩ := by
  obtain ⟨g1, g2⟩ := frameUnit_letters w hw
  obtain ⟨a1, a2, a3, a4⟩ := amount_mag hE h1
  obtain ⟨b1, b2, b3, b4⟩ := stripped hE g2 g1 h2 hl
  have hpos : 0 < w.length := List.length_pos_iff.2 g1
  rw [text_split (x := a) (by omega) (by omega) b2]
  have hne : (s.take (b + w.length)).drop a ≠ [] := by
    intro he
    have := textOf_length (s := s) (i := a) b2
    rw [he] at this; simp at this; omega
  have := fromString_parts (qenv E cap fl) (dot_not_digit hE) .frameRate a3 hne b3 (un := c!"fps") rfl
  rw [this]
  show Except.ok (Quantity.mk .frameRate (magOf E.u fl _) _) = _
  rw [a4]
  rfl

/-- C123: a frame rate is reported exactly where one of the frame rates of the configuration, at most one separator and `p` or `fps` stand
between separators; its value is the number and its unit is `fps`. -/
theorem C123_exact (E : RxEnv) (hE : Usual E) (hd : PlainDigits E) (cap : Str → Str) (fl : Floats) (C : ScreenConfig) (hC : PlainScreen C) (hR : PlainRates C)
    (s : Str) (m : RxMatch (Quantity fl)) : m ∈ (ratePattern E cap fl C).found s ↔ m.name = c!"frame_rate" ∧ Standing s m.start m.stop ∧
      ∃ v, FramesAt E fl C s m.start m.stop v ∧ m.value = .ok ⟨.frameRate, v, c!"fps"⟩ := by
  have eats : (ratePattern E cap fl C).re.Eats := by
    intro s i j c _ h
    obtain ⟨a, b, h1, h2, ⟨w, hw, _, rfl⟩, _⟩ := (mem_frames hd hC).1 (matchAt_mem h)
    have := (rate_before hE hC hR h1 h2).1
    omega
  have hch : (ratePattern E cap fl C).children = false := rfl
  rw [mem_found]
  constructor
  · rintro ⟨⟨i, j, c⟩, hh, ha, hm⟩
    obtain ⟨h1, _⟩ := hits_sound hh
    rw [hch, if_neg (by simp), List.mem_singleton] at hm
    subst hm
    obtain ⟨a, b, g1, g2, ⟨w, hw, hl, rfl⟩, _⟩ := (mem_frames hd hC).1 (matchAt_mem h1)
    obtain ⟨v, hv⟩ := rate_amount hE fl hC hR g1
    refine ⟨rfl, ?_, v, ⟨a, b, g1, hv, g2, w, hw, hl, rfl⟩, frames_value hE hv g2 hw hl⟩
    simp only [RxPattern.accepts, Bool.and_eq_true] at ha
    have := ha.1
    rw [hch] at this
    simp only [Bool.false_and, Bool.false_or] at this
    exact standing_iff.1 this
  · obtain ⟨n, i, j, val⟩ := m
    rintro ⟨h0, h1, v, ⟨a, b, g1, hv, g2, w, hw, hl, h4⟩, h5⟩
    simp only at h0 h1 h4 h5 g1 hv
    subst h0 h4 h5
    obtain ⟨j', c', hm⟩ := matchAt_of_mem ((mem_frames (cap := cap) (fl := fl) hd hC).2 ⟨a, b, g1, g2, ⟨w, hw, hl, rfl⟩, rfl⟩)
    obtain ⟨a', b', g1', g2', ⟨w', hw', hl', rfl⟩, _⟩ := (mem_frames hd hC).1 (matchAt_mem hm)
    obtain ⟨rfl, rfl⟩ := frames_end hE hC hR g1 g2 hw hl g1' g2' hw' hl'
    obtain ⟨_, _, _, x, u1, _, u2, _⟩ := rate_digits hE hC hR g1
    refine ⟨⟨i, b + w.length, c'⟩, hits_complete eats hm ?_ ?_, ?_, ?_⟩
    · have := u2.le u1; omega
    · intro i' j' c2 hlt hm'
      obtain ⟨a2, b2, k1, k2, ⟨w2, hw2, hl2, rfl⟩, _⟩ := (mem_frames hd hC).1 (matchAt_mem hm')
      refine frames_clear hE hC hR g1 ?_ hlt k1 k2 hw2 hl2
      rcases h1.1 with h | h
      · omega
      · exact h
    · simp only [RxPattern.accepts, hch, Bool.false_and, Bool.false_or, Bool.and_eq_true]
      refine ⟨standing_iff.2 h1, ?_⟩
      simp [ratePattern]
    · rw [hch, if_neg (by simp), List.mem_singleton]
      show _ = RxMatch.mk _ _ _ (fromString (qenv E cap fl) .frameRate _)
      rw [frames_value hE hv g2 hw hl]
      rfl

/-- C123: nor does the order of the frame rates matter. -/
theorem C123_order (E : RxEnv) (hd : PlainDigits E) (cap : Str → Str) (fl : Floats) (C C' : ScreenConfig) (hC : PlainScreen C) (hr : C.rates.Perm C'.rates) (s : Str) :
    (ratePattern E cap fl C).found s = (ratePattern E cap fl C').found s := by
  have e3 := rates_perm hd hC hr
  have h : (ratePattern E cap fl C).re.hits s = (ratePattern E cap fl C').re.hits s := hits_congr (fun s i => by
    simp only [ratePattern, Re.cat, exec, e3]) s
  simp only [RxPattern.found, h]
  rfl

end Guessit
