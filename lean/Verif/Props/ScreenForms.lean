import Verif.Props.Screen

/-! # C122: the five forms of a screen size -/

namespace Guessit
open Spec Re

/-- The groups of a match, the last first. -/
def groupIf (n : Nat) (x : Option (Nat × Nat)) : Caps := (x.map fun y => (n, y)).toList

def Spec.Pieces.caps (p : Pieces) : Caps := groupIf 4 p.rate ++ groupIf 3 p.scan ++ [(2, p.height)] ++ groupIf 1 p.width

theorem mem_times {E : RxEnv} {s : Str} {i j : Nat} {c c' : Caps} : (j, c') ∈ E.times.exec s i c ↔ CharAt s (Times E) i ∧ j = i + 1 ∧ c' = c := by
  unfold RxEnv.times Re.lit
  rw [mem_alt, mem_letter, mem_chr]
  constructor
  · rintro (⟨⟨x, h1, h2⟩, h⟩ | ⟨⟨x, h1, h2⟩, h⟩)
    · exact ⟨⟨x, h1, .inl h2⟩, h⟩
    · exact ⟨⟨x, h1, .inr (by simpa using h2)⟩, h⟩
  · rintro ⟨⟨x, h1, h2 | h2⟩, h⟩
    · exact .inl ⟨⟨x, h1, h2⟩, h⟩
    · exact .inr ⟨⟨x, h1, by simpa using h2⟩, h⟩

theorem mem_width {E : RxEnv} {s : Str} {i j : Nat} {c c' : Caps} : (j, c') ∈ (Re.grp 1 (Re.rep E.digit 3 (some 4))).exec s i c ↔
    PixelsAt E s i j ∧ c' = (1, (i, j)) :: c := by
  rw [mem_grp]
  constructor
  · rintro ⟨c1, h, rfl⟩
    obtain ⟨rfl, h2⟩ := mem_someDigits.1 h
    exact ⟨h2, rfl⟩
  · rintro ⟨h, rfl⟩
    exact ⟨c, mem_someDigits.2 ⟨rfl, h⟩, rfl⟩

theorem mem_resolution {E : RxEnv} {s : Str} {i a : Nat} {c c' : Caps} : (a, c') ∈ E.resolution.exec s i c ↔
    ∃ w, WidthAt E s i a w ∧ c' = groupIf 1 w ++ c := by
  unfold RxEnv.resolution
  have hin : ∀ {a : Nat} {c' : Caps}, (a, c') ∈ (Re.cat [.grp 1 (.rep E.digit 3 (some 4)), E.times]).exec s i c ↔
      ∃ x, PixelsAt E s i x ∧ CharAt s (Times E) x ∧ a = x + 1 ∧ c' = (1, (i, x)) :: c := by
    intro a c'
    show (a, c') ∈ (Re.seq (.grp 1 (.rep E.digit 3 (some 4))) (.seq E.times .eps)).exec s i c ↔ _
    simp only [mem_seq, mem_width, mem_times, mem_eps]
    constructor
    · rintro ⟨x, c1, ⟨h1, rfl⟩, y, c2, ⟨h2, rfl, rfl⟩, rfl, rfl⟩
      exact ⟨x, h1, h2, rfl, rfl⟩
    · rintro ⟨x, h1, h2, rfl, rfl⟩
      exact ⟨x, _, ⟨h1, rfl⟩, _, _, ⟨h2, rfl, rfl⟩, rfl, rfl⟩
  rw [mem_optional (fun j c1 h => by obtain ⟨x, h1, _, rfl, _⟩ := hin.1 h; have := h1.1; omega), hin]
  constructor
  · rintro (⟨x, h1, h2, rfl, rfl⟩ | ⟨rfl, rfl⟩)
    · exact ⟨some (i, x), .inr ⟨x, rfl, h1, h2, rfl⟩, rfl⟩
    · exact ⟨none, .inl ⟨rfl, rfl⟩, rfl⟩
  · rintro ⟨w, ⟨rfl, rfl⟩ | ⟨x, rfl, h1, h2, rfl⟩, rfl⟩
    · exact .inr ⟨rfl, rfl⟩
    · exact .inl ⟨x, h1, h2, rfl, rfl⟩

theorem mem_height {E : RxEnv} (hd : PlainDigits E) {hs : List Str} (hh : ∀ t ∈ hs, ∀ c ∈ t, c ∈ c!"0123456789") {s : Str} {a b : Nat} {c c' : Caps} :
    (b, c') ∈ (Re.grp 2 (E.words hs)).exec s a c ↔ HeightAt hs s a b ∧ c' = (2, (a, b)) :: c := by
  rw [mem_grp]
  constructor
  · rintro ⟨c1, h, rfl⟩
    obtain ⟨rfl, w, hw, h1, rfl⟩ := mem_words.1 h
    exact ⟨⟨w, hw, (digits_literal hd (hh w hw)).1 h1, rfl⟩, rfl⟩
  · rintro ⟨⟨w, hw, h1, rfl⟩, rfl⟩
    exact ⟨c, mem_words.2 ⟨rfl, w, hw, (digits_literal hd (hh w hw)).2 h1, rfl⟩, rfl⟩

theorem mem_scan {E : RxEnv} {l : Char} {s : Str} {a b : Nat} {c c' : Caps} :
    (b, c') ∈ (Re.grp 3 (E.letter l)).exec s a c ↔ CharAt s (fun x => E.same l x = true) a ∧ b = a + 1 ∧ c' = (3, (a, b)) :: c := by
  rw [mem_grp]
  constructor
  · rintro ⟨c1, h, rfl⟩
    obtain ⟨h1, rfl, rfl⟩ := mem_letter.1 h
    exact ⟨h1, rfl, rfl⟩
  · rintro ⟨h1, rfl, rfl⟩
    exact ⟨c, mem_letter.2 ⟨h1, rfl, rfl⟩, rfl⟩

theorem mem_scan_maybe {E : RxEnv} {l : Char} {s : Str} {a b : Nat} {c c' : Caps} :
    (b, c') ∈ (Re.opt (Re.grp 3 (E.letter l))).exec s a c ↔ ∃ q, LetterMaybe E l s a b q ∧ c' = groupIf 3 q ++ c := by
  rw [mem_optional (fun j c1 h => by rw [mem_scan] at h; omega), mem_scan]
  constructor
  · rintro (⟨h1, rfl, rfl⟩ | ⟨rfl, rfl⟩)
    · exact ⟨some (a, a + 1), .inr ⟨rfl, h1, rfl⟩, rfl⟩
    · exact ⟨none, .inl ⟨rfl, rfl⟩, rfl⟩
  · rintro ⟨q, ⟨rfl, rfl⟩ | ⟨rfl, h1, rfl⟩, rfl⟩
    · exact .inr ⟨rfl, rfl⟩
    · exact .inl ⟨h1, rfl, rfl⟩

theorem mem_letter_maybe {E : RxEnv} {l : Char} {s : Str} {a b : Nat} {c c' : Caps} :
    (b, c') ∈ (Re.opt (E.letter l)).exec s a c ↔ (∃ q, LetterMaybe E l s a b q) ∧ c' = c := by
  rw [mem_optional (fun j c1 h => by rw [mem_letter] at h; omega), mem_letter]
  constructor
  · rintro (⟨h1, rfl, rfl⟩ | ⟨rfl, rfl⟩)
    · exact ⟨⟨some (a, a + 1), .inr ⟨rfl, h1, rfl⟩⟩, rfl⟩
    · exact ⟨⟨none, .inl ⟨rfl, rfl⟩⟩, rfl⟩
  · rintro ⟨⟨q, ⟨rfl, rfl⟩ | ⟨rfl, h1, rfl⟩⟩, rfl⟩
    · exact .inr ⟨rfl, rfl⟩
    · exact .inl ⟨h1, rfl, rfl⟩

theorem mem_rates_maybe {E : RxEnv} (hd : PlainDigits E) {C : ScreenConfig} (hC : PlainScreen C) {s : Str} {i j : Nat} {c c' : Caps} :
    (j, c') ∈ (Re.opt (E.rates C)).exec s i c ↔ ∃ q, ((q = none ∧ j = i) ∨ (q = some (i, j) ∧ RateAt C s i j)) ∧ c' = groupIf 4 q ++ c := by
  rw [mem_optional (fun j c1 h => by have := rate_longer hC ((mem_rates hd hC).1 h).1; omega), mem_rates hd hC]
  constructor
  · rintro (⟨h1, rfl⟩ | ⟨rfl, rfl⟩)
    · exact ⟨some (i, j), .inr ⟨rfl, h1⟩, rfl⟩
    · exact ⟨none, .inl ⟨rfl, rfl⟩, rfl⟩
  · rintro ⟨q, ⟨rfl, rfl⟩ | ⟨rfl, h1⟩, rfl⟩
    · exact .inr ⟨rfl, rfl⟩
    · exact .inl ⟨h1, rfl⟩

/-- The regular expression of a form. -/
def Spec.SizeForm.re (E : RxEnv) (C : ScreenConfig) : SizeForm → Re
  | .interlaced => E.interlacedRe C
  | .progressive => E.progressiveRe C
  | .hd => E.hdRe C
  | .loose => E.looseRe C
  | .pixels => E.pixelsRe

theorem Spec.PlainScreen.digits {C : ScreenConfig} (hC : PlainScreen C) : (∀ t ∈ C.interlaced, ∀ c ∈ t, c ∈ c!"0123456789") ∧
    ∀ t ∈ C.progressive, ∀ c ∈ t, c ∈ c!"0123456789" :=
  ⟨fun t ht => (hC.heights t (by simp [ht])).2, fun t ht => (hC.heights t (by simp [ht])).2⟩

theorem mem_scanned {E : RxEnv} (hd : PlainDigits E) {C : ScreenConfig} (hC : PlainScreen C) {hs : List Str} (hh : ∀ t ∈ hs, ∀ c ∈ t, c ∈ c!"0123456789")
    {l : Char} {s : Str} {i j : Nat} {c' : Caps} :
    (j, c') ∈ (Re.cat [E.resolution, .grp 2 (E.words hs), .grp 3 (E.letter l), .opt (E.rates C)]).exec s i [] ↔
      ∃ p, ScannedAt E C hs l s i j p ∧ c' = p.caps := by
  show (j, c') ∈ (Re.seq E.resolution (.seq (.grp 2 (E.words hs)) (.seq (.grp 3 (E.letter l)) (.seq (.opt (E.rates C)) .eps)))).exec s i [] ↔ _
  simp only [mem_seq, mem_resolution, mem_height hd hh, mem_scan, mem_rates_maybe hd hC, mem_eps]
  constructor
  · rintro ⟨a, c1, ⟨w, h1, rfl⟩, b, c2, ⟨h2, rfl⟩, d, c3, ⟨h3, rfl, rfl⟩, e, c4, ⟨q, h4, rfl⟩, rfl, rfl⟩
    refine ⟨⟨w, (a, b), some (b, b + 1), q⟩, ⟨a, b, h1, h2, rfl, h3, rfl, h4⟩, ?_⟩
    simp [Pieces.caps, groupIf]
  · rintro ⟨⟨w, h, sc, q⟩, ⟨a, b, h1, h2, h3, h4, h5, h6⟩, rfl⟩
    simp only at h1 h3 h5 h6
    subst h3 h5
    exact ⟨a, _, ⟨w, h1, rfl⟩, b, _, ⟨h2, rfl⟩, b + 1, _, ⟨h4, rfl, rfl⟩, j, _, ⟨q, h6, rfl⟩, rfl, by simp [Pieces.caps, groupIf]⟩

theorem mem_form {E : RxEnv} (hd : PlainDigits E) {C : ScreenConfig} (hC : PlainScreen C) {k : SizeForm} {s : Str} {i j : Nat} {c' : Caps} :
    (j, c') ∈ (k.re E C).exec s i [] ↔ ∃ p, SizeAt E C s i j p k ∧ c' = p.caps := by
  cases k with
  | interlaced => exact mem_scanned hd hC hC.digits.1
  | progressive => exact mem_scanned hd hC hC.digits.2
  | hd =>
    show (j, c') ∈ (Re.seq E.resolution (.seq (.grp 2 (E.words C.progressive)) (.seq (.opt (.grp 3 (E.letter 'p'))) (.seq (E.word c!"hd") .eps)))).exec s i [] ↔ _
    simp only [mem_seq, mem_resolution, mem_height hd hC.digits.2, mem_scan_maybe, mem_word, mem_eps]
    constructor
    · rintro ⟨a, c1, ⟨w, h1, rfl⟩, b, c2, ⟨h2, rfl⟩, d, c3, ⟨q, h3, rfl⟩, e, c4, ⟨h4, rfl, rfl⟩, rfl, rfl⟩
      exact ⟨⟨w, (a, b), q, none⟩, ⟨rfl, a, b, d, h1, h2, rfl, h3, h4, rfl⟩, by simp [Pieces.caps, groupIf]⟩
    · rintro ⟨⟨w, h, q, r⟩, ⟨h0, a, b, d, h1, h2, h3, h4, h5, rfl⟩, rfl⟩
      simp only at h0 h1 h3 h4
      subst h0 h3
      exact ⟨a, _, ⟨w, h1, rfl⟩, b, _, ⟨h2, rfl⟩, d, _, ⟨q, h4, rfl⟩, d + 2, _, ⟨h5, rfl, rfl⟩, rfl, by simp [Pieces.caps, groupIf]⟩
  | loose =>
    show (j, c') ∈ (Re.seq E.resolution (.seq (.grp 2 (E.words C.progressive)) (.seq (.opt (.grp 3 (E.letter 'p'))) (.seq (.opt (E.letter 'x')) .eps)))).exec s i [] ↔ _
    simp only [mem_seq, mem_resolution, mem_height hd hC.digits.2, mem_scan_maybe, mem_letter_maybe, mem_eps]
    constructor
    · rintro ⟨a, c1, ⟨w, h1, rfl⟩, b, c2, ⟨h2, rfl⟩, d, c3, ⟨q, h3, rfl⟩, e, c4, ⟨h4, rfl⟩, rfl, rfl⟩
      exact ⟨⟨w, (a, b), q, none⟩, ⟨rfl, a, b, d, h1, h2, rfl, h3, h4⟩, by simp [Pieces.caps, groupIf]⟩
    · rintro ⟨⟨w, h, q, r⟩, ⟨h0, a, b, d, h1, h2, h3, h4, h5⟩, rfl⟩
      simp only at h0 h1 h3 h4
      subst h0 h3
      exact ⟨a, _, ⟨w, h1, rfl⟩, b, _, ⟨h2, rfl⟩, d, _, ⟨q, h4, rfl⟩, j, _, ⟨h5, rfl⟩, rfl, by simp [Pieces.caps, groupIf]⟩
  | pixels =>
    show (j, c') ∈ (Re.seq (.grp 1 (.rep E.digit 3 (some 4))) (.seq dashRe (.seq E.times (.seq dashRe (.seq (.grp 2 (.rep E.digit 3 (some 4))) .eps))))).exec s i [] ↔ _
    have hh : ∀ {a j : Nat} {c c' : Caps}, (j, c') ∈ (Re.grp 2 (Re.rep E.digit 3 (some 4))).exec s a c ↔ PixelsAt E s a j ∧ c' = (2, (a, j)) :: c := by
      intro a j c c'
      rw [mem_grp]
      constructor
      · rintro ⟨c1, h, rfl⟩
        obtain ⟨rfl, h2⟩ := mem_someDigits.1 h
        exact ⟨h2, rfl⟩
      · rintro ⟨h, rfl⟩
        exact ⟨c, mem_someDigits.2 ⟨rfl, h⟩, rfl⟩
    simp only [mem_seq, mem_width, mem_dash, mem_times, hh, mem_eps]
    constructor
    · rintro ⟨x, c1, ⟨h1, rfl⟩, y, c2, ⟨h2, rfl⟩, y', c3, ⟨h3, rfl, rfl⟩, a, c4, ⟨h4, rfl⟩, b, c5, ⟨h5, rfl⟩, rfl, rfl⟩
      exact ⟨⟨some (i, x), (a, j), none, none⟩, ⟨rfl, rfl, x, y, a, rfl, h1, h2, h3, h4, rfl, h5⟩, by simp [Pieces.caps, groupIf]⟩
    · rintro ⟨⟨w, h, q, r⟩, ⟨h0, h0', x, y, a, h1, h2, h3, h4, h5, h6, h7⟩, rfl⟩
      simp only at h0 h0' h1 h6
      subst h0 h0' h1 h6
      exact ⟨x, _, ⟨h2, rfl⟩, y, _, ⟨h3, rfl⟩, _, _, ⟨h4, rfl, rfl⟩, a, _, ⟨h5, rfl⟩, j, _, ⟨h7, rfl⟩, rfl, by simp [Pieces.caps, groupIf]⟩

/-! ## One way to read the start -/

theorem ascii_digit {E : RxEnv} (hE : Usual E) {c : Char} (hc : c ∈ c!"0123456789") : Digit E c := by
  have hall : ∀ c ∈ c!"0123456789", c.toNat < 128 ∧ '0' ≤ c ∧ c ≤ '9' := by decide
  obtain ⟨h1, h2, h3⟩ := hall c hc
  simp [Digit, Uni.isDigit, hE.digit c h1, h2, h3]

theorem times_not_digit {E : RxEnv} (hE : Usual E) {c : Char} (h : Times E c) : ¬ Digit E c := by
  rcases h with h | rfl
  · exact letter_not_digit hE (by decide) h
  · exact sep_not_digit hE (by decide)

theorem height_digits {E : RxEnv} (hE : Usual E) {hs : List Str} (hh : ∀ t ∈ hs, (t.length = 3 ∨ t.length = 4) ∧ ∀ c ∈ t, c ∈ c!"0123456789") {s : Str} {a b : Nat}
    (h : HeightAt hs s a b) : PixelsAt E s a b := by
  obtain ⟨t, ht, h1, rfl⟩ := h
  obtain ⟨h2, h3⟩ := hh t ht
  refine ⟨by omega, by omega, ?_⟩
  intro k k1 k2
  have hk : k - a < t.length := by omega
  have := h1 (k - a) t[k - a] (List.getElem?_eq_getElem hk)
  rw [show a + (k - a) = k by omega] at this
  exact ⟨_, this, ascii_digit hE (h3 _ (List.getElem_mem hk))⟩

theorem run_unique {E : RxEnv} {s : Str} {i x x' : Nat} (hi : i ≤ x) (hi' : i ≤ x') (h : AllOf s (Digit E) i x) (hn : NoDigitAt E s x) (h' : AllOf s (Digit E) i x')
    (hn' : NoDigitAt E s x') : x = x' := by
  have := noDigit_bound hn hi h'
  have := noDigit_bound hn' hi' h
  omega

theorem charAt_noDigit {E : RxEnv} {s : Str} {p : Char → Prop} {k : Nat} (h : CharAt s p k) (hp : ∀ c, p c → ¬ Digit E c) : NoDigitAt E s k := by
  obtain ⟨c, h1, h2⟩ := h
  intro c' h'
  rw [h1] at h'; cases h'
  exact hp c h2

theorem height_unique {hs : List Str} (hf : ∀ t ∈ hs, ∀ t' ∈ hs, t <+: t' → t = t') {s : Str} {a b b' : Nat} (h : HeightAt hs s a b) (h' : HeightAt hs s a b') :
    b = b' := by
  obtain ⟨t, ht, h1, rfl⟩ := h
  obtain ⟨t', ht', h1', rfl⟩ := h'
  rw [textAt_free hf ht ht' h1 h1']

theorem width_unique {E : RxEnv} (hE : Usual E) {s : Str} {i x x' : Nat} (h : PixelsAt E s i x) (ht : CharAt s (Times E) x) (h' : PixelsAt E s i x')
    (ht' : CharAt s (Times E) x') : x = x' :=
  run_unique (by have := h.1; omega) (by have := h'.1; omega) h.2.2 (charAt_noDigit ht fun _ => times_not_digit hE) h'.2.2
    (charAt_noDigit ht' fun _ => times_not_digit hE)

theorem start_unique {E : RxEnv} (hE : Usual E) {hs : List Str} (hh : ∀ t ∈ hs, (t.length = 3 ∨ t.length = 4) ∧ ∀ c ∈ t, c ∈ c!"0123456789")
    (hf : ∀ t ∈ hs, ∀ t' ∈ hs, t <+: t' → t = t') {s : Str} {i a b a' b' : Nat} {w w' : Option (Nat × Nat)} (h1 : WidthAt E s i a w) (h2 : HeightAt hs s a b)
    (h3 : CharAt s (fun c => ¬ Digit E c ∧ ¬ Times E c) b) (h1' : WidthAt E s i a' w') (h2' : HeightAt hs s a' b')
    (h3' : CharAt s (fun c => ¬ Digit E c ∧ ¬ Times E c) b') : a = a' ∧ b = b' ∧ w = w' := by
  have bad : ∀ {i b x : Nat}, HeightAt hs s i b → CharAt s (fun c => ¬ Digit E c ∧ ¬ Times E c) b → PixelsAt E s i x → CharAt s (Times E) x → False := by
    intro i b x g1 g2 g3 g4
    have g5 := height_digits hE hh g1
    have : b = x := run_unique (by have := g5.1; omega) (by have := g3.1; omega) g5.2.2 (charAt_noDigit g2 fun _ h => h.1) g3.2.2
      (charAt_noDigit g4 fun _ => times_not_digit hE)
    subst this
    exact g2.false g4 fun c u v => u.2 v
  rcases h1 with ⟨rfl, rfl⟩ | ⟨x, rfl, g1, g2, rfl⟩ <;> rcases h1' with ⟨rfl, rfl⟩ | ⟨x', rfl, g1', g2', rfl⟩
  · exact ⟨rfl, height_unique hf h2 h2', rfl⟩
  · exact (bad h2 h3 g1' g2').elim
  · exact (bad h2' h3' g1 g2).elim
  · obtain rfl := width_unique hE g1 g2 g1' g2'
    exact ⟨rfl, height_unique hf h2 h2', rfl⟩

theorem letter_apart {E : RxEnv} (hE : Usual E) {l : Char} (hl : l ∈ c!"abcdefghijklmnopqrstuvwxyz") (hx : l ≠ 'x') {c : Char} (h : E.same l c = true) :
    ¬ Digit E c ∧ ¬ Times E c := by
  refine ⟨letter_not_digit hE hl h, ?_⟩
  rintro (h' | rfl)
  · exact hx (hE.apart l hl 'x' (by decide) c h h')
  · rw [sep_not_letter hE hl (by decide)] at h; cases h

end Guessit
