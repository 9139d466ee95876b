import Verif.Props.FramesExamples

/-! # C30: every quantity guessit reports round-trips, in any name -/

namespace Guessit
open Spec Re

/-- What is assumed of floats: those that are reported print in plain notation and read back. -/
def PlainFloats (fl : Floats) (q : Quantity fl) : Prop := ∀ x, q.magnitude = .float x → PlainDecimal (fl.toText x) ∧ fl.ofText (fl.toText x) = x

theorem quantity_round {env : QEnv} (ht : AsciiTables env) {cls : QClass} {v : Mag env.fl} {us : Str} (hus : StableUnits env cls us)
    (hv : (∃ n : Nat, v = .int n) ∨ ∃ x, v = .float x) (hf : PlainFloats env.fl ⟨cls, v, us⟩) :
    fromString env cls (Quantity.text ⟨cls, v, us⟩) = .ok ⟨cls, v, us⟩ := by
  have hsign : env.u.digit '-' = none ∧ env.u.digit '+' = none := by
    rw [ht.digit _ (by decide), ht.digit _ (by decide)]; decide
  have hspace : ∀ ds : Str, Ascii ds → (∀ c ∈ ds, env.u.isDigit c = true) → ∀ c ∈ ds, env.u.space c = false :=
    fun ds h1 h2 c hc => ht.space c ((isDigit_ascii ht (h1 c hc)).1 (h2 c hc))
  rcases hv with ⟨n, rfl⟩ | ⟨x, rfl⟩
  · obtain ⟨g1, g2, g3, g4⟩ := natTextF_spec ht (n + 1) n (by omega)
    have e : (Mag.int (n : Int) : Mag env.fl).text = natTextF (n + 1) n := by
      simp [Mag.text, intText, natText]
    show fromString env cls ((Mag.int (n : Int) : Mag env.fl).text ++ us) = _
    rw [e, fromString_text ht (MagText.int _ g1 g2) hus, pyInt_of_digits _ g1 g2 (hspace _ g3 g2) hsign, g4]
  · obtain ⟨hpd, hrt⟩ := hf x rfl
    have hmt : MagText env.u (env.fl.toText x) := by
      obtain ⟨a, b, hxy, k1, k2, k3, k4⟩ := hpd
      rw [hxy]
      exact MagText.dec a b k1 (fun c hc => (isDigit_ascii ht (ascii_digit_lt (k3 c hc))).2 (k3 c hc)) k2
        (fun c hc => (isDigit_ascii ht (ascii_digit_lt (k4 c hc))).2 (k4 c hc))
    show fromString env cls (env.fl.toText x ++ us) = _
    rw [fromString_text ht hmt hus, pyInt_decimal ht hpd]
    simp only [hrt]

theorem amount_kind {E : RxEnv} {fl : Floats} {s : Str} {i x : Nat} {v : Mag fl} (h : Amount E fl s i x v) : (∃ n : Nat, v = .int n) ∨ ∃ x, v = .float x := by
  cases h with
  | whole n h => exact .inl ⟨n, rfl⟩
  | decimal k _ _ _ _ _ => exact .inr ⟨_, rfl⟩

/-- C30: whatever the name, a size that guessit reports has a value, and printing it and parsing it again gives it back. -/
theorem C30_size (E : RxEnv) (hE : Usual E) (hC : Cased E.u) (cap : Str → Str) (fl : Floats) (ht : AsciiTables (qenv E cap fl)) (s : Str) (hs : PlainCase E s)
    (m : RxMatch (Quantity fl)) (hm : m ∈ sizesFound E cap fl s) :
    ∃ q, m.value = .ok q ∧ (PlainFloats fl q → fromString (qenv E cap fl) .size q.text = .ok q) := by
  obtain ⟨_, _, v, u, ⟨x, y, w, ha, _, hw, _, _⟩, hval⟩ := (C119_size E hE hC cap fl s hs m).1 hm
  refine ⟨_, hval, fun hf => quantity_round (env := qenv E cap fl) ht ?_ (amount_kind ha) hf⟩
  have hall : ∀ e ∈ sizeUnits, e.2 ≠ [] ∧ (∀ c ∈ e.2, c.toNat < 128 ∧ ¬ ('0' ≤ c ∧ c ≤ '9')) ∧ stripChars seps e.2 = e.2 ∧ e.2.map lowLetter = e.1 ∧
      (∀ c ∈ e.2, c ∈ wordLetters) ∧ e.2.map upLetter = e.1.map upLetter := by decide +kernel
  obtain ⟨h1, h2, h3, h4, h5, h6⟩ := hall _ hw
  refine units_stable ht (v := u) (fun c hc => (h2 c hc).1) (fun c hc => ?_) (size_units hC w u hw u u h3 h4 h5 h6) h1
  have := (isDigit_ascii ht (h2 c hc).1).not.2 (h2 c hc).2
  simpa using this

/-- C30: the same for bit rates. -/
theorem C30_bit_rate (E : RxEnv) (hE : Usual E) (cap : Str → Str) (hc : Capitalizes cap) (fl : Floats) (ht : AsciiTables (qenv E cap fl)) (s : Str)
    (hs : PlainCase E s) (m : RxMatch (Quantity fl)) (hm : m ∈ bitRatesFound E cap fl s) :
    ∃ q, m.value = .ok q ∧ (PlainFloats fl q → fromString (qenv E cap fl) .bitRate q.text = .ok q) := by
  obtain ⟨_, _, v, u, ⟨x, y, w, ha, _, hw, _, _⟩, hval⟩ := (C119_bit_rate E hE cap hc fl s hs m).1 hm
  refine ⟨_, hval, fun hf => quantity_round (env := qenv E cap fl) ht ?_ (amount_kind ha) hf⟩
  have hall : ∀ e ∈ rateUnits, e.2 ≠ [] ∧ (∀ c ∈ e.2, c.toNat < 128 ∧ ¬ ('0' ≤ c ∧ c ≤ '9')) ∧ ∃ e' ∈ rateUnits, stripChars seps e.2 = e.2 ∧ e'.2 = e.2 ∧
      e.2.map lowLetter = e'.1 ∧ (∀ c ∈ e.2, c ∈ wordLetters) ∧ e.2.map upLetter = e'.1.map upLetter := by decide +kernel
  obtain ⟨h1, h2, ⟨w', u'⟩, hw', h3, h7, h4, h5, h6⟩ := hall _ hw
  simp only at h1 h2 h3 h4 h5 h6 h7
  subst h7
  refine units_stable ht (v := u') (fun c hc => (h2 c hc).1) (fun c hc => ?_) (rate_units hc w' u' hw' u' u' h3 h4 h5 h6) h1
  have := (isDigit_ascii ht (h2 c hc).1).not.2 (h2 c hc).2
  simpa using this

/-- C30: the same for frame rates. -/
theorem C30_frame_rate (E : RxEnv) (hE : Usual E) (hd : PlainDigits E) (cap : Str → Str) (fl : Floats) (ht : AsciiTables (qenv E cap fl)) (C : ScreenConfig)
    (hC : PlainScreen C) (hR : PlainRates C) (s : Str) (m : RxMatch (Quantity fl)) (hm : m ∈ (ratePattern E cap fl C).found s) :
    ∃ q, m.value = .ok q ∧ (PlainFloats fl q → fromString (qenv E cap fl) .frameRate q.text = .ok q) := by
  obtain ⟨_, _, v, ⟨a, b, _, ha, _⟩, hval⟩ := (C123_exact E hE hd cap fl C hC hR s m).1 hm
  refine ⟨_, hval, fun hf => quantity_round (env := qenv E cap fl) ht ?_ (amount_kind ha) hf⟩
  have h2 : ∀ c ∈ c!"fps", c.toNat < 128 ∧ ¬ ('0' ≤ c ∧ c ≤ '9') := by decide
  refine units_stable ht (v := c!"fps") (fun c hc => (h2 c hc).1) (fun c hc => ?_) rfl (by simp)
  have := (isDigit_ascii ht (h2 c hc).1).not.2 (h2 c hc).2
  simpa using this

theorem latin_tables : AsciiTables (qenv (latinRx 'ſ') capWord textFloats) where
  digit := latin_usual.digit
  space := by
    intro c h
    exact ascii_cases (P := fun c => '0' ≤ c ∧ c ≤ '9' → latinUni.space c = false) (by decide) _ (ascii_digit_lt h) h
  upper := by
    intro s hs
    show s.map upLetter = s.map asciiUpper
    exact List.map_congr_left fun c hc => ascii_cases (P := fun c => upLetter c = asciiUpper c) (by decide +kernel) _ (hs c hc)
  cap := by
    intro c s hs
    show upLetter c :: s.map lowLetter = asciiUpper c :: s.map asciiLower
    congr 1
    · exact ascii_cases (P := fun c => upLetter c = asciiUpper c) (by decide +kernel) _ (hs c (by simp))
    · exact List.map_congr_left fun c hc => ascii_cases (P := fun c => lowLetter c = asciiLower c) (by decide +kernel) _ (hs c (by simp [hc]))
  cap_nil := rfl

example : ∀ m ∈ sizesFound (latinRx 'ſ') capWord textFloats c!"Père.1.5GB.700 mb.avi", ∃ q, m.value = .ok q ∧
    (PlainFloats textFloats q → fromString (qenv (latinRx 'ſ') capWord textFloats) .size q.text = .ok q) := fun m hm =>
  C30_size _ latin_usual latinUni_cased _ _ latin_tables _ (by unfold PlainCase; decide +kernel) m hm

end Guessit
