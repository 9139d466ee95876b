import Verif.Props.SeasonsWhole
import Verif.Props.VersionsWhole
import Verif.Props.NumbersWhole
import Verif.Props.QuantitiesWhole

/-! # Names in which no number is written (C166) -/

namespace Guessit
open Spec

section
variable {E : RxEnv} {s : Str}

theorem no_number (h : ∀ c ∈ s, ¬ Digit E c) {a b n : Nat} : ¬ Number E s a b n := by
  intro hn
  obtain ⟨c, hc, hd⟩ := hn.digits a (Nat.le_refl _) hn.some
  exact h c (List.mem_of_getElem? hc) hd

theorem no_allOf (h : ∀ c ∈ s, ¬ Digit E c) {a b : Nat} (hab : a < b) : ¬ AllOf s (Digit E) a b := by
  intro hn
  obtain ⟨c, hc, hd⟩ := hn a (Nat.le_refl _) hab
  exact h c (List.mem_of_getElem? hc) hd

end

section
variable {O : Outside} {base : RuleEnv} {obj : Nat → PyVal} {sh : Str → Except PyErr (List Str)} {pa : List Str → Except PyErr Dict}
  {int : Dict → Except PyErr PyVal} {env : Env} {st : Api Unit} {name : NameArg} {o : OptArg} {d opts : Dict} {text : Str}

/-- C166: a name without digits (text or bytes) has no week, disc, number of discs, bonus, film or version. -/
theorem C166_digits (hl : ∀ t, base.uni.lower t = [] ↔ t = []) (ht : name.text = .ok text) (hs : Spec.Numbered O text) (hno : ∀ c ∈ text, ¬ Digit O.rx c)
    (ho : optionsInForce (guessitSys O base obj sh pa int) env st o = .ok opts)
    (h : (st.guessit (guessitSys O base obj sh pa int) env name o).2 = .value (.dict d)) :
    ∀ n ∈ [c!"week", c!"cd", c!"cd_count", c!"bonus", c!"film", c!"version"], ¬ Has d n := by
  intro n hn hh
  obtain ⟨gs, text', s, ha⟩ := guess_answers ho h
  have := ha.named
  rw [ht] at this
  cases this
  have hrun : program O base opts text = .ok s := by
    unfold program
    rw [ha.grown]
    exact ha.run
  have hni : n ≠ c!"input_string" := (by decide : ∀ n ∈ [c!"week", c!"cd", c!"cd_count", c!"bonus", c!"film", c!"version"], n ≠ c!"input_string") n hn
  obtain ⟨m, hm, hmn⟩ := (ha.has n hni).1 hh
  have hnum : ∀ a b j, ¬ Number O.rx text a b j := fun _ _ _ => no_number hno
  by_cases hv : n = c!"version"
  · subst hv
    obtain ⟨k, ⟨_, _, _, _, _, h2⟩, _⟩ := C163_program O base hl opts text hs.usual s hrun m hm hmn
    exact hnum _ _ _ h2
  · have hc : n ∈ countedNames ∧ n ≠ c!"part" := by
      have : ∀ n ∈ [c!"week", c!"cd", c!"cd_count", c!"bonus", c!"film", c!"version"], n ≠ c!"version" → n ∈ countedNames ∧ n ≠ c!"part" := by decide
      exact this n hn hv
    obtain ⟨k, ⟨a, b, j, _, hw⟩, _⟩ := C162_program O base hl opts text hs s hrun m hm n hc.1 hmn
    rcases hw with hw | hw | hw | hw | hw | hw
    · exact hnum _ _ _ hw.2.1
    · exact hnum _ _ _ hw.2.1
    · exact hnum _ _ _ hw.2.1
    · exact hnum _ _ _ hw.2.1
    · exact hnum _ _ _ hw.2.1
    · exact hc.2 hw.1

/-- C166: a name in which no digits are, and no numeral and no number word stands between separators (text or bytes), has no season, year, part or count. -/
theorem C166_numerals (hl : ∀ t, base.uni.lower t = [] ↔ t = []) (ht : name.text = .ok text) (hs : Spec.Numbered O text) (hL : Literal O.rx)
    (hno : ∀ k, ¬ NumberSomewhere O.rx text k)
    (ho : optionsInForce (guessitSys O base obj sh pa int) env st o = .ok opts)
    (h : (st.guessit (guessitSys O base obj sh pa int) env name o).2 = .value (.dict d)) :
    ∀ n ∈ [c!"season", c!"year", c!"part", c!"episode_count", c!"season_count", c!"count"], ¬ Has d n := by
  intro n hn hh
  obtain ⟨gs, text', s, ha⟩ := guess_answers ho h
  have := ha.named
  rw [ht] at this
  cases this
  have hrun : program O base opts text = .ok s := by
    unfold program
    rw [ha.grown]
    exact ha.run
  have hni : n ≠ c!"input_string" := (by decide : ∀ n ∈ [c!"season", c!"year", c!"part", c!"episode_count", c!"season_count", c!"count"], n ≠ c!"input_string") n hn
  obtain ⟨m, hm, hmn⟩ := (ha.has n hni).1 hh
  have hnum : ∀ a b j, ¬ Number O.rx text a b j := fun a b j hj => hno j ⟨a, b, Or.inl hj⟩
  have hnat : ∀ a b j, ¬ NumeralAt O.rx text a b j := fun a b j hj => hno j ⟨a, b, Or.inr hj⟩
  rcases (by decide : ∀ n ∈ [c!"season", c!"year", c!"part", c!"episode_count", c!"season_count", c!"count"], n ∈ datedNames ∨ n = c!"part" ∨ n ∈ countNames) n hn with hc | hc | hc
  · obtain ⟨k, ⟨⟨lo, _, ⟨a, b, h1⟩, _⟩, _⟩, _⟩ := C165_program O base hl opts text hs hL s hrun m hm n hc hmn
    exact h1.elim (hnum _ _ _) (hnat _ _ _)
  · subst hc
    obtain ⟨k, ⟨a, b, j, _, hw⟩, _⟩ := C162_program O base hl opts text hs s hrun m hm _ (by decide) hmn
    rcases hw with hw | hw | hw | hw | hw | ⟨_, h1, h2, ⟨i, _, hst⟩, hw⟩
    · exact hnum _ _ _ hw.2.1
    · exact hnum _ _ _ hw.2.1
    · exact hnum _ _ _ hw.2.1
    · exact hnum _ _ _ hw.2.1
    · exact hnum _ _ _ hw.2.1
    · rcases hw with hw | hw
      · exact hnum _ _ _ hw.1
      · exact hnat a b j ⟨Or.inr (Or.inl ⟨h1, hw.2⟩), Or.inr ⟨hw.1, hst.2⟩⟩
  · obtain ⟨k, ⟨i, a, b, j, _, _, h1⟩, _⟩ := C164_program O base hl opts text hs s hrun m hm n hc hmn
    exact h1.elim (hnum _ _ _) (hnat _ _ _)

/-- C166: a name without digits (text or bytes) has no size and no bit rate. -/
theorem C166_amounts (hl : ∀ t, base.uni.lower t = [] ↔ t = []) (ht : name.text = .ok text) (hs : Spec.Amounts O text) (hno : ∀ c ∈ text, ¬ Digit O.rx c)
    (ho : optionsInForce (guessitSys O base obj sh pa int) env st o = .ok opts)
    (h : (st.guessit (guessitSys O base obj sh pa int) env name o).2 = .value (.dict d)) :
    ∀ n ∈ [c!"size", c!"audio_bit_rate", c!"video_bit_rate"], ¬ Has d n := by
  intro n hn hh
  obtain ⟨gs, text', s, ha⟩ := guess_answers ho h
  have := ha.named
  rw [ht] at this
  cases this
  have hrun : program O base opts text = .ok s := by
    unfold program
    rw [ha.grown]
    exact ha.run
  have hni : n ≠ c!"input_string" := (by decide : ∀ n ∈ [c!"size", c!"audio_bit_rate", c!"video_bit_rate"], n ≠ c!"input_string") n hn
  obtain ⟨m, hm, hmn⟩ := (ha.has n hni).1 hh
  have hnum : ∀ units i j v u, ¬ Measured O.rx O.fl units text i j v u := by
    rintro units i j v u ⟨x, y, w, ha, _⟩
    cases ha with
    | whole k hk => exact no_number hno hk
    | decimal k h1 h2 _ _ _ => exact no_allOf hno h1 h2
  rcases C161_program O base hl opts text hs s hrun m hm n hn hmn with ⟨_, q, ⟨a, b, v, u, _, h2, _⟩, _⟩ | ⟨_, q, ⟨a, b, v, u, _, h2, _⟩, _⟩
  · exact hnum _ _ _ _ _ h2
  · exact hnum _ _ _ _ _ h2

end

/-! ## An example -/

/-- The letters of the numerals and of the number words. -/
def numeralLetters : Str := c!"mdclxviaefghnopqrstuwyzé"

theorem roman_some {n : Nat} (h : 1 ≤ n) : roman n ≠ [] := by
  rcases Nat.lt_or_ge n 5000 with h2 | h2
  · exact roman_ne_nil h h2
  · intro hh
    have h3 : List.replicate (n / 1000) 'M' = [] := by
      unfold roman at hh
      simp only [List.append_eq_nil_iff] at hh
      exact hh.1.1.1
    have : n / 1000 = 0 := by simpa using h3
    omega

/-- A numeral that is no number is a word of these letters. -/
theorem numeral_word {E : RxEnv} {s : Str} {a b n : Nat} (h : NumeralReads E s a b n) (hno : ¬ Number E s a b n) :
    ∃ w : Str, w ≠ [] ∧ (∀ c ∈ w, c ∈ numeralLetters) ∧ Spelled E s w a b := by
  rcases h with ⟨h, _⟩ | ⟨h1, h | ⟨ws, hws, w, hw, h⟩⟩ | ⟨_, w, hw, h⟩
  · exact absurd h hno
  · refine ⟨_, fun hh => roman_some h1 (List.map_eq_nil_iff.1 hh), fun c hc => ?_, h⟩
    obtain ⟨x, hx, rfl⟩ := List.mem_map.1 hc
    have : ∀ x ∈ c!"MCDLXVI", x.toLower ∈ numeralLetters := by decide
    exact this x (roman_chars x hx)
  · have : ∀ p ∈ partWords, ∀ w ∈ p.2, w ≠ [] ∧ ∀ c ∈ w, c ∈ numeralLetters := by decide +kernel
    exact ⟨w, (this _ hws w hw).1, (this _ hws w hw).2, h⟩
  · have : ∀ w ∈ [c!"zero", c!"zéro"], w ≠ [] ∧ ∀ c ∈ w, c ∈ numeralLetters := by decide +kernel
    exact ⟨w, (this w hw).1, (this w hw).2, h⟩

set_option maxRecDepth 100000

/-- No number is written in `Abba.mkv`. -/
theorem abba_numberless : ∀ k, ¬ NumberSomewhere weighedOutside.rx c!"Abba.mkv" k := by
  have hd : ∀ c ∈ c!"Abba.mkv", ¬ Digit weighedOutside.rx c := by
    show ∀ c ∈ c!"Abba.mkv", ¬ ((latinRx 'ſ').u.isDigit c = true)
    decide +kernel
  rintro k ⟨a, b, h | ⟨h, h2⟩⟩
  · exact no_number hd h
  · obtain ⟨w, hw, hl, hb, hs⟩ := numeral_word h (no_number hd)
    have hab : a < b := by have := List.length_pos_iff.2 hw; omega
    have hlet : ∀ i, a ≤ i → i < b → ∃ c, c!"Abba.mkv"[i]? = some c ∧ c ∉ c!"b.k" := by
      intro i h3 h4
      obtain ⟨c, hc, hsame⟩ := hs (i - a) w[i - a]! (by
        have : i - a < w.length := by omega
        simp [this])
      have hia : a + (i - a) = i := by omega
      rw [hia] at hc
      refine ⟨c, hc, fun hh => ?_⟩
      have hmem : w[i - a]! ∈ numeralLetters := hl _ (by
        have : i - a < w.length := by omega
        simp [this])
      have hall : ∀ l ∈ numeralLetters, ∀ c ∈ c!"b.k", (latinRx 'ſ').same l c = false := by decide +kernel
      have h5 := hall _ hmem c hh
      have h6 : (latinRx 'ſ').same (w[i - a]!) c = true := hsame
      rw [h5] at h6
      cases h6
    have hlen : b ≤ 8 := by
      obtain ⟨c, hc, _⟩ := hlet (b - 1) (by omega) (by omega)
      have := (List.getElem?_eq_some_iff.1 hc).1
      simp at this
      omega
    rcases h2 with h2 | ⟨h2, h3⟩
    · exact no_allOf hd hab h2
    · have hall : ∀ b ∈ List.range 9, ∀ a ∈ List.range b, (!(a == 0 || (c!"Abba.mkv"[a - 1]?.any fun c => seps.contains c)) || !(8 ≤ b || (c!"Abba.mkv"[b]?.any fun c => seps.contains c)) ||
          (List.range 8).any fun i => a ≤ i && i < b && (c!"Abba.mkv"[i]?.any fun c => c!"b.k".contains c)) = true := by decide +kernel
      have := hall b (List.mem_range.2 (by omega)) a (List.mem_range.2 hab)
      have h4 : (a == 0 || (c!"Abba.mkv"[a - 1]?.any fun c => seps.contains c)) = true := by
        rcases h2 with h2 | ⟨c, hc, hm⟩
        · simp [h2]
        · rw [hc, Bool.or_eq_true]
          exact Or.inr (by simpa using hm)
      have h5 : (decide (8 ≤ b) || (c!"Abba.mkv"[b]?.any fun c => seps.contains c)) = true := by
        rcases h3 with h3 | ⟨c, hc, hm⟩
        · have : 8 ≤ b := h3
          simp [this]
        · rw [hc, Bool.or_eq_true]
          exact Or.inr (by simpa using hm)
      rw [h4, h5] at this
      obtain ⟨i, _, hi⟩ := List.any_eq_true.1 (by simpa only [Bool.not_true, Bool.false_or] using this)
      rw [Bool.and_eq_true, Bool.and_eq_true, decide_eq_true_eq, decide_eq_true_eq] at hi
      obtain ⟨c, hc, hn⟩ := hlet i hi.1.1 hi.1.2
      rw [hc] at hi
      exact hn (by simpa using hi.2)

theorem weighed_abba_amounts : Spec.Amounts weighedOutside c!"Abba.mkv" where
  usual := latin_usual
  cased := latinUni_cased
  cap := capWord_capitalizes
  plain := by
    show PlainCase (latinRx 'ſ') _
    unfold PlainCase
    decide +kernel

theorem weighed_abba : Spec.Numbered weighedOutside c!"Abba.mkv" where
  usual := latin_usual
  cased := latinUni_cased
  plain := by
    show PlainCase (latinRx 'ſ') _
    unfold PlainCase
    decide +kernel

/-- A title, and nothing with a number. -/
theorem abba_call : plainItems ((Api.init : Api Unit).guessit weighedSys toyEnv (.str c!"Abba.mkv") .none).2 = some [
    (c!"title", some (.inl c!"Abba")), (c!"container", some (.inl c!"mkv")), (c!"mimetype", some (.inl c!"video/x-matroska")), (c!"type", some (.inl c!"movie"))] := by
  decide +kernel

example : ∃ d opts : Dict, optionsInForce weighedSys toyEnv Api.init .none = .ok opts ∧
    ((Api.init : Api Unit).guessit weighedSys toyEnv (.str c!"Abba.mkv") .none).2 = .value (.dict d) ∧
    (∀ n ∈ [c!"week", c!"cd", c!"cd_count", c!"bonus", c!"film", c!"version"], ¬ Has d n) ∧
    (∀ n ∈ [c!"size", c!"audio_bit_rate", c!"video_bit_rate"], ¬ Has d n) ∧
    ∀ n ∈ [c!"season", c!"year", c!"part", c!"episode_count", c!"season_count", c!"count"], ¬ Has d n := by
  obtain ⟨d, hd⟩ := items_dict abba_call
  have hno : ∀ c ∈ c!"Abba.mkv", ¬ Digit weighedOutside.rx c := by
    show ∀ c ∈ c!"Abba.mkv", ¬ ((latinRx 'ſ').u.isDigit c = true)
    decide +kernel
  exact ⟨d, _, rfl, hd, C166_digits asciiBase_lower rfl weighed_abba hno rfl hd, C166_amounts asciiBase_lower rfl weighed_abba_amounts hno rfl hd, C166_numerals asciiBase_lower rfl weighed_abba latin_literal abba_numberless rfl hd⟩

end Guessit
