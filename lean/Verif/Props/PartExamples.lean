import Verif.Props.Part

/-! # C118: no failure, instances and counterexamples -/

namespace Guessit
open Spec Re

/-- C118: reading the numeral of a hit never fails, in a text without the characters that only regular expressions take for letters. -/
theorem C118_no_error (E : RxEnv) (hE : Usual E) (hC : Cased E.u) (s : Str) (hP : PlainCase E s) (h : RxHit)
    (hh : h ∈ (partPattern E partPrefixes).re.hits s) : ∀ k ∈ (partPattern E partPrefixes).kids s h, ∃ n, k.value = .ok n := by
  obtain ⟨i, j, c⟩ := h
  obtain ⟨h1, _⟩ := hits_sound hh
  simp only at h1
  obtain ⟨a, g1, g2, rfl⟩ := (part_matchAt hE).1 h1
  intro k hk
  have haj : a < j := by
    by_contra hc
    simp [RxPattern.kids, partPattern, List.lookup, hc] at hk
  rw [kids_one (name := c!"part") rfl haj, List.mem_singleton] at hk
  subst hk
  rcases takes_value hE hC hP (numeral_takes hE g2).2 haj with ⟨n, _, _, t, _⟩ | ⟨n, t, _, _⟩
  · exact ⟨n, t⟩
  · exact ⟨n, t⟩

/-- ASCII and the letter é. -/
def latinUni : Uni where
  digit := asciiUni.digit
  space := asciiUni.space
  lower := List.map lowLetter
  upper := List.map upLetter

/-- The literals that match a character when `long` is taken for an `s`. -/
def latinRx (long : Char) : RxEnv where
  u := latinUni
  same := fun l c => c = l || c = upLetter l || (l = 's' && c = long)

theorem latinUni_sane : Sane latinUni where
  digit_space := asciiUni_sane.digit_space
  minus := by decide
  plus := by decide
  newline := by decide
  signs := by decide
  upper_signs := by
    intro w hw
    simp only [latinUni]
    conv_rhs => rw [← List.map_id w]
    apply List.map_congr_left
    intro c hc
    have hall : ∀ c ∈ c!"MCDLXVI", upLetter c = c := by decide
    exact hall c (hw c hc)
  lower_space := by
    rintro w ⟨c, hc, hs⟩
    refine ⟨c, ?_, hs⟩
    simp only [latinUni, List.mem_map]
    refine ⟨c, hc, ?_⟩
    simp only [latinUni, asciiUni, decide_eq_true_eq] at hs
    rcases hs with rfl | rfl | rfl <;> decide
  lower_nil := rfl
  words_space := by decide

theorem latinUni_cased : Cased latinUni where
  upper := fun _ _ => rfl
  lower := fun _ _ => rfl
  space := by decide +kernel
  digit := by decide +kernel

theorem latin_usual : Usual (latinRx 'ſ') where
  sane := latinUni_sane
  digit := by intro c _; rfl
  same := by
    intro l hl c hc
    have hall : ∀ l ∈ c!"abcdefghijklmnopqrstuvwxyz", upLetter l = l.toUpper := by decide +kernel
    have hne : c ≠ 'ſ' := by rintro rfl; revert hc; decide
    simp [latinRx, hall l hl, hne]
  apart := by
    intro l hl l' hl' c h h'
    have hall : ∀ l ∈ c!"abcdefghijklmnopqrstuvwxyz", ∀ l' ∈ c!"abcdefghijklmnopqrstuvwxyz",
        (l = l' ∨ (l ≠ upLetter l' ∧ upLetter l ≠ l' ∧ upLetter l ≠ upLetter l')) ∧ l ≠ 'ſ' ∧ upLetter l ≠ 'ſ' := by
      decide +kernel
    have hs := hall l hl l' hl'
    have hs' := hall l' hl' l hl
    simp only [latinRx, Bool.or_eq_true, Bool.and_eq_true, decide_eq_true_eq] at h h'
    rcases hs.1 with h0 | ⟨h1, h2, h3⟩
    · exact h0
    · rcases h with (rfl | rfl) | ⟨rfl, rfl⟩ <;> rcases h' with (h' | h') | ⟨h', h''⟩
      · exact h'
      · exact absurd h' h1
      · exact absurd h'' hs.2.1
      · exact absurd h' h2
      · exact absurd h' h3
      · exact absurd h'' hs.2.2
      · exact absurd h'.symm hs'.2.1
      · exact absurd h'.symm hs'.2.2
      · exact h'.symm
  letter := by
    intro l hl c h
    simp only [latinRx, Bool.or_eq_true, Bool.and_eq_true, decide_eq_true_eq] at h
    have hall : ∀ l ∈ c!"abcdefghijklmnopqrstuvwxyz", Uni.isDigit latinUni l = false ∧ Uni.isDigit latinUni (upLetter l) = false := by decide +kernel
    rcases h with (rfl | rfl) | ⟨rfl, rfl⟩
    · exact (hall _ hl).1
    · exact (hall _ hl).2
    · decide

/-- What is reported, as position and value. -/
def partsOf (E : RxEnv) (s : Str) : List (Nat × Nat × Option Int) :=
  ((partPattern E partPrefixes).found s).map fun m => (m.start, m.stop, m.value.toOption)

example : PlainCase (latinRx 'ſ') c!"Movie.Part.XIV.Twenty" := by unfold PlainCase; decide +kernel
example : partsOf (latinRx 'ſ') c!"movie.Part.XIV.avi" = [(11, 14, some 14)] ∧ partsOf (latinRx 'ſ') c!"pt2-part twenty" = [(2, 3, some 2), (9, 15, some 20)] := by
  decide +kernel

/-- C118: that every number word guessit knows is recognised is false: where one word begins with another, or with a Roman numeral,
only the shorter one is tried. -/
theorem C118_counterexample : ∀ w ∈ [c!"fourteen", c!"sixteen", c!"seventeen", c!"eighteen", c!"nineteen", c!"une", c!"deux", c!"cinq", c!"dix",
    c!"douze", c!"dix-sept", c!"dixhuit", c!"vingt"], (∃ e ∈ wordTable, w ∈ e.2) ∧ partsOf (latinRx 'ſ') (c!"part " ++ w) = [] := by decide +kernel

/-- C118: a character that regular expressions take for a letter while `str.lower` does not makes the numeral unreadable: the exception is not
caught, and the call fails. -/
theorem C118_counterexample_error : ∃ h ∈ (partPattern (latinRx 'ſ') partPrefixes).re.hits c!"part ſix", ∃ k ∈ (partPattern (latinRx 'ſ') partPrefixes).kids c!"part ſix" h,
    (partPattern (latinRx 'ſ') partPrefixes).parentValid c!"part ſix" ((partPattern (latinRx 'ſ') partPrefixes).parent c!"part ſix" h) = true ∧
    k.name = c!"part" ∧ surrounded c!"part ſix" k = true ∧ k.value = .error .valueError := by
  refine ⟨⟨0, 8, [(1, (5, 8))]⟩, ?_, ⟨c!"part", 5, 8, .error .valueError⟩, ?_, ?_, rfl, ?_, rfl⟩
  · decide +kernel
  · rw [kids_one (name := c!"part") rfl (by omega), List.mem_singleton]
    rfl
  · decide +kernel
  · decide +kernel

end Guessit
