import Verif.Model.Finders
import Verif.Spec.Finders
import Verif.Proofs.Regex

/-! # C45: identifiers -/

namespace Guessit
open Spec

theorem idChar_iff (c : Char) : idChar c = true ↔ IdChar c := by
  simp only [idChar, IdChar, Char.isAlpha, Char.isUpper, Char.isLower, Char.isDigit, Bool.or_eq_true, Bool.and_eq_true,
    decide_eq_true_eq, Char.le_def, ge_iff_le]
  have h1 : 'a'.val = 97 := rfl
  have h2 : 'z'.val = 122 := rfl
  have h3 : 'A'.val = 65 := rfl
  have h4 : 'Z'.val = 90 := rfl
  have h5 : '0'.val = 48 := rfl
  have h6 : '9'.val = 57 := rfl
  rw [h1, h2, h3, h4, h5, h6]
  tauto

/-- A match of the pattern at `a`: the maximal extent from `a` on. -/
theorem idnum_matchAt {s : Str} {a b : Nat} {c : Caps} (h : idnumRe.matchAt s a = some (b, c)) :
    a + 20 ≤ b ∧ Re.AllIn s idChar a b ∧ (∀ x, s[b]? = some x → idChar x = false) := by
  have ha : a ≤ s.length := by
    by_contra hc
    have hm := Re.matchAt_mem h
    simp only [idnumRe, Re.exec, Option.getD_none] at hm
    rw [show s.length - a = 0 by omega] at hm
    simp [repExec] at hm
  have hm := (Re.mem_rep_chr ha).1 (Re.matchAt_mem h)
  refine ⟨hm.2.1, hm.2.2, ?_⟩
  intro x hx
  by_contra hp
  simp only [Bool.not_eq_false] at hp
  have hall : Re.AllIn s idChar a (b + 1) := by
    intro k h1 h2
    by_cases hk : k = b
    · subst hk; exact ⟨x, hx, hp⟩
    · exact hm.2.2 k h1 (by omega)
  have hmem : (b + 1, ([] : Caps)) ∈ idnumRe.exec s a [] := (Re.mem_rep_chr ha).2 ⟨rfl, by omega, hall⟩
  have hsort : (idnumRe.exec s a []).Pairwise (fun x y => y.1 < x.1) := by
    have := @Re.repExec_chr_sorted s idChar (s.length - a) 20 a []
    simpa only [idnumRe, Re.exec, Option.getD_none] using this
  have := (Re.head_max hsort (x := (b, c)) h).2 _ hmem
  simp at this; omega

theorem idnum_matches {s : Str} {a b : Nat} (h : a + 20 ≤ b) (hall : Re.AllIn s idChar a b) : idnumRe.matchAt s a ≠ none := by
  have hb := hall.le (by omega)
  rw [Ne, Re.matchAt_none]
  intro he
  have : (b, ([] : Caps)) ∈ idnumRe.exec s a [] := (Re.mem_rep_chr (by omega)).2 ⟨rfl, h, hall⟩
  rw [he] at this; cases this

theorem isRun_iff {s : Str} {a b : Nat} (hab : a < b) : IsRun IdChar s a b ↔
    Re.AllIn s idChar a b ∧ (∀ x, 0 < a → s[a - 1]? = some x → idChar x = false) ∧ (∀ x, s[b]? = some x → idChar x = false) := by
  constructor
  · intro h
    refine ⟨?_, ?_, ?_⟩
    · intro k h1 h2
      have : k < s.length := by have := h.le; omega
      exact ⟨s[k], List.getElem?_eq_getElem this, (idChar_iff _).2 (h.all k _ h1 h2 (List.getElem?_eq_getElem this))⟩
    · intro x h0 hx
      have := h.left x h0 hx
      rw [← idChar_iff] at this; simpa using this
    · intro x hx
      have := h.right x hx
      rw [← idChar_iff] at this; simpa using this
  · rintro ⟨h1, h2, h3⟩
    refine ⟨hab, h1.le hab, ?_, ?_, ?_⟩
    · intro i c hi1 hi2 hc
      obtain ⟨x, hx, hp⟩ := h1 i hi1 hi2
      rw [hc] at hx; cases hx; exact (idChar_iff _).1 hp
    · intro c h0 hc; rw [← idChar_iff, h2 c h0 hc]; simp
    · intro c hc; rw [← idChar_iff, h3 c hc]; simp

theorem findIter_idnum (s : Str) : ∀ fuel i, s.length + 1 ≤ i + fuel → (i = 0 ∨ ∀ x, s[i]? = some x → idChar x = false) →
    (∀ a b, (a, b) ∈ idnumRe.findIterFrom s fuel i ↔ IsRun IdChar s a b ∧ a + 20 ≤ b ∧ i ≤ a) ∧
    (idnumRe.findIterFrom s fuel i).Pairwise (fun x y => x.2 < y.1) := by
  intro fuel
  induction fuel with
  | zero =>
    intro i hf _
    refine ⟨?_, by simp [Re.findIterFrom]⟩
    intro a b
    simp only [Re.findIterFrom, List.not_mem_nil, false_iff]
    rintro ⟨h1, h2, h3⟩
    have := h1.le; omega
  | succ fuel ih =>
    intro i hf hi
    unfold Re.findIterFrom
    by_cases hle : i ≤ s.length
    · rw [if_pos hle]
      cases hs : idnumRe.searchFrom s i (s.length - i) with
      | none =>
        refine ⟨?_, by simp⟩
        intro a b
        simp only [List.not_mem_nil, false_iff]
        rintro ⟨h1, h2, h3⟩
        have hn := Re.searchFrom_none hs a h3 (by have := h1.le; have := h1.lt; omega)
        exact idnum_matches h2 ((isRun_iff h1.lt).1 h1).1 hn
      | some r =>
        obtain ⟨a0, b0, c0⟩ := r
        obtain ⟨hm, h1, h2, h3⟩ := Re.searchFrom_some hs
        obtain ⟨hlen, hall, hstop⟩ := idnum_matchAt hm
        have hrun : IsRun IdChar s a0 b0 := by
          refine (isRun_iff (by omega)).2 ⟨hall, ?_, hstop⟩
          intro x h0 hx
          by_contra hp
          simp only [Bool.not_eq_false] at hp
          by_cases he : a0 = i
          · subst he
            rcases hi with rfl | hi
            · omega
            · obtain ⟨y, hy, hpy⟩ := hall a0 (Nat.le_refl _) (by omega)
              rw [hi y hy] at hpy; cases hpy
          · have hall' : Re.AllIn s idChar (a0 - 1) b0 := by
              intro k hk1 hk2
              by_cases hk : k = a0 - 1
              · subst hk; exact ⟨x, hx, hp⟩
              · exact hall k (by omega) hk2
            exact idnum_matches (by omega) hall' (h3 (a0 - 1) (by omega) (by omega))
        obtain ⟨ih1, ih2⟩ := ih b0 (by omega) (Or.inr hstop)
        dsimp only
        refine ⟨?_, ?_⟩
        · intro a b
          rw [List.mem_cons, ih1]
          constructor
          · rintro (h | ⟨g1, g2, g3⟩)
            · cases h; exact ⟨hrun, hlen, h1⟩
            · exact ⟨g1, g2, by omega⟩
          · rintro ⟨g1, g2, g3⟩
            have ga : a0 ≤ a := by
              by_contra hc
              exact idnum_matches g2 ((isRun_iff g1.lt).1 g1).1 (h3 a g3 (by omega))
            have hr := (isRun_iff g1.lt).1 g1
            by_cases he : a = a0
            · subst he
              left
              have : b = b0 := by
                rcases Nat.lt_trichotomy b b0 with hlt | heq | hgt
                · obtain ⟨y, hy, hpy⟩ := hall b (by have := g1.lt; omega) hlt
                  rw [hr.2.2 y hy] at hpy; cases hpy
                · exact heq
                · obtain ⟨y, hy, hpy⟩ := hr.1 b0 (by omega) hgt
                  rw [hstop y hy] at hpy; cases hpy
              rw [this]
            · right
              refine ⟨g1, g2, ?_⟩
              by_contra hc
              obtain ⟨y, hy, hpy⟩ := hall (a - 1) (by omega) (by omega)
              rw [hr.2.1 y (by omega) hy] at hpy; cases hpy
        · refine List.pairwise_cons.2 ⟨?_, ih2⟩
          rintro ⟨a, b⟩ hab
          obtain ⟨g1, g2, g3⟩ := (ih1 a b).1 hab
          rcases Nat.lt_or_ge b0 a with h | h
          · exact h
          · have : a = b0 := by omega
            subst this
            obtain ⟨y, hy, hpy⟩ := ((isRun_iff g1.lt).1 g1).1 a (Nat.le_refl _) g1.lt
            rw [hstop y hy] at hpy; cases hpy
    · rw [if_neg hle]
      refine ⟨?_, by simp⟩
      intro a b
      simp only [List.not_mem_nil, false_iff]
      rintro ⟨h1, h2, h3⟩
      have := h1.le; omega

/-! the counting loop -/

theorem digits_table : ∀ n < 128, (Char.ofNat n ∈ idDigits ↔ (Char.ofNat n).isDigit = true) := by decide +kernel
theorem letters_table : ∀ n < 128, (Char.ofNat n ∈ idLetters ↔ (Char.ofNat n).isAlpha = true) := by decide +kernel
theorem digits_ascii : ∀ c ∈ idDigits, c.toNat < 128 := by decide
theorem letters_ascii : ∀ c ∈ idLetters, c.toNat < 128 := by decide

theorem isDigit_iff (c : Char) : c ∈ idDigits ↔ c.isDigit = true := by
  by_cases h : c.toNat < 128
  · have := digits_table c.toNat h
    rwa [Char.ofNat_toNat] at this
  · constructor
    · intro hc; exact absurd (digits_ascii c hc) h
    · intro hc
      simp only [Char.isDigit, Bool.and_eq_true, decide_eq_true_eq, ge_iff_le, UInt32.le_iff_toNat_le] at hc
      have e2 : '9'.val.toNat = 57 := rfl
      rw [e2] at hc
      exact absurd (show c.toNat < 128 from by have := hc.2; have : c.toNat = c.val.toNat := rfl; omega) h

theorem isAlpha_iff (c : Char) : c ∈ idLetters ↔ c.isAlpha = true := by
  by_cases h : c.toNat < 128
  · have := letters_table c.toNat h
    rwa [Char.ofNat_toNat] at this
  · constructor
    · intro hc; exact absurd (letters_ascii c hc) h
    · intro hc
      simp only [Char.isAlpha, Char.isUpper, Char.isLower, Bool.or_eq_true, Bool.and_eq_true, decide_eq_true_eq, ge_iff_le,
        UInt32.le_iff_toNat_le] at hc
      have e2 : 'Z'.val.toNat = 90 := rfl
      have e3 : 'z'.val.toNat = 122 := rfl
      rw [e2, e3] at hc
      exact absurd (show c.toNat < 128 from by
        have : c.toNat = c.val.toNat := rfl
        rcases hc with hc | hc <;> (have := hc.2; omega)) h

def kindNo : IdKind → Nat
  | .digit => 0
  | .letter => 1
  | .hyphen => 2

theorem kindNo_inj {a b : IdKind} (h : kindNo a = kindNo b) : a = b := by cases a <;> cases b <;> simp_all [kindNo]

theorem idStep_switch (st : IdState) (k : IdKind) (hl : st.last = kindNo k) (c : Char) :
    (idStep st c).last = kindNo (idKind c) ∧
    (idStep st c).switchCount = st.switchCount + (if k = idKind c then 0 else 1) := by
  have hd : idDigits.contains c = c.isDigit := by
    rw [Bool.eq_iff_iff, ← isDigit_iff, List.contains_iff_mem]
  have ha : idLetters.contains c = c.isAlpha := by
    rw [Bool.eq_iff_iff, ← isAlpha_iff, List.contains_iff_mem]
  unfold idStep idKind
  simp only [hd, ha]
  by_cases h1 : c.isDigit = true
  · cases k <;> simp_all [kindNo]
  · by_cases h2 : c.isAlpha = true
    · cases k <;> simp_all [kindNo]
    · cases k <;> simp_all [kindNo]

theorem foldl_switch (t : Str) : ∀ (st : IdState) (k : IdKind), st.last = kindNo k →
    (t.foldl idStep st).switchCount = st.switchCount + changes (k :: t.map idKind) := by
  induction t with
  | nil => intro st k _; simp [changes]
  | cons c t ih =>
    intro st k hl
    obtain ⟨h1, h2⟩ := idStep_switch st k hl c
    rw [List.foldl_cons, ih _ _ h1, h2, List.map_cons, changes]
    omega

/-- The letters after a letter `l` (or at the beginning) that differ from the one before. -/
def letterSwitches : Option Char → Str → Nat
  | none, [] => 0
  | none, c :: t => 1 + changes (c :: t)
  | some l, t => changes (l :: t)

theorem alpha_not_digit (c : Char) (h : c.isAlpha = true) : c.isDigit = false := by
  have h1 := (isAlpha_iff c).2 h
  have : ∀ c ∈ idLetters, c.isDigit = false := by decide
  exact this c h1

theorem foldl_letters (t : Str) : ∀ (st : IdState),
    (t.foldl idStep st).letterCount = st.letterCount + (t.filter Char.isAlpha).length ∧
    (t.foldl idStep st).switchLetterCount = st.switchLetterCount + letterSwitches st.lastLetter (t.filter Char.isAlpha) := by
  induction t with
  | nil => intro st; cases h : st.lastLetter <;> simp [letterSwitches, changes, h]
  | cons c t ih =>
    intro st
    rw [List.foldl_cons]
    obtain ⟨h1, h2⟩ := ih (idStep st c)
    rw [h1, h2]
    by_cases hal : c.isAlpha = true
    · have hdg := alpha_not_digit c hal
      have e1 : (idStep st c).letterCount = st.letterCount + 1 := by simp [idStep, isAlpha_iff, isDigit_iff, hal, hdg]
      have e2 : (idStep st c).lastLetter = some c := by simp [idStep, isAlpha_iff, isDigit_iff, hal, hdg]
      have e3 : (idStep st c).switchLetterCount = if some c ≠ st.lastLetter then st.switchLetterCount + 1
        else st.switchLetterCount := by simp [idStep, isAlpha_iff, isDigit_iff, hal, hdg]
      rw [e1, e2, e3, List.filter_cons_of_pos hal]
      refine ⟨by simp; omega, ?_⟩
      cases hl : st.lastLetter with
      | none => simp [letterSwitches]; omega
      | some l =>
        simp only [letterSwitches, changes]
        by_cases hc : l = c
        · subst hc; simp
        · have : c ≠ l := fun h => hc h.symm
          simp [this, hc]; omega
    · have e1 : (idStep st c).letterCount = st.letterCount := by
        by_cases hdg : c.isDigit = true <;> simp [idStep, isAlpha_iff, isDigit_iff, hal, hdg]
      have e2 : (idStep st c).lastLetter = st.lastLetter := by
        by_cases hdg : c.isDigit = true <;> simp [idStep, isAlpha_iff, isDigit_iff, hal, hdg]
      have e3 : (idStep st c).switchLetterCount = st.switchLetterCount := by
        by_cases hdg : c.isDigit = true <;> simp [idStep, isAlpha_iff, isDigit_iff, hal, hdg]
      rw [e1, e2, e3, List.filter_cons_of_neg hal]
      exact ⟨rfl, rfl⟩

theorem idProbable_iff (t : Str) : idProbable t = true ↔ LooksLikeId t := by
  have h1 := foldl_switch t {} .letter rfl
  obtain ⟨h2, h3⟩ := foldl_letters t {}
  simp only [idProbable, h1, h2, h3, Bool.and_eq_true, decide_eq_true_eq]
  constructor
  · rintro ⟨g1, g2⟩
    refine ⟨by omega, ?_⟩
    cases hl : t.filter Char.isAlpha with
    | nil => exact Or.inl rfl
    | cons c l =>
      right
      rw [hl] at g2
      simpa [letterSwitches] using g2
  · rintro ⟨g1, g2⟩
    refine ⟨by omega, ?_⟩
    cases hl : t.filter Char.isAlpha with
    | nil => simp
    | cons c l =>
      rw [hl] at g2
      simp only [List.cons_ne_nil, false_or] at g2
      simp only [letterSwitches, List.length_cons] at *
      simp; omega

/-- C45: the reported spans are exactly the maximal runs of at least 20 identifier characters that alternate enough. -/
theorem C45_exactly_the_runs (s : Str) (a b : Nat) :
    (a, b) ∈ guessIdnumber s ↔ IsRun IdChar s a b ∧ 20 ≤ b - a ∧ LooksLikeId (textOf s a b) := by
  have := (findIter_idnum s (s.length + 1) 0 (by omega) (Or.inl rfl)).1 a b
  rw [guessIdnumber, List.mem_filter, idProbable_iff, Re.findIter, this, textOf]
  constructor
  · rintro ⟨⟨h1, h2, _⟩, h3⟩; exact ⟨h1, by omega, h3⟩
  · rintro ⟨h1, h2, h3⟩; exact ⟨⟨h1, by have := h1.lt; omega, Nat.zero_le _⟩, h3⟩

/-- C45: they are disjoint, in order, and reported once. -/
theorem C45_in_order (s : Str) : (guessIdnumber s).Pairwise (fun x y => x.2 < y.1) :=
  (findIter_idnum s (s.length + 1) 0 (by omega) (Or.inl rfl)).2.filter _

example : guessIdnumber c!"x.1a2b3c4d5e6f7a8b9c0d-ab.y" = [(2, 25)] := by decide +kernel
example : guessIdnumber c!"x.aaaaaaaaaaaaaaaaaaaaaaaaa" = [] := by decide +kernel

end Guessit
