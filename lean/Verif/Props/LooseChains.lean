import Verif.Props.NumberingSound
import Verif.Proofs.MoreChains
import Verif.Spec.MoreChains

/-! # C143, C144: numbers after a zero, numbers after `ep` -/

namespace Guessit
open Spec Re

section
variable {E : RxEnv} {C : EpisodeConfig} {s : Str}

/-- What is kept of such a chain lies in matches that follow one another, from its first group to a separator. -/
theorem loose_within {k : LooseChain} {ks : List RxHit} {h : RxHit} (hk : ks ∈ k.kept E C s) (hh : h ∈ ks) : ∃ h0 p ws, (k.firstRe E).matchAt s h0.start = some (h0.stop, h0.caps) ∧
    Follow h0.stop ws ∧ Of s ((k.rest E).map ChainPart.re) ws ∧ validLoose E C s (h0 :: p) = true ∧ lastStop h0.stop ws = lastStop h0.stop p ∧ (∀ x ∈ p, x ∈ ws) ∧
    h ∈ h0 :: p := by
  simp only [LooseChain.kept, List.mem_map] at hk
  obtain ⟨l, h1, rfl⟩ := hk
  obtain ⟨h0, h4, rfl⟩ := chains_sound _ _ h1
  obtain ⟨hs, h5, h6, h7⟩ := chainOf_once (s := s) (first := ⟨k.firstRe E, some 1⟩) (rest := k.rest E) rfl h0
  rw [h5] at hh
  obtain ⟨p, g1, g2, g3, _⟩ := trimmed_within (broken_single E C s h0) hh
  obtain ⟨ws, more, rfl, e2, e3, e4⟩ := sublist_within h6 g2
  exact ⟨h0, p, ws, h4, e2, fun x hx => h7 x (List.mem_append_left _ hx), g1, e3, e4, g3⟩

theorem loose_standing {h0 : RxHit} {p : List RxHit} (h : validLoose E C s (h0 :: p) = true) : Standing s h0.start (lastStop h0.stop p) := by
  rw [validLoose, Bool.and_eq_true] at h
  exact standing_iff.1 h.1

/-! ## 012 -/

/-- C143: a zero and two or three digits between separators, with no number and dash before, are reported as an episode by the chain of three or four digits too, with the same value. -/
theorem C143_reported (hE : Usual E) (hL : Literal E) {i j : Nat} (h0 : CharAt s (· = '0') i) (h : Few E 2 3 s (i + 1) j) (hst : Standing s i j)
    (hn : ¬ (2 ≤ i ∧ CharAt s (· = '-') (i - 1) ∧ CharAt s (Digit E) (i - 2))) :
    ({ name := c!"episode", start := i, stop := j, value := .ok (numberAt E s (i + 1) j) } : RxMatch Int) ∈ (EpisodeChain.numbers .long).found E C s := by
  have hz : Digit E '0' := by
    have := hE.digit '0' (by decide)
    simp only [Digit, Uni.isDigit, this]
    decide
  obtain ⟨c, hc, rfl⟩ := h0
  have h1 := h.least
  have h2 := h.most
  have := (C128_complete (C := C) hE hL (k := .long) (i := i) (d := i) (j := j) (season := none) ⟨rfl, rfl, by omega, by omega, fun p g1 g2 => by
    by_cases hp : p = i
    · subst hp; exact ⟨_, hc, hz⟩
    · exact h.digits p (by omega) g2⟩ hst hn).1
  have e : numberAt E s i j = numberAt E s (i + 1) j := by
    have ht : textOf s i j = '0' :: textOf s (i + 1) j := by
      have hlt : i < (s.take j).length := by
        have := (List.getElem?_eq_some_iff.1 hc).1
        rw [List.length_take]; omega
      have hg : (s.take j)[i] = '0' := by
        have := (List.getElem?_eq_some_iff.1 hc).2
        rw [List.getElem_take]; exact this
      simp only [textOf]
      rw [List.drop_eq_getElem_cons hlt, hg]
    have hd : E.u.digit '0' = some 0 := by
      have := hE.digit '0' (by decide)
      rw [this]; rfl
    simp only [numberAt, ht, digitsValue]
    simp [hd]
  rw [e] at this
  exact this

end
end Guessit
