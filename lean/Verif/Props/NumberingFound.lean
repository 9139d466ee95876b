import Verif.Props.Numbering

/-! # C128: what is reported -/

namespace Guessit
open Spec Re

section
variable {E : RxEnv} {C : EpisodeConfig} {s : Str}

theorem numbering_least (k : Numbering) : 0 < (digitsListed k).1 := by cases k <;> decide

theorem numbering_words {k : Numbering} {w : Str} (h : w ∈ (joiners k)) : w = c!"-" ∨ (w ∈ [c!"e", c!"x"]) := by
  cases k <;> simp [joiners] at h ⊢ <;> tauto

theorem moreRe_eq (k : Numbering) : k.moreRe E = .seq (.grp 5 (E.words (joiners k))) (.grp 2 (digitsRe E.u (digitsListed k).1 (digitsListed k).2)) := by
  cases k <;> rfl

theorem mem_more {k : Numbering} {i j : Nat} {c c' : Caps} : (j, c') ∈ (k.moreRe E).exec s i c ↔
    ∃ d, MarkAt E (joiners k) s i d ∧ Few E (digitsListed k).1 (digitsListed k).2 s d j ∧ c' = (2, (d, j)) :: (5, (i, d)) :: c := by
  simp only [moreRe_eq, mem_seq, mem_mark, mem_fewGroup]
  constructor
  · rintro ⟨d, c1, ⟨h1, rfl⟩, h2, rfl⟩; exact ⟨d, h1, h2, rfl⟩
  · rintro ⟨d, h1, h2, rfl⟩; exact ⟨d, _, ⟨h1, rfl⟩, h2, rfl⟩

theorem mem_version {i j : Nat} {c c' : Caps} : (j, c') ∈ E.versionRe.exec s i c ↔ VersionAt E s i j ∧ c' = (8, (i + 1, j)) :: c := by
  simp only [RxEnv.versionRe, Re.cat, mem_seq, mem_letter, mem_run, mem_eps]
  constructor
  · rintro ⟨_, _, ⟨h1, rfl, rfl⟩, j', c1, ⟨h2, rfl⟩, rfl, rfl⟩
    exact ⟨⟨h1, h2⟩, rfl⟩
  · rintro ⟨⟨h1, h2⟩, rfl⟩
    exact ⟨i + 1, c, ⟨h1, rfl, rfl⟩, j, _, ⟨h2, rfl⟩, rfl, rfl⟩

theorem version_head {i j : Nat} {c : Caps} (h : VersionAt E s i j) (hj : NoDigitAt E s j) : (E.versionRe.exec s i c).head? = some (j, (8, (i + 1, j)) :: c) := by
  obtain ⟨⟨x, h1, h2⟩, h3⟩ := h
  exact seq_head (chr_head h1 h2) (seq_head (grp_head (digits_head h3.1 h3.2 hj)) eps_head)

/-- The words before the numbers of a list: the one character is a dash, or no separator and no digit. -/
theorem numbering_mark (hE : Usual E) (hL : Literal E) {k : Numbering} {i d : Nat} (h : MarkAt E (joiners k) s i d) :
    d = i + 1 ∧ CharAt s (fun c => c = '-' ∨ ¬ (c ∈ seps ∨ Digit E c ∨ E.same 'v' c = true)) i := by
  obtain ⟨w, h1, h2, rfl⟩ := h
  rcases numbering_words h1 with rfl | h3
  · obtain ⟨c, g1, g2⟩ := h2 0 '-' rfl
    exact ⟨rfl, c, g1, .inl ((hL '-' (by decide) c).1 g2)⟩
  · have : ∃ l ∈ c!"abcdefghijklmnopqrstuvwxyz", w = [l] ∧ l ≠ 'v' := by
      simp only [List.mem_cons, List.not_mem_nil, or_false] at h3
      rcases h3 with rfl | rfl
      · exact ⟨'e', by decide, rfl, by decide⟩
      · exact ⟨'x', by decide, rfl, by decide⟩
    obtain ⟨l, g0, rfl, gv⟩ := this
    obtain ⟨c, g1, g2⟩ := h2 0 l rfl
    refine ⟨rfl, c, g1, .inr ?_⟩
    rintro (g | g | g)
    · rw [sep_not_letter hE g0 g] at g2; cases g2
    · exact letter_not_digit hE g0 g2 g
    · exact gv (hE.apart l g0 'v' (by decide) c g2 g)

theorem dash_not_digit (hE : Usual E) : ¬ Digit E '-' := fun h => sep_not_digit hE (by decide) h

theorem numbering_avoids (hE : Usual E) (hL : Literal E) (k : Numbering) : Avoids E (joiners k) (Digit E) := by
  intro w hw
  rcases numbering_words hw with rfl | h3
  · refine ⟨by decide, ?_⟩
    intro l hl c hs hd
    obtain rfl : l = '-' := by simpa using hl
    obtain rfl := (hL '-' (by decide) c).1 hs
    exact dash_not_digit hE hd
  · have : Lettered w := by
      simp only [List.mem_cons, List.not_mem_nil, or_false] at h3
      rcases h3 with rfl | rfl
      · exact ⟨by decide, by decide⟩
      · exact ⟨by decide, by decide⟩
    exact ⟨this.1, fun l hl c hs => letter_not_digit hE (this.2 l hl) hs⟩

theorem more_head (hE : Usual E) (hL : Literal E) {k : Numbering} {i d j : Nat} {c : Caps} (h1 : MarkAt E (joiners k) s i d) (h2 : Few E (digitsListed k).1 (digitsListed k).2 s d j)
    (hj : NoDigitAt E s j) : ((k.moreRe E).exec s i c).head? = some (j, (2, (d, j)) :: (5, (i, d)) :: c) := by
  rw [moreRe_eq]
  refine seq_first (mem_mark.2 ⟨h1, rfl⟩) (grp_head (few_head h2 (.inr hj))) ?_
  intro k' c' g0 g2
  obtain ⟨g1, rfl⟩ := mem_mark.1 g0
  obtain ⟨⟨e, c2⟩, g2⟩ := List.exists_mem_of_ne_nil _ g2
  obtain ⟨g4, rfl⟩ := mem_fewGroup.1 g2
  obtain rfl := mark_unique (numbering_avoids hE hL k) h1 g1 (digits_char (h2.run (numbering_least k))) (digits_char (g4.run (numbering_least k)))
  exact ⟨rfl, rfl⟩

/-! ## Lists -/

theorem fewListed_listed {k : Numbering} {i e : Nat} {l : List (Nat × Nat × Nat)} (h : FewListedAt E (joiners k) (digitsListed k).1 (digitsListed k).2 s i l e) : ListedAt E (joiners k) s i l e := by
  induction h with
  | nil => exact .nil
  | cons h1 h2 _ ih => exact .cons ⟨h1, h2.run (numbering_least k)⟩ ih

theorem fewListed_run (hE : Usual E) (hL : Literal E) {k : Numbering} {i e : Nat} {l : List (Nat × Nat × Nat)} (h : FewListedAt E (joiners k) (digitsListed k).1 (digitsListed k).2 s i l e)
    (he : NoDigitAt E s e) : ∀ f, l.length ≤ f → ∃ more, (k.moreRe E).run s f i = l.map (itemHit 2 5) ++ more := by
  induction h with
  | nil => intro f _; exact ⟨_, rfl⟩
  | cons h1 h2 h3 ih =>
    intro f hf
    cases f with
    | zero => simp at hf
    | succ f =>
      obtain ⟨more, h4⟩ := ih he f (by simpa using hf)
      refine ⟨more, ?_⟩
      rw [Re.run, matchAt_head (more_head hE hL h1 h2 (listed_start (numbering_avoids hE hL k) (fewListed_listed h3) he))]
      simp only [h4, List.map_cons, List.cons_append]
      rfl

/-! ## Nothing reaches a number after a separator -/

/-- A match of a chain ends after a digit. -/
def AfterDigit (E : RxEnv) (s : Str) (j : Nat) : Prop := 0 < j ∧ CharAt s (Digit E) (j - 1)

theorem afterDigit_few {lo hi d j : Nat} (h : Few E lo hi s d j) (hlo : 0 < lo) : AfterDigit E s j := by
  have := h.least
  exact ⟨by omega, h.digits (j - 1) (by omega) (by omega)⟩

theorem numbered_bounds (hE : Usual E) {k : Numbering} {i d j : Nat} {season : Option (Nat × Nat)} (h : NumberedAt E k s i season d j) :
    i < j ∧ AfterDigit E s j ∧ (∀ p, i ≤ p → p < j → CharAt s (· ∉ seps) p) := by
  have hdig : ∀ {lo hi d j : Nat}, Few E lo hi s d j → ∀ p, d ≤ p → p < j → CharAt s (· ∉ seps) p := by
    intro lo hi d j h p h1 h2
    obtain ⟨c, h3, h4⟩ := h.digits p h1 h2
    exact ⟨c, h3, fun hc => sep_not_digit hE hc h4⟩
  cases k with
  | two => obtain ⟨_, rfl, h⟩ := h; have := h.least; exact ⟨by omega, afterDigit_few h (by decide), hdig h⟩
  | long => obtain ⟨_, rfl, h⟩ := h; have := h.least; exact ⟨by omega, afterDigit_few h (by decide), hdig h⟩
  | one => obtain ⟨_, rfl, h⟩ := h; have := h.least; exact ⟨by omega, afterDigit_few h (by decide), hdig h⟩
  | duplicate =>
    obtain ⟨_, h1, h2⟩ := h
    have m1 := h1.least
    have m2 := h2.least
    refine ⟨by omega, afterDigit_few h2 (by decide), fun p g1 g2 => ?_⟩
    by_cases hp : p < d
    · exact hdig h1 p g1 hp
    · exact hdig h2 p (by omega) g2
  | marked =>
    obtain ⟨h1, h2⟩ := h
    have m2 := h2.least
    have he : ∀ {b : Nat}, MarkAt E [c!"e"] s b d → CharAt s (· ∉ seps) b := by
      intro b hb
      obtain ⟨c, g1, g2⟩ := e_char hE (mark_e hb).2
      exact ⟨c, g1, fun g => g2 (.inl g)⟩
    rcases h1 with ⟨_, h1⟩ | ⟨b, _, h0, h1⟩
    · have := (mark_e h1).1
      refine ⟨by omega, afterDigit_few h2 (by decide), fun p g1 g2 => ?_⟩
      by_cases hp : p < d
      · obtain rfl : p = i := by omega
        exact he h1
      · exact hdig h2 p (by omega) g2
    · have := (mark_e h1).1
      have m1 := h0.least
      refine ⟨by omega, afterDigit_few h2 (by decide), fun p g1 g2 => ?_⟩
      by_cases hp : p < b
      · exact hdig h0 p g1 hp
      · by_cases hp : p < d
        · obtain rfl : p = b := by omega
          exact he h1
        · exact hdig h2 p (by omega) g2

theorem numbers_moves (hE : Usual E) (hL : Literal E) (k : Numbering) : Moves s [k.firstRe E, E.versionRe, k.moreRe E] := by
  intro r hr i j c hm
  simp only [List.mem_cons, List.not_mem_nil, or_false] at hr
  rcases hr with rfl | rfl | rfl
  · obtain ⟨_, _, h1, _⟩ := numbered_sound (matchAt_mem hm)
    exact (numbered_bounds hE h1).1
  · obtain ⟨⟨_, h1, _⟩, _⟩ := mem_version.1 (matchAt_mem hm)
    omega
  · obtain ⟨d, h1, h2, _⟩ := mem_more.1 (matchAt_mem hm)
    have := (numbering_mark hE hL h1).1
    have := h2.least
    omega

/-- What is before a number is not a number and a dash. -/
def NotListed (E : RxEnv) (s : Str) (i : Nat) : Prop := ¬ (2 ≤ i ∧ CharAt s (· = '-') (i - 1) ∧ CharAt s (Digit E) (i - 2))

theorem numbers_first_before (hE : Usual E) {k : Numbering} {i : Nat} (hf : FreeBefore s i) :
    ∀ i' j' c', i' < i → (k.firstRe E).matchAt s i' = some (j', c') → j' < i ∧ AfterDigit E s j' := by
  intro i' j' c' hlt hm
  obtain ⟨_, _, h1, _⟩ := numbered_sound (matchAt_mem hm)
  obtain ⟨h2, h3, h4⟩ := numbered_bounds hE h1
  refine ⟨?_, h3⟩
  by_contra hcon
  rcases hf with h | h
  · omega
  · exact (h4 (i - 1) (by omega) (by omega)).false h fun c a b => a b

theorem numbers_before (hE : Usual E) (hL : Literal E) {k : Numbering} {i : Nat} (hf : FreeBefore s i) (hn : NotListed E s i) :
    ∀ r ∈ [k.firstRe E, E.versionRe, k.moreRe E], ∀ i' j' c', i' < i → AfterDigit E s i' → r.matchAt s i' = some (j', c') → j' < i ∧ AfterDigit E s j' := by
  intro r hr i' j' c' hlt hq hm
  have hsep : CharAt s (· ∈ seps) (i - 1) := by
    rcases hf with h | h
    · omega
    · exact h
  simp only [List.mem_cons, List.not_mem_nil, or_false] at hr
  rcases hr with rfl | rfl | rfl
  · exact numbers_first_before hE hf i' j' c' hlt hm
  · obtain ⟨⟨h1, h2, h3⟩, _⟩ := mem_version.1 (matchAt_mem hm)
    refine ⟨?_, by omega, h3 (j' - 1) (by omega) (by omega)⟩
    by_contra hcon
    by_cases hi : i' = i - 1
    · subst hi
      exact h1.false hsep fun c a b => by rw [sep_not_letter hE (by decide) b] at a; cases a
    · exact (h3 (i - 1) (by omega) (by omega)).false hsep fun c a b => sep_not_digit hE b a
  · obtain ⟨d, h1, h2, _⟩ := mem_more.1 (matchAt_mem hm)
    obtain ⟨g1, g2⟩ := numbering_mark hE hL h1
    have m1 := h2.least
    refine ⟨?_, afterDigit_few h2 (numbering_least k)⟩
    by_contra hcon
    by_cases hi : i' = i - 1
    · subst hi
      obtain ⟨c, h3, h4⟩ := g2
      rcases h4 with rfl | h4
      · exact hn ⟨by have := hq.1; omega, ⟨'-', h3, rfl⟩, by have := hq.2; rwa [show i - 1 - 1 = i - 2 by omega] at this⟩
      · obtain ⟨c', h5, h6⟩ := hsep
        rw [h3, Option.some.injEq] at h5; subst h5
        exact h4 (.inl h6)
    · exact (h2.digits (i - 1) (by omega) (by omega)).false hsep fun c a b => sep_not_digit hE b a

end
end Guessit
