import Verif.Proofs.Recognise
import Verif.Model.Part

/-! # Case-insensitive matching as matching of upper-case text -/

namespace Guessit
open Spec Re

/-- The lower-case letters. -/
def alphabet : Str := c!"abcdefghijklmnopqrstuvwxyz"

/-- The upper-case letter a character counts as, or the character itself. -/
def RxEnv.up (E : RxEnv) (c : Char) : Char := match alphabet.find? (fun l => E.same l c) with
  | some l => l.toUpper
  | none => c

theorem upper_inj : ∀ l ∈ alphabet, ∀ l' ∈ alphabet, l.toUpper = l'.toUpper → l = l' := by decide +kernel
theorem upper_ascii : ∀ l ∈ alphabet, l.toUpper.toNat < 128 := by decide +kernel

theorem up_iff {E : RxEnv} (hE : Usual E) {l c : Char} (hl : l ∈ alphabet) : E.same l c = true ↔ E.up c = l.toUpper := by
  unfold RxEnv.up
  constructor
  · intro h
    cases hf : alphabet.find? (fun l => E.same l c) with
    | none => exact absurd h (by simpa using List.find?_eq_none.1 hf l hl)
    | some l' =>
      have h1 := List.find?_some hf
      have h2 := List.mem_of_find?_eq_some hf
      rw [hE.apart l' h2 l hl c (by simpa using h1) h]
  · intro h
    cases hf : alphabet.find? (fun l => E.same l c) with
    | none =>
      rw [hf] at h
      simp only at h
      exact absurd ((hE.same l hl c (by rw [h]; exact upper_ascii l hl)).2 (.inr h)) (by simpa using List.find?_eq_none.1 hf l hl)
    | some l' =>
      rw [hf] at h
      have h1 := List.find?_some hf
      have h2 := List.mem_of_find?_eq_some hf
      rw [← upper_inj l' h2 l hl h]; simpa using h1

/-- The text in upper case, letter by letter. -/
def RxEnv.upText (E : RxEnv) (s : Str) : Str := s.map E.up

theorem up_charAt {E : RxEnv} (hE : Usual E) {s : Str} {l : Char} (hl : l ∈ alphabet) {k : Nat} :
    CharAt s (fun c => E.same l c = true) k ↔ (E.upText s)[k]? = some l.toUpper := by
  simp only [CharAt, RxEnv.upText, List.getElem?_map, Option.map_eq_some_iff, up_iff hE hl]

theorem up_literal {E : RxEnv} (hE : Usual E) {s w : Str} (hw : ∀ c ∈ w, c ∈ alphabet) {i : Nat} :
    LiteralAt E s w i ↔ w.map Char.toUpper <+: (E.upText s).drop i := by
  induction w generalizing i with
  | nil => simp [LiteralAt]
  | cons l w ih =>
    rw [LiteralAt.cons, up_charAt hE (hw l (by simp)), ih fun c hc => hw c (by simp [hc])]
    simp only [List.map_cons]
    constructor
    · rintro ⟨h1, h2⟩
      rw [drop_cons h1, List.cons_prefix_cons]
      exact ⟨rfl, h2⟩
    · intro h
      cases hd : (E.upText s).drop i with
      | nil => rw [hd] at h; simp at h
      | cons x r =>
        rw [hd, List.cons_prefix_cons] at h
        obtain ⟨g1, g2⟩ := get_of_drop hd
        exact ⟨by rw [g1, h.1], by rw [g2]; exact h.2⟩

/-! ## The Roman pattern -/

theorem exec_chr_up {E : RxEnv} (hE : Usual E) {s : Str} {l : Char} (hl : l ∈ alphabet) {i : Nat} {c : Caps} :
    (E.letter l).exec s i c = (Re.lit l.toUpper).exec (E.upText s) i c := by
  simp only [RxEnv.letter, Re.lit, exec, RxEnv.upText, List.getElem?_map]
  cases s[i]? with
  | none => rfl
  | some x =>
    simp only [Option.map_some, decide_eq_true_eq]
    by_cases h : E.same l x = true
    · rw [if_pos h, if_pos ((up_iff hE hl).1 h)]
    · rw [if_neg h, if_neg (fun h' => h ((up_iff hE hl).2 h'))]

theorem exec_rep_up {E : RxEnv} (hE : Usual E) {s : Str} {l : Char} (hl : l ∈ alphabet) {m M i : Nat} {c : Caps} :
    (Re.rep (E.letter l) m (some M)).exec s i c = (Re.rep (.lit l.toUpper) m (some M)).exec (E.upText s) i c := by
  simp only [exec, Option.getD_some]
  congr 1
  funext i c
  exact exec_chr_up hE hl

theorem exec_word_up {E : RxEnv} (hE : Usual E) {s : Str} : ∀ {w : Str}, (∀ c ∈ w, c ∈ alphabet) → ∀ {i : Nat} {c : Caps},
    (E.word w).exec s i c = (Re.text (w.map Char.toUpper)).exec (E.upText s) i c
  | [], _, _, _ => rfl
  | l :: w, hw, i, c => by
    simp only [RxEnv.word, List.map_cons, Re.text, exec]
    rw [exec_chr_up hE (hw l (by simp))]
    congr 1
    funext r
    exact exec_word_up hE (fun c hc => hw c (by simp [hc]))

theorem exec_place_up {E : RxEnv} (hE : Usual E) {s : Str} {o f t : Char} (ho : o ∈ alphabet) (hf : f ∈ alphabet) (ht : t ∈ alphabet)
    {i : Nat} {c : Caps} : (E.romanPlace o f t).exec s i c = (romanStage o.toUpper f.toUpper t.toUpper).exec (E.upText s) i c := by
  have hw : ∀ x y, x ∈ alphabet → y ∈ alphabet → ∀ c ∈ [x, y], c ∈ alphabet := by
    intro x y hx hy c hc
    simp only [List.mem_cons, List.not_mem_nil, or_false] at hc
    rcases hc with rfl | rfl <;> assumption
  simp only [RxEnv.romanPlace, romanStage, Re.alts, exec]
  have e1 := exec_word_up hE (s := s) (hw o t ho ht) (i := i) (c := c)
  have e2 := exec_word_up hE (s := s) (hw o f ho hf) (i := i) (c := c)
  rw [e1, e2]
  congr 2
  have e3 := exec_rep_up hE (s := s) hf (m := 0) (M := 1) (i := i) (c := c)
  simp only [exec] at e3
  rw [e3]
  congr 1
  funext r
  have e4 := exec_rep_up hE (s := s) ho (m := 0) (M := 3) (i := r.1) (c := r.2)
  simp only [exec] at e4
  exact e4

theorem stage_head {s : Str} {o f t : Char} (hof : o ≠ f) (hot : o ≠ t) (hft : f ≠ t) {d i : Nat} (hd : d < 10) {c : Caps} {r : Str}
    (h : s.drop i = romanDigit o f t d ++ r) (hr : ∀ x, r.head? = some x → x ≠ o ∧ x ≠ f ∧ x ≠ t) :
    ((romanStage o f t).exec s i c).head? = some (i + (romanDigit o f t d).length, c) := by
  have hg : ∀ k, s[i + k]? = (romanDigit o f t d ++ r)[k]? := by
    intro k; rw [← h, List.getElem?_drop]
  have g0 := hg 0
  have g1 := hg 1
  have g2 := hg 2
  have g3 := hg 3
  have g4 := hg 4
  have hx : ∀ x, r[0]? = some x → x ≠ o ∧ x ≠ f ∧ x ≠ t := by
    intro x hx; apply hr; rw [List.head?_eq_getElem?]; exact hx
  clear hg hr h
  simp only [Nat.add_zero] at g0
  have hof' := Ne.symm hof
  have hot' := Ne.symm hot
  have hft' := Ne.symm hft
  cases hrr : r[0]? with
  | none =>
    have : r = [] := by simpa using hrr
    subst this
    match d, hd with
    | 0, _ | 1, _ | 2, _ | 3, _ | 4, _ | 5, _ | 6, _ | 7, _ | 8, _ | 9, _ =>
      simp [romanDigit] at g0 g1 g2 g3 g4
      simp [romanStage, Re.alts, Re.text, Re.lit, exec, repExec, romanDigit, *]
  | some x =>
    obtain ⟨h1, h2, h3⟩ := hx x hrr
    obtain ⟨y, r', rfl⟩ : ∃ y r', r = y :: r' := by
      cases r with
      | nil => simp at hrr
      | cons y r' => exact ⟨y, r', rfl⟩
    simp only [List.getElem?_cons_zero, Option.some.injEq] at hrr
    subst hrr
    match d, hd with
    | 0, _ | 1, _ | 2, _ | 3, _ | 4, _ | 5, _ | 6, _ | 7, _ | 8, _ | 9, _ =>
      simp [romanDigit] at g0 g1 g2 g3 g4
      simp [romanStage, Re.alts, Re.text, Re.lit, exec, repExec, romanDigit, *]

end Guessit
