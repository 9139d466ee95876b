import Verif.Spec.Numeral
import Verif.Proofs.Regex
import Mathlib.Data.List.Basic

namespace Guessit
open Spec Re

/-! ### positions and suffixes -/

theorem drop_cons {s : Str} {i : Nat} {x : Char} (h : s[i]? = some x) : s.drop i = x :: s.drop (i + 1) := by
  obtain ⟨hi, rfl⟩ := List.getElem?_eq_some_iff.1 h
  exact List.drop_eq_getElem_cons hi

theorem get_of_drop {s r : Str} {i : Nat} {x : Char} (h : s.drop i = x :: r) : s[i]? = some x ∧ s.drop (i + 1) = r := by
  constructor
  · have := List.getElem?_drop (xs := s) (i := i) (j := 0)
    rw [h] at this; simpa using this.symm
  · rw [← List.drop_drop, h]; rfl

theorem mem_lit {s : Str} {x : Char} {i j : Nat} {c c' : Caps} :
    (j, c') ∈ (Re.lit x).exec s i c ↔ s.drop i = x :: s.drop (i + 1) ∧ j = i + 1 ∧ c' = c := by
  unfold Re.lit
  rw [mem_chr]
  constructor
  · rintro ⟨⟨y, hy, hp⟩, rfl, rfl⟩
    have : y = x := by simpa using hp
    subst this
    exact ⟨drop_cons hy, rfl, rfl⟩
  · rintro ⟨h, rfl, rfl⟩
    exact ⟨⟨x, (get_of_drop h).1, by simp⟩, rfl, rfl⟩

theorem mem_text {s t : Str} {i j : Nat} {c c' : Caps} :
    (j, c') ∈ (Re.text t).exec s i c ↔ s.drop i = t ++ s.drop j ∧ j = i + t.length ∧ c' = c := by
  induction t generalizing i c with
  | nil =>
    simp only [Re.text, mem_eps, List.nil_append, List.length_nil, Nat.add_zero]
    constructor
    · rintro ⟨rfl, rfl⟩; exact ⟨rfl, rfl, rfl⟩
    · rintro ⟨_, h1, h2⟩; exact ⟨h1, h2⟩
  | cons x t ih =>
    simp only [Re.text, mem_seq, mem_lit]
    constructor
    · rintro ⟨k, c1, ⟨h1, rfl, rfl⟩, h2⟩
      rw [ih] at h2
      obtain ⟨h3, rfl, rfl⟩ := h2
      exact ⟨by rw [h1, h3]; rfl, by simp; omega, rfl⟩
    · rintro ⟨h1, rfl, rfl⟩
      have := get_of_drop h1
      refine ⟨i + 1, c', ⟨by rw [h1]; simp [this.2], rfl, rfl⟩, ih.2 ⟨?_, by simp; omega, rfl⟩⟩
      rw [this.2]; rfl

theorem allIn_lit {s : Str} {x : Char} {i k : Nat} :
    AllIn s (fun c => decide (c = x)) i (i + k) ↔ s.drop i = List.replicate k x ++ s.drop (i + k) := by
  induction k generalizing i with
  | zero => simp [AllIn]; intro k h1 h2; omega
  | succ k ih =>
    have e : i + (k + 1) = i + 1 + k := by omega
    rw [e]
    constructor
    · intro h
      obtain ⟨y, hy, hp⟩ := h i (Nat.le_refl _) (by omega)
      have : y = x := by simpa using hp
      subst this
      rw [drop_cons hy, List.replicate_succ, List.cons_append, ← ih.1 (fun k' h1 h2 => h k' (by omega) h2)]
    · intro h
      rw [List.replicate_succ, List.cons_append] at h
      obtain ⟨h1, h2⟩ := get_of_drop h
      intro k' hk1 hk2
      by_cases hk : k' = i
      · subst hk; exact ⟨x, h1, by simp⟩
      · exact ih.2 h2 k' (by omega) hk2

theorem mem_repLit {s : Str} {x : Char} {m M i j : Nat} {c c' : Caps} :
    (j, c') ∈ (Re.rep (Re.lit x) m (some M)).exec s i c ↔
      ∃ k, m ≤ k ∧ k ≤ M ∧ j = i + k ∧ s.drop i = List.replicate k x ++ s.drop j ∧ c' = c := by
  unfold Re.lit
  rw [mem_rep_chr_bounded]
  constructor
  · rintro ⟨rfl, h1, h2, h3⟩
    have e : j = i + (j - i) := by omega
    exact ⟨j - i, by omega, by omega, e, by rw [e] at h3 ⊢; simpa using allIn_lit.1 h3, rfl⟩
  · rintro ⟨k, h1, h2, rfl, h3, rfl⟩
    exact ⟨rfl, by omega, by omega, allIn_lit.2 h3⟩

/-- One decimal position of the Roman pattern. -/
def romanStage (o f t : Char) : Re :=
  .alts [.text [o, t], .text [o, f], .seq (.rep (.lit f) 0 (some 1)) (.rep (.lit o) 0 (some 3))]

theorem mem_romanStage {s : Str} {o f t : Char} {i j : Nat} {c c' : Caps} :
    (j, c') ∈ (romanStage o f t).exec s i c ↔
      ∃ d, d < 10 ∧ s.drop i = romanDigit o f t d ++ s.drop j ∧ j = i + (romanDigit o f t d).length ∧ c' = c := by
  unfold romanStage
  simp only [Re.alts, mem_alt, mem_text, mem_seq, mem_repLit]
  constructor
  · rintro (⟨h1, h2, h3⟩ | ⟨h1, h2, h3⟩ | ⟨k, c1, ⟨a, _, ha, rfl, h2, rfl⟩, b, _, hb, rfl, h3, rfl⟩)
    · exact ⟨9, by omega, h1, h2, h3⟩
    · exact ⟨4, by omega, h1, h2, h3⟩
    · refine ⟨5 * a + b, by omega, ?_, ?_, rfl⟩
      · rw [h2, h3, ← List.append_assoc]
        congr 1
        have ha' : a = 0 ∨ a = 1 := by omega
        have hb' : b = 0 ∨ b = 1 ∨ b = 2 ∨ b = 3 := by omega
        rcases ha' with rfl | rfl <;> rcases hb' with rfl | rfl | rfl | rfl <;> rfl
      · have ha' : a = 0 ∨ a = 1 := by omega
        have hb' : b = 0 ∨ b = 1 ∨ b = 2 ∨ b = 3 := by omega
        rcases ha' with rfl | rfl <;> rcases hb' with rfl | rfl | rfl | rfl <;> simp [romanDigit]
  · rintro ⟨d, hd, h1, h2, rfl⟩
    have mk : ∀ a b, a ≤ 1 → b ≤ 3 → romanDigit o f t d = List.replicate a f ++ List.replicate b o →
        ∃ k c1, (∃ k', 0 ≤ k' ∧ k' ≤ 1 ∧ k = i + k' ∧ s.drop i = List.replicate k' f ++ s.drop k ∧ c1 = c') ∧
          ∃ k', 0 ≤ k' ∧ k' ≤ 3 ∧ j = k + k' ∧ s.drop k = List.replicate k' o ++ s.drop j ∧ c' = c1 := by
      intro a b ha hb hab
      have hj : j = i + a + b := by rw [h2, hab]; simp; omega
      have hdrop : s.drop (i + a) = List.replicate b o ++ s.drop j := by
        rw [← List.drop_drop, h1, hab, List.append_assoc]
        simp
      refine ⟨i + a, c', ⟨a, by omega, ha, rfl, ?_, rfl⟩, b, by omega, hb, hj, hdrop, rfl⟩
      rw [hdrop, ← List.append_assoc, ← hab]; exact h1
    match d, hd, h1, h2, mk with
    | 9, _, h1, h2, _ => exact Or.inl ⟨h1, h2, rfl⟩
    | 4, _, h1, h2, _ => exact Or.inr (Or.inl ⟨h1, h2, rfl⟩)
    | 0, _, _, _, mk => exact Or.inr (Or.inr (mk 0 0 (by omega) (by omega) rfl))
    | 1, _, _, _, mk => exact Or.inr (Or.inr (mk 0 1 (by omega) (by omega) rfl))
    | 2, _, _, _, mk => exact Or.inr (Or.inr (mk 0 2 (by omega) (by omega) rfl))
    | 3, _, _, _, mk => exact Or.inr (Or.inr (mk 0 3 (by omega) (by omega) rfl))
    | 5, _, _, _, mk => exact Or.inr (Or.inr (mk 1 0 (by omega) (by omega) rfl))
    | 6, _, _, _, mk => exact Or.inr (Or.inr (mk 1 1 (by omega) (by omega) rfl))
    | 7, _, _, _, mk => exact Or.inr (Or.inr (mk 1 2 (by omega) (by omega) rfl))
    | 8, _, _, _, mk => exact Or.inr (Or.inr (mk 1 3 (by omega) (by omega) rfl))

/-- The texts accepted by the pattern. -/
def RomanText (s : Str) : Prop :=
  ∃ a b c d tail, a ≤ 4 ∧ b < 10 ∧ c < 10 ∧ d < 10 ∧ (tail = [] ∨ tail = ['\n']) ∧
    s = List.replicate a 'M' ++ (romanDigit 'C' 'D' 'M' b ++ (romanDigit 'X' 'L' 'C' c ++ (romanDigit 'I' 'V' 'X' d ++ tail))) ∧
    0 < a + b + c + d

theorem digit_head {o f t : Char} {d : Nat} (hd : d < 10) (r : Str) (x : Char) (h : (romanDigit o f t d ++ r).head? = some x) :
    x = o ∨ x = f ∨ (d = 0 ∧ r.head? = some x) := by
  match d, hd with
  | 0, _ => exact Or.inr (Or.inr ⟨rfl, h⟩)
  | 1, _ => simp [romanDigit] at h; exact Or.inl h.symm
  | 2, _ => simp [romanDigit] at h; exact Or.inl h.symm
  | 3, _ => simp [romanDigit] at h; exact Or.inl h.symm
  | 4, _ => simp [romanDigit] at h; exact Or.inl h.symm
  | 5, _ => simp [romanDigit] at h; exact Or.inr (Or.inl h.symm)
  | 6, _ => simp [romanDigit] at h; exact Or.inr (Or.inl h.symm)
  | 7, _ => simp [romanDigit] at h; exact Or.inr (Or.inl h.symm)
  | 8, _ => simp [romanDigit] at h; exact Or.inr (Or.inl h.symm)
  | 9, _ => simp [romanDigit] at h; exact Or.inl h.symm

theorem tail_of_eol {s : Str} {i : Nat} (h : i = s.length ∨ (i + 1 = s.length ∧ s[i]? = some '\n')) :
    s.drop i = [] ∨ s.drop i = ['\n'] := by
  rcases h with rfl | ⟨h1, h2⟩
  · left; simp
  · right; rw [drop_cons h2, h1]; simp

theorem roman_exec {s : Str} {i j : Nat} {c c' : Caps} (h : (j, c') ∈ romanRe.exec s i c) : i = 0 ∧ RomanText s := by
  unfold romanRe at h
  simp only [Re.cat, mem_seq, mem_bol] at h
  obtain ⟨i0, c0, ⟨rfl, rfl, rfl⟩, i1, c1, hl, i2, c2, hM, i3, c3, hC, i4, c4, hX, i5, c5, hI, i6, c6, hE, _⟩ := h
  refine ⟨rfl, ?_⟩
  obtain ⟨rfl, k, hk⟩ := mem_look hl
  rw [mem_rep_chr (Nat.zero_le _)] at hk
  obtain ⟨_, hk1, hk2⟩ := hk
  rw [mem_repLit] at hM
  obtain ⟨a, _, ha, rfl, hM, _⟩ := hM
  have hC' := mem_romanStage.1 hC
  have hX' := mem_romanStage.1 hX
  have hI' := mem_romanStage.1 hI
  obtain ⟨b, hb, hC2, _, _⟩ := hC'
  obtain ⟨c, hc, hX2, _, _⟩ := hX'
  obtain ⟨d, hd, hI2, _, _⟩ := hI'
  rw [mem_eol] at hE
  have htail := tail_of_eol hE.1
  have hs : s = List.replicate a 'M' ++ (romanDigit 'C' 'D' 'M' b ++ (romanDigit 'X' 'L' 'C' c ++
      (romanDigit 'I' 'V' 'X' d ++ s.drop i5))) := by
    rw [← hI2, ← hX2, ← hC2, ← hM]; rfl
  refine ⟨a, b, c, d, s.drop i5, ha, hb, hc, hd, htail, hs, ?_⟩
  by_contra hz
  have ha0 : a = 0 := by omega
  have hb0 : b = 0 := by omega
  have hc0 : c = 0 := by omega
  have hd0 : d = 0 := by omega
  subst ha0 hb0 hc0 hd0
  simp only [List.replicate_zero, romanDigit, List.nil_append] at hs
  obtain ⟨x, hx, hpx⟩ := hk2 0 (Nat.le_refl _) (by omega)
  rcases htail with ht | ht
  · rw [ht] at hs; subst hs; simp at hx
  · rw [ht] at hs; subst hs; simp at hx; subst hx; simp at hpx

theorem roman_search_of_text {s : Str} (h : RomanText s) : ∃ r, romanRe.search s = some r := by
  obtain ⟨a, b, c, d, tail, ha, hb, hc, hd, ht, hs, hpos⟩ := h
  have hne : romanRe.exec s 0 [] ≠ [] := by
    apply List.ne_nil_of_mem (a := (a + (romanDigit 'C' 'D' 'M' b).length + (romanDigit 'X' 'L' 'C' c).length +
      (romanDigit 'I' 'V' 'X' d).length, []))
    unfold romanRe
    simp only [Re.cat, mem_seq]
    have d1 : s.drop a = romanDigit 'C' 'D' 'M' b ++ (romanDigit 'X' 'L' 'C' c ++ (romanDigit 'I' 'V' 'X' d ++ tail)) := by
      rw [hs]; simp
    have d2 : s.drop (a + (romanDigit 'C' 'D' 'M' b).length) = romanDigit 'X' 'L' 'C' c ++ (romanDigit 'I' 'V' 'X' d ++ tail) := by
      rw [← List.drop_drop, d1]; simp
    have d3 : s.drop (a + (romanDigit 'C' 'D' 'M' b).length + (romanDigit 'X' 'L' 'C' c).length) = romanDigit 'I' 'V' 'X' d ++ tail := by
      rw [← List.drop_drop, d2]; simp
    have d4 : s.drop (a + (romanDigit 'C' 'D' 'M' b).length + (romanDigit 'X' 'L' 'C' c).length + (romanDigit 'I' 'V' 'X' d).length) = tail := by
      rw [← List.drop_drop, d3]; simp
    refine ⟨0, [], mem_bol.2 ⟨rfl, rfl, rfl⟩, 0, [], ?_, a, [], mem_repLit.2 ⟨a, by omega, ha, by omega, by rw [d1]; simpa using hs, rfl⟩,
      _, [], mem_romanStage.2 ⟨b, hb, by rw [d1, d2], rfl, rfl⟩, _, [], mem_romanStage.2 ⟨c, hc, by rw [d2, d3], rfl, rfl⟩,
      _, [], mem_romanStage.2 ⟨d, hd, by rw [d3, d4], rfl, rfl⟩, _, [], mem_eol.2 ⟨?_, rfl, rfl⟩, mem_eps.2 ⟨rfl, rfl⟩⟩
    · -- lookahead
      have hhead : ∃ x, s[0]? = some x ∧ c!"MCDLXVI".contains x = true := by
        have hne : s ≠ [] := by
          intro h0
          rw [h0] at hs
          have := congrArg List.length hs
          simp only [List.length_nil, List.length_append, List.length_replicate] at this
          have : ∀ (o f t : Char) (n : Nat), n < 10 → (romanDigit o f t n).length = 0 → n = 0 := by
            intro o f t n hn h
            match n, hn with
            | 0, _ => rfl
            | 1, _ => simp [romanDigit] at h
            | 2, _ => simp [romanDigit] at h
            | 3, _ => simp [romanDigit] at h
            | 4, _ => simp [romanDigit] at h
            | 5, _ => simp [romanDigit] at h
            | 6, _ => simp [romanDigit] at h
            | 7, _ => simp [romanDigit] at h
            | 8, _ => simp [romanDigit] at h
            | 9, _ => simp [romanDigit] at h
          have hb' := this 'C' 'D' 'M' b hb (by omega)
          have hc' := this 'X' 'L' 'C' c hc (by omega)
          have hd' := this 'I' 'V' 'X' d hd (by omega)
          omega
        obtain ⟨x, r, hxr⟩ := List.exists_cons_of_ne_nil hne
        refine ⟨x, by rw [hxr]; rfl, ?_⟩
        have hh : s.head? = some x := by rw [hxr]; rfl
        cases a with
        | succ a => rw [hs] at hh; simp [List.replicate_succ] at hh; subst hh; decide
        | zero =>
          rw [hs] at hh
          simp only [List.replicate_zero, List.nil_append] at hh
          rcases digit_head hb _ _ hh with rfl | rfl | ⟨rfl, hh⟩
          · decide
          · decide
          · rcases digit_head hc _ _ hh with rfl | rfl | ⟨rfl, hh⟩
            · decide
            · decide
            · rcases digit_head hd _ _ hh with rfl | rfl | ⟨rfl, hh⟩
              · decide
              · decide
              · omega
      have hmem : (1, ([] : Caps)) ∈ (Re.rep (.chr fun c => c!"MCDLXVI".contains c) 1 none).exec s 0 [] := by
        rw [mem_rep_chr (Nat.zero_le _)]
        refine ⟨rfl, by omega, ?_⟩
        intro k h1 h2
        have : k = 0 := by omega
        subst this; exact hhead
      have hall : ∀ x ∈ (Re.rep (.chr fun c => c!"MCDLXVI".contains c) 1 none).exec s 0 [], x.2 = [] := by
        rintro ⟨j, c'⟩ hx
        rw [mem_rep_chr (Nat.zero_le _)] at hx
        exact hx.1
      unfold Re.exec
      split
      · rename_i he; rw [he] at hmem; cases hmem
      · rename_i x xs he
        have := hall x (by rw [he]; simp)
        simp [this]
    · have hl := congrArg List.length d4
      simp only [List.length_drop] at hl
      rcases ht with rfl | rfl
      · left
        have hl2 := congrArg List.length hs
        simp only [List.length_append, List.length_replicate, List.length_nil] at hl2
        omega
      · right
        simp only [List.length_cons, List.length_nil] at hl
        exact ⟨by omega, (get_of_drop d4).1⟩
  unfold Re.search Re.searchFrom
  cases hm : romanRe.matchAt s 0 with
  | some r => exact ⟨_, rfl⟩
  | none => exact absurd (matchAt_none.1 hm) hne

theorem roman_search_iff {s : Str} : (∃ r, romanRe.search s = some r) ↔ RomanText s := by
  constructor
  · rintro ⟨⟨a, b, c⟩, h⟩
    have := searchFrom_some h
    exact (roman_exec (matchAt_mem this.1)).2
  · exact roman_search_of_text

/-! ### the loop -/

theorem eat_stop {num s : Str} {f : Nat} (h : num.isPrefixOf s = false) : eat num f s = (0, s) := by
  cases f with
  | zero => rfl
  | succ f => simp [eat, h]

theorem eat_fuel {num : Str} (hn : num ≠ []) {f g : Nat} {s : Str} (hf : s.length ≤ f) (hg : s.length ≤ g) :
    eat num f s = eat num g s := by
  induction f generalizing g s with
  | zero =>
    have : s = [] := List.length_eq_zero_iff.1 (by omega)
    subst this
    rw [eat_stop (by cases num <;> simp_all [List.isPrefixOf]), eat_stop (by cases num <;> simp_all [List.isPrefixOf])]
  | succ f ih =>
    cases g with
    | zero =>
      have : s = [] := List.length_eq_zero_iff.1 (by omega)
      subst this
      rw [eat_stop (by cases num <;> simp_all [List.isPrefixOf]), eat_stop (by cases num <;> simp_all [List.isPrefixOf])]
    | succ g =>
      simp only [eat]
      split
      · have hpos := List.length_pos_iff.2 hn
        rw [ih (g := g) (by simp; omega) (by simp; omega)]
      · rfl

/-- `eat` with enough fuel. -/
def eatAll (num s : Str) : Nat × Str := eat num s.length s

theorem eatAll_stop {num s : Str} (h : num.isPrefixOf s = false) : eatAll num s = (0, s) := eat_stop h

theorem eatAll_step {num s : Str} (hn : num ≠ []) : eatAll num (num ++ s) = ((eatAll num s).1 + 1, (eatAll num s).2) := by
  unfold eatAll
  obtain ⟨x, r, rfl⟩ := List.exists_cons_of_ne_nil hn
  have hp : (x :: r).isPrefixOf ((x :: r) ++ s) = true := by simp
  have hl : ((x :: r) ++ s).length = (r ++ s).length + 1 := by simp
  rw [hl, eat, if_pos hp]
  have : List.drop (x :: r).length (x :: r ++ s) = s := by simp
  rw [this, eat_fuel hn (g := s.length) (by simp) (Nat.le_refl _)]

theorem romanLoop_cons (num : Str) (k : Nat) (rest : List (Str × Nat)) (acc : Nat) (s : Str) :
    romanLoop ((num, k) :: rest) acc s = romanLoop rest (acc + (eatAll num s).1 * k) (eatAll num s).2 := rfl

theorem no_prefix1 {o : Char} {r : Str} (h : r.head? ≠ some o) : [o].isPrefixOf r = false := by
  cases r with
  | nil => rfl
  | cons x r =>
    have : o ≠ x := fun he => h (by rw [he]; rfl)
    simp [List.isPrefixOf, this]

theorem no_prefix2 {o p : Char} {r : Str} (h : r.head? ≠ some o) : [o, p].isPrefixOf r = false := by
  cases r with
  | nil => rfl
  | cons x r =>
    have : o ≠ x := fun he => h (by rw [he]; rfl)
    simp [List.isPrefixOf, this]

theorem no_prefix2' {o p : Char} {r : Str} (h : r.head? ≠ some p) : [o, p].isPrefixOf (o :: r) = false := by
  cases r with
  | nil => simp [List.isPrefixOf]
  | cons x r =>
    have : p ≠ x := fun he => h (by rw [he]; rfl)
    simp [List.isPrefixOf, this]

theorem eatAll_one {o : Char} {r : Str} (h : r.head? ≠ some o) (n : Nat) : eatAll [o] (List.replicate n o ++ r) = (n, r) := by
  induction n with
  | zero => exact eatAll_stop (no_prefix1 h)
  | succ n ih =>
    have : List.replicate (n + 1) o ++ r = [o] ++ (List.replicate n o ++ r) := by simp [List.replicate_succ]
    rw [this, eatAll_step (by simp), ih]

theorem romanLoop_stage {o f t : Char} (hof : o ≠ f) (hot : o ≠ t) (hft : f ≠ t) (k : Nat) (more : List (Str × Nat)) (acc d : Nat)
    (r : Str) (hd : d < 10) (h1 : r.head? ≠ some o) (h2 : r.head? ≠ some f) (h3 : r.head? ≠ some t) :
    romanLoop (([o, t], 9 * k) :: ([f], 5 * k) :: ([o, f], 4 * k) :: ([o], k) :: more) acc (romanDigit o f t d ++ r) =
      romanLoop more (acc + d * k) r := by
  have e0 : ∀ n, eatAll [o] (List.replicate n o ++ r) = (n, r) := eatAll_one h1
  have eo0 := e0 0
  have eo1 := e0 1
  have eo2 := e0 2
  have eo3 := e0 3
  simp only [List.replicate_zero, List.replicate, List.nil_append, List.cons_append] at eo0 eo1 eo2 eo3
  have pf : ∀ x, [f].isPrefixOf (o :: x) = false := fun x => no_prefix1 (by simpa using hof)
  have pot_f : ∀ x y, [o, y].isPrefixOf (f :: x) = false := fun x y => no_prefix2 (by simpa using fun h => hof h.symm)
  have pot_oo : ∀ x, [o, t].isPrefixOf (o :: o :: x) = false := fun x => no_prefix2' (by simpa using hot)
  have pof_oo : ∀ x, [o, f].isPrefixOf (o :: o :: x) = false := fun x => no_prefix2' (by simpa using hof)
  have pot_of : ∀ x, [o, t].isPrefixOf (o :: f :: x) = false := fun x => no_prefix2' (by simpa using hft)
  have ef : ∀ x : Str, x.head? ≠ some f → eatAll [f] (f :: x) = (1, x) := fun x hx => by
    have := eatAll_one hx 1; simpa [List.replicate] using this
  have ro : ∀ x : Str, eatAll [f] (o :: x) = (0, o :: x) := fun x => eatAll_stop (pf x)
  have etwo : ∀ y, eatAll [o, y] ([o, y] ++ r) = (1, r) := fun y => by
    rw [eatAll_step (by simp), eatAll_stop (no_prefix2 h1)]
  have rr : ∀ y, eatAll [o, y] r = (0, r) := fun y => eatAll_stop (no_prefix2 h1)
  have rf : eatAll [f] r = (0, r) := eatAll_stop (no_prefix1 h2)
  have hof' : (o :: r).head? ≠ some f := by simpa using hof
  match d, hd with
  | 0, _ => simp only [romanDigit, List.nil_append, romanLoop_cons, rr, rf, eo0]; congr 1; omega
  | 1, _ =>
    simp only [romanDigit, List.cons_append, List.nil_append, romanLoop_cons, eatAll_stop (no_prefix2' h3), ro,
      eatAll_stop (no_prefix2' h2), eo1]; congr 1; omega
  | 2, _ =>
    simp only [romanDigit, List.cons_append, List.nil_append, romanLoop_cons, eatAll_stop (pot_oo _), ro,
      eatAll_stop (pof_oo _), eo2]; congr 1; omega
  | 3, _ =>
    simp only [romanDigit, List.cons_append, List.nil_append, romanLoop_cons, eatAll_stop (pot_oo _), ro,
      eatAll_stop (pof_oo _), eo3]; congr 1; omega
  | 4, _ =>
    have := etwo f
    simp only [List.cons_append, List.nil_append] at this
    simp only [romanDigit, List.cons_append, List.nil_append, romanLoop_cons, eatAll_stop (pot_of _), ro, this, eo0]
    congr 1; omega
  | 5, _ =>
    simp only [romanDigit, List.cons_append, List.nil_append, romanLoop_cons, eatAll_stop (pot_f _ _), ef r h2, rr, eo0]
    congr 1; omega
  | 6, _ =>
    simp only [romanDigit, List.cons_append, List.nil_append, romanLoop_cons, eatAll_stop (pot_f _ _), ef _ hof',
      eatAll_stop (no_prefix2' h2), eo1]
    congr 1; omega
  | 7, _ =>
    have hh : (o :: o :: r).head? ≠ some f := by simpa using hof
    simp only [romanDigit, List.cons_append, List.nil_append, romanLoop_cons, eatAll_stop (pot_f _ _), ef _ hh,
      eatAll_stop (pof_oo _), eo2]
    congr 1; omega
  | 8, _ =>
    have hh : (o :: o :: o :: r).head? ≠ some f := by simpa using hof
    simp only [romanDigit, List.cons_append, List.nil_append, romanLoop_cons, eatAll_stop (pot_f _ _), ef _ hh,
      eatAll_stop (pof_oo _), eo3]
    congr 1; omega
  | 9, _ =>
    have := etwo t
    simp only [List.cons_append, List.nil_append] at this
    simp only [romanDigit, List.cons_append, List.nil_append, romanLoop_cons, this, rf, rr, eo0]
    congr 1; omega

theorem romanLoop_value {a b c d : Nat} {tail : Str} (hb : b < 10) (hc : c < 10) (hd : d < 10)
    (ht : tail = [] ∨ tail = ['\n']) :
    romanLoop romanMap 0 (List.replicate a 'M' ++ (romanDigit 'C' 'D' 'M' b ++ (romanDigit 'X' 'L' 'C' c ++
      (romanDigit 'I' 'V' 'X' d ++ tail)))) = a * 1000 + b * 100 + c * 10 + d := by
  have htail : ∀ x, tail.head? = some x → x = '\n' := by
    intro x hx; rcases ht with rfl | rfl <;> simp at hx; exact hx.symm
  have hI : ∀ x, (romanDigit 'I' 'V' 'X' d ++ tail).head? = some x → x = 'I' ∨ x = 'V' ∨ x = '\n' := by
    intro x hx
    rcases digit_head hd _ _ hx with h | h | ⟨_, h⟩
    · exact Or.inl h
    · exact Or.inr (Or.inl h)
    · exact Or.inr (Or.inr (htail x h))
  have hX : ∀ x, (romanDigit 'X' 'L' 'C' c ++ (romanDigit 'I' 'V' 'X' d ++ tail)).head? = some x →
      x = 'X' ∨ x = 'L' ∨ x = 'I' ∨ x = 'V' ∨ x = '\n' := by
    intro x hx
    rcases digit_head hc _ _ hx with h | h | ⟨_, h⟩
    · exact Or.inl h
    · exact Or.inr (Or.inl h)
    · exact Or.inr (Or.inr (hI x h))
  have hCM : ∀ x, (romanDigit 'C' 'D' 'M' b ++ (romanDigit 'X' 'L' 'C' c ++ (romanDigit 'I' 'V' 'X' d ++ tail))).head? = some x →
      x = 'C' ∨ x = 'D' ∨ x = 'X' ∨ x = 'L' ∨ x = 'I' ∨ x = 'V' ∨ x = '\n' := by
    intro x hx
    rcases digit_head hb _ _ hx with h | h | ⟨_, h⟩
    · exact Or.inl h
    · exact Or.inr (Or.inl h)
    · exact Or.inr (Or.inr (hX x h))
  unfold romanMap
  rw [romanLoop_cons, eatAll_one (by intro h; rcases hCM _ h with h | h | h | h | h | h | h <;> revert h <;> decide)]
  rw [romanLoop_stage (by decide) (by decide) (by decide) 100 _ _ b _ hb
    (by intro h; rcases hX _ h with h | h | h | h | h <;> revert h <;> decide)
    (by intro h; rcases hX _ h with h | h | h | h | h <;> revert h <;> decide)
    (by intro h; rcases hX _ h with h | h | h | h | h <;> revert h <;> decide)]
  rw [romanLoop_stage (by decide) (by decide) (by decide) 10 _ _ c _ hc
    (by intro h; rcases hI _ h with h | h | h <;> revert h <;> decide)
    (by intro h; rcases hI _ h with h | h | h <;> revert h <;> decide)
    (by intro h; rcases hI _ h with h | h | h <;> revert h <;> decide)]
  rw [romanLoop_stage (by decide) (by decide) (by decide) 1 _ _ d _ hd
    (by intro h; have := htail _ h; revert this; decide)
    (by intro h; have := htail _ h; revert this; decide)
    (by intro h; have := htail _ h; revert this; decide)]
  simp only [romanLoop]
  omega

end Guessit
