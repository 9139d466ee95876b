import Verif.Spec.Recognise
import Verif.Proofs.Regex
import Verif.Props.Numeral
import Verif.Proofs.Quantity

/-! # `finditer` and validation -/

namespace Guessit
open Spec Re
variable {V : Type}

theorem searchFrom_eq {r : Re} {s : Str} {n i a b : Nat} {c : Caps} (hm : r.matchAt s a = some (b, c)) (h1 : i ≤ a) (h2 : a ≤ i + n)
    (h3 : ∀ k, i ≤ k → k < a → r.matchAt s k = none) : r.searchFrom s i n = some (a, b, c) := by
  cases h : r.searchFrom s i n with
  | none => have := Re.searchFrom_none h a h1 h2; rw [this] at hm; cases hm
  | some x =>
    obtain ⟨a', b', c'⟩ := x
    obtain ⟨g1, g2, g3, g4⟩ := Re.searchFrom_some h
    have : a' = a := by
      rcases Nat.lt_trichotomy a' a with h | h | h
      · rw [h3 a' g2 h] at g1; cases g1
      · exact h
      · rw [g4 a h1 h] at hm; cases hm
    subst this
    rw [hm] at g1
    cases g1; rfl

theorem hitsFrom_sound {r : Re} {s : Str} {h : RxHit} : ∀ (f i : Nat), h ∈ r.hitsFrom s f i →
    r.matchAt s h.start = some (h.stop, h.caps) ∧ h.start ≤ s.length
  | 0, _, hh => by simp [Re.hitsFrom] at hh
  | f + 1, i, hh => by
    unfold Re.hitsFrom at hh
    split at hh
    · rename_i hi
      split at hh
      · simp at hh
      · rename_i a b c hs
        obtain ⟨g1, g2, g3, _⟩ := Re.searchFrom_some hs
        rcases List.mem_cons.1 hh with rfl | hh
        · exact ⟨g1, by simp only; omega⟩
        · exact hitsFrom_sound f b hh
    · simp at hh

theorem hits_sound {r : Re} {s : Str} {h : RxHit} (hh : h ∈ r.hits s) :
    r.matchAt s h.start = some (h.stop, h.caps) ∧ h.start ≤ s.length := hitsFrom_sound _ _ hh

/-- The pattern never matches the empty text. -/
def Re.Eats (r : Re) : Prop := ∀ s i j c, i ≤ s.length → r.matchAt s i = some (j, c) → i < j

theorem hitsFrom_complete {r : Re} (hr : r.Eats) {s : Str} {i j : Nat} {c : Caps} (hm : r.matchAt s i = some (j, c)) (hi : i ≤ s.length)
    (hc : ∀ i' j' c', i' < i → r.matchAt s i' = some (j', c') → j' ≤ i) : ∀ (f k : Nat), k ≤ i → s.length + 1 ≤ k + f →
    (⟨i, j, c⟩ : RxHit) ∈ r.hitsFrom s f k
  | 0, k, hk, hf => by omega
  | f + 1, k, hk, hf => by
    unfold Re.hitsFrom
    rw [if_pos (by omega)]
    split
    · rename_i hs
      have := Re.searchFrom_none hs i hk (by omega)
      rw [this] at hm; cases hm
    · rename_i a b cc hs
      obtain ⟨g1, g2, g3, g4⟩ := Re.searchFrom_some hs
      by_cases ha : a = i
      · subst ha
        rw [hm] at g1; cases g1
        exact List.mem_cons_self
      · have hlt : a < i := by
          rcases Nat.lt_trichotomy a i with h | h | h
          · exact h
          · exact absurd h ha
          · rw [g4 i hk h] at hm; cases hm
        have hb := hc a b cc hlt g1
        have := hr s a b cc (by omega) g1
        exact List.mem_cons_of_mem _ (hitsFrom_complete hr hm hi hc f b hb (by omega))

/-- A match over which no earlier match runs is found. -/
theorem hits_complete {r : Re} (hr : r.Eats) {s : Str} {i j : Nat} {c : Caps} (hm : r.matchAt s i = some (j, c)) (hi : i ≤ s.length)
    (hc : ∀ i' j' c', i' < i → r.matchAt s i' = some (j', c') → j' ≤ i) : (⟨i, j, c⟩ : RxHit) ∈ r.hits s :=
  hitsFrom_complete hr hm hi hc _ _ (by omega) (by omega)

theorem hitsFrom_from {r : Re} (hr : r.Eats) {s : Str} : ∀ (f i : Nat), ∀ h ∈ r.hitsFrom s f i, i ≤ h.start ∧ h.start < h.stop
  | 0, _, h, hh => by simp [Re.hitsFrom] at hh
  | f + 1, i, h, hh => by
    unfold Re.hitsFrom at hh
    split at hh
    · rename_i hi
      split at hh
      · simp at hh
      · rename_i a b c hs
        obtain ⟨g1, g2, g3, _⟩ := Re.searchFrom_some hs
        have g := hr s a b c (by omega) g1
        rcases List.mem_cons.1 hh with rfl | hh
        · exact ⟨g2, g⟩
        · have := hitsFrom_from hr f b h hh; omega
    · simp at hh

theorem hitsFrom_inOrder {r : Re} (hr : r.Eats) {s : Str} : ∀ (f i : Nat), (r.hitsFrom s f i).Pairwise fun x y => x.stop ≤ y.start
  | 0, _ => by simp [Re.hitsFrom]
  | f + 1, i => by
    unfold Re.hitsFrom
    split
    · split
      · exact List.Pairwise.nil
      · rename_i a b c hs
        refine List.Pairwise.cons ?_ (hitsFrom_inOrder hr f b)
        intro y hy
        exact (hitsFrom_from hr f b y hy).1
    · exact List.Pairwise.nil

/-- The matches of `finditer` are disjoint and in order. -/
theorem hits_inOrder {r : Re} (hr : r.Eats) (s : Str) : (r.hits s).Pairwise fun x y => x.stop ≤ y.start := hitsFrom_inOrder hr _ _

theorem hits_pos {r : Re} (hr : r.Eats) {s : Str} {h : RxHit} (hh : h ∈ r.hits s) : h.start < h.stop := (hitsFrom_from hr _ _ h hh).2

/-- When all the ways to match are the same one. -/
theorem matchAt_unique {r : Re} {s : Str} {i j : Nat} {c : Caps} (hm : (j, c) ∈ r.exec s i [])
    (hu : ∀ j' c', (j', c') ∈ r.exec s i [] → j' = j ∧ c' = c) : r.matchAt s i = some (j, c) := by
  cases h : r.matchAt s i with
  | none => rw [matchAt_none] at h; rw [h] at hm; cases hm
  | some x =>
    obtain ⟨j', c'⟩ := x
    obtain ⟨rfl, rfl⟩ := hu j' c' (matchAt_mem h)
    rfl

theorem mem_found {P : RxPattern V} {s : Str} {m : RxMatch V} : m ∈ P.found s ↔
    ∃ h ∈ P.re.hits s, P.accepts s h = true ∧ m ∈ (if P.children then P.kids s h else [P.parent s h]) := by
  simp only [RxPattern.found, List.mem_flatMap, List.mem_filter, and_assoc]

/-! ## Vocabulary -/

theorem allIn_iff {s : Str} {p : Char → Bool} {P : Char → Prop} (hp : ∀ c, p c = true ↔ P c) {i j : Nat} :
    Re.AllIn s p i j ↔ AllOf s P i j := by
  constructor
  · intro h k h1 h2; obtain ⟨x, hx, hpx⟩ := h k h1 h2; exact ⟨x, hx, (hp x).1 hpx⟩
  · intro h k h1 h2; obtain ⟨x, hx, hpx⟩ := h k h1 h2; exact ⟨x, hx, (hp x).2 hpx⟩

theorem Spec.CharAt.and {s : Str} {p q : Char → Prop} {k : Nat} (h : CharAt s p k) (h' : CharAt s q k) : CharAt s (fun c => p c ∧ q c) k := by
  obtain ⟨c, hc, hp⟩ := h
  obtain ⟨d, hd, hq⟩ := h'
  rw [hc] at hd; cases hd
  exact ⟨c, hc, hp, hq⟩

theorem Spec.CharAt.false {s : Str} {p q : Char → Prop} {k : Nat} (h : CharAt s p k) (h' : CharAt s q k) (hpq : ∀ c, p c → q c → False) : False := by
  obtain ⟨c, _, hp, hq⟩ := CharAt.and h h'
  exact hpq c hp hq

theorem Spec.AllOf.le {s : Str} {p : Char → Prop} {i j : Nat} (h : AllOf s p i j) (hij : i < j) : j ≤ s.length := by
  obtain ⟨x, hx, _⟩ := h (j - 1) (by omega) (by omega)
  have := (List.getElem?_eq_some_iff.1 hx).1
  omega

theorem any_contains {o : Option Char} {chars : Str} : o.any chars.contains = true ↔ ∃ c, o = some c ∧ c ∈ chars := by
  cases o <;> simp

theorem standing_iff {s : Str} {i j : Nat} : sepsSurround s i j = true ↔ Standing s i j := by
  unfold sepsSurround charsBefore charsAfter Standing FreeBefore FreeAfter CharAt
  rw [Bool.and_eq_true]
  refine and_congr ?_ ?_
  · by_cases h : i = 0
    · simp [h]
    · rw [if_neg h, any_contains]; simp [h]
  · by_cases h : j ≥ s.length
    · simp [h]
    · rw [if_neg h, any_contains]; simp only [show ¬ s.length ≤ j from h, false_or]

theorem sepsNoFs_iff {c : Char} : sepsNoFs.contains c = true ↔ c ∈ seps ∧ c ≠ '/' ∧ c ≠ '\\' := by
  simp [sepsNoFs, List.mem_filter]

theorem mem_optional {r : Re} {s : Str} {i j : Nat} {c c' : Caps} (hr : ∀ j c1, (j, c1) ∈ r.exec s i c → j ≠ i) :
    (j, c') ∈ (Re.opt r).exec s i c ↔ (j, c') ∈ r.exec s i c ∨ (j = i ∧ c' = c) := by
  simp only [Re.opt, exec, Option.getD_some, repExec, List.mem_append, List.mem_flatMap, List.mem_filter, decide_eq_true_eq, if_true,
    List.mem_singleton, Prod.mk.injEq]
  constructor
  · rintro (⟨⟨k, c1⟩, ⟨h1, h2⟩, h3⟩ | h)
    · simp only [Nat.sub_self, Nat.zero_sub, if_true, List.mem_singleton, Prod.mk.injEq] at h3
      obtain ⟨rfl, rfl⟩ := h3
      exact .inl h1
    · exact .inr h
  · rintro (h | h)
    · refine .inl ⟨(j, c'), ⟨h, hr j c' h⟩, ?_⟩
      simp
    · exact .inr h

theorem mem_dash {s : Str} {i j : Nat} {c c' : Caps} : (j, c') ∈ dashRe.exec s i c ↔ MaybeSep s i j ∧ c' = c := by
  unfold dashRe
  rw [mem_optional (fun j c1 h => by rw [mem_chr] at h; omega), mem_chr]
  unfold MaybeSep CharAt
  constructor
  · rintro (⟨⟨x, hx, hp⟩, rfl, rfl⟩ | ⟨rfl, rfl⟩)
    · exact ⟨.inr ⟨rfl, x, hx, sepsNoFs_iff.1 hp⟩, rfl⟩
    · exact ⟨.inl rfl, rfl⟩
  · rintro ⟨rfl | ⟨rfl, x, hx, hp⟩, rfl⟩
    · exact .inr ⟨rfl, rfl⟩
    · exact .inl ⟨⟨x, hx, sepsNoFs_iff.2 hp⟩, rfl, rfl⟩

theorem mem_letter {E : RxEnv} {l : Char} {s : Str} {i j : Nat} {c c' : Caps} :
    (j, c') ∈ (E.letter l).exec s i c ↔ CharAt s (fun x => E.same l x = true) i ∧ j = i + 1 ∧ c' = c := by
  unfold RxEnv.letter; rw [mem_chr]; rfl

theorem Spec.LiteralAt.cons {E : RxEnv} {s w : Str} {l : Char} {i : Nat} :
    LiteralAt E s (l :: w) i ↔ CharAt s (fun x => E.same l x = true) i ∧ LiteralAt E s w (i + 1) := by
  unfold LiteralAt
  constructor
  · intro h
    refine ⟨h 0 l rfl, fun k l' hk => ?_⟩
    have := h (k + 1) l' (by simpa using hk)
    rwa [show i + 1 + k = i + (k + 1) by omega]
  · rintro ⟨h1, h2⟩ k l' hk
    cases k with
    | zero => simp only [List.getElem?_cons_zero, Option.some.injEq] at hk; subst hk; exact h1
    | succ k =>
      have := h2 k l' (by simpa using hk)
      rwa [show i + (k + 1) = i + 1 + k by omega]

theorem mem_word {E : RxEnv} {s w : Str} {i j : Nat} {c c' : Caps} :
    (j, c') ∈ (E.word w).exec s i c ↔ LiteralAt E s w i ∧ j = i + w.length ∧ c' = c := by
  induction w generalizing i with
  | nil =>
    unfold RxEnv.word
    rw [mem_eps]
    simp [LiteralAt]
  | cons l w ih =>
    unfold RxEnv.word
    rw [mem_seq]
    constructor
    · rintro ⟨k, c1, h1, h2⟩
      rw [mem_letter] at h1
      obtain ⟨h1, rfl, rfl⟩ := h1
      rw [ih] at h2
      obtain ⟨h2, h3, rfl⟩ := h2
      exact ⟨LiteralAt.cons.2 ⟨h1, h2⟩, by simp; omega, rfl⟩
    · rintro ⟨h1, h2, rfl⟩
      rw [LiteralAt.cons] at h1
      exact ⟨i + 1, c', mem_letter.2 ⟨h1.1, rfl, rfl⟩, ih.2 ⟨h1.2, by simp at h2; omega, rfl⟩⟩

theorem mem_alts {rs : List Re} {s : Str} {x : Nat × Caps} {i : Nat} {c : Caps} : x ∈ (Re.alts rs).exec s i c ↔ ∃ r ∈ rs, x ∈ r.exec s i c := by
  induction rs with
  | nil => simp [Re.alts, exec]
  | cons r rs ih =>
    cases rs with
    | nil => simp [Re.alts]
    | cons r' rs =>
      show x ∈ (Re.alt r (Re.alts (r' :: rs))).exec s i c ↔ _
      obtain ⟨j, c'⟩ := x
      rw [mem_alt, ih]
      simp

theorem mem_words {E : RxEnv} {s : Str} {ws : List Str} {i j : Nat} {c c' : Caps} :
    (j, c') ∈ (E.words ws).exec s i c ↔ c' = c ∧ ∃ w ∈ ws, LiteralAt E s w i ∧ j = i + w.length := by
  unfold RxEnv.words
  rw [mem_alts]
  simp only [List.mem_map, exists_exists_and_eq_and, mem_word]
  constructor
  · rintro ⟨w, hw, h1, h2, h3⟩; exact ⟨h3, w, hw, h1, h2⟩
  · rintro ⟨h3, w, hw, h1, h2⟩; exact ⟨w, hw, h1, h2, h3⟩

/-! ## Numbers -/

theorem textOf_digits {E : RxEnv} {s : Str} {i j : Nat} (h : AllOf s (Digit E) i j) : ∀ c ∈ (s.take j).drop i, E.u.isDigit c = true := by
  intro c hc
  obtain ⟨k, hk⟩ := List.getElem?_of_mem hc
  rw [List.getElem?_drop, List.getElem?_take] at hk
  split at hk
  · rename_i hlt
    obtain ⟨x, hx, hd⟩ := h (i + k) (by omega) hlt
    rw [hk] at hx; cases hx; exact hd
  · cases hk

theorem textOf_length {s : Str} {i j : Nat} (hj : j ≤ s.length) : ((s.take j).drop i).length = j - i := by
  rw [List.length_drop, List.length_take]; omega

/-- `int` reads a number. -/
theorem pyInt_number {E : RxEnv} (hE : Usual E) {s : Str} {i j : Nat} (hij : i < j) (h : AllOf s (Digit E) i j) :
    pyInt E.u ((s.take j).drop i) = .ok (digitsValue E.u ((s.take j).drop i) : Nat) := by
  refine pyInt_digits E.u hE.sane _ ?_ (textOf_digits h)
  intro h0
  have := textOf_length (i := i) (h.le hij)
  rw [h0] at this
  simp at this
  omega

theorem sep_ascii : ∀ c ∈ seps, c.toNat < 128 := by decide
theorem sep_not_digit {E : RxEnv} (hE : Usual E) {c : Char} (hc : c ∈ seps) : ¬ Digit E c := by
  intro h
  unfold Digit Uni.isDigit at h
  rw [hE.digit c (sep_ascii c hc)] at h
  have : ∀ c ∈ seps, ¬ ('0' ≤ c ∧ c ≤ '9') := by decide
  rw [if_neg (this c hc)] at h
  simp at h

theorem sep_not_letter {E : RxEnv} (hE : Usual E) {l c : Char} (hl : l ∈ c!"abcdefghijklmnopqrstuvwxyz") (hc : c ∈ seps) : E.same l c = false := by
  cases h : E.same l c with
  | false => rfl
  | true =>
    have := (hE.same l hl c (sep_ascii c hc)).1 h
    have hall : ∀ l ∈ c!"abcdefghijklmnopqrstuvwxyz", ∀ c ∈ seps, ¬ (c = l ∨ c = l.toUpper) := by decide
    exact absurd this (hall l hl c hc)

theorem number_pyInt {E : RxEnv} (hE : Usual E) {s : Str} {i j n : Nat} (h : Number E s i j n) : pyInt E.u ((s.take j).drop i) = .ok (n : Int) := by
  rw [pyInt_number hE h.some h.digits, h.value]; rfl

/-- The number of a run of digits. -/
theorem number_of {E : RxEnv} {s : Str} {i j : Nat} (hij : i < j) (h : AllOf s (Digit E) i j) : Number E s i j (digitsValue E.u (textOf s i j)) :=
  ⟨hij, h, rfl⟩

theorem Spec.Number.unique {E : RxEnv} {s : Str} {i j n n' : Nat} (h : Number E s i j n) (h' : Number E s i j n') : n = n' := by
  rw [h.value, h'.value]

theorem mem_number {E : RxEnv} {s : Str} {i j : Nat} {c c' : Caps} : (j, c') ∈ E.digits.exec s i c ↔ c' = c ∧ i < j ∧ AllOf s (Digit E) i j := by
  unfold RxEnv.digits RxEnv.digit
  by_cases hi : i ≤ s.length
  · rw [mem_rep_chr hi, allIn_iff (P := Digit E) (fun _ => Iff.rfl)]
    constructor
    · rintro ⟨h1, h2, h3⟩; exact ⟨h1, by omega, h3⟩
    · rintro ⟨h1, h2, h3⟩; exact ⟨h1, by omega, h3⟩
  · constructor
    · intro h
      exfalso
      simp only [exec, Option.getD_none, show s.length - i = 0 by omega, repExec] at h
      simp at h
    · rintro ⟨_, h2, h3⟩; have := h3.le h2; omega

theorem mem_someDigits {E : RxEnv} {s : Str} {m M i j : Nat} {c c' : Caps} :
    (j, c') ∈ (Re.rep E.digit m (some M)).exec s i c ↔ c' = c ∧ i + m ≤ j ∧ j ≤ i + M ∧ AllOf s (Digit E) i j := by
  unfold RxEnv.digit
  rw [mem_rep_chr_bounded, allIn_iff (P := Digit E) (fun _ => Iff.rfl)]

theorem head_of_max {α : Type} {l : List (Nat × α)} (h : l.Pairwise (fun x y => y.1 < x.1)) {x : Nat × α} (hx : x ∈ l)
    (hmax : ∀ y ∈ l, y.1 ≤ x.1) : l.head? = some x := by
  cases l with
  | nil => cases hx
  | cons a l =>
    obtain ⟨h1, _⟩ := List.pairwise_cons.1 h
    rcases List.mem_cons.1 hx with rfl | hx
    · rfl
    · have := h1 x hx; have := hmax a (by simp); omega

theorem noDigit_bound {E : RxEnv} {s : Str} {i j k : Nat} (h : NoDigitAt E s j) (hij : i ≤ j) (hk : AllOf s (Digit E) i k) : k ≤ j := by
  by_contra hc
  obtain ⟨x, hx, hd⟩ := hk j hij (by omega)
  exact h x hx hd

/-- The digits taken are all there are. -/
theorem digits_head {E : RxEnv} {s : Str} {i j : Nat} {c : Caps} (hij : i < j) (h : AllOf s (Digit E) i j) (hs : NoDigitAt E s j) :
    (E.digits.exec s i c).head? = some (j, c) := by
  unfold RxEnv.digits RxEnv.digit
  have hj := h.le hij
  refine rep_chr_head (by omega) (by omega) ((allIn_iff (P := Digit E) (fun _ => Iff.rfl)).2 h) ?_
  intro x hx
  have := hs x hx
  simpa [Digit] using this

theorem someDigits_head {E : RxEnv} {s : Str} {m M i j : Nat} {c : Caps} (hm : i + m ≤ j) (hM : j ≤ i + M) (h : AllOf s (Digit E) i j)
    (hs : j = i + M ∨ NoDigitAt E s j) : ((Re.rep E.digit m (some M)).exec s i c).head? = some (j, c) := by
  refine head_of_max ?_ (mem_someDigits.2 ⟨rfl, hm, hM, h⟩) ?_
  · have := @repExec_chr_sorted s E.u.isDigit M m i c
    simpa only [RxEnv.digit, exec, Option.getD_some] using this
  · rintro ⟨k, c'⟩ hk
    obtain ⟨_, h1, h2, h3⟩ := mem_someDigits.1 hk
    rcases hs with rfl | hs
    · exact h2
    · exact noDigit_bound hs (by omega) h3

theorem standing_noDigit {E : RxEnv} (hE : Usual E) {s : Str} {j : Nat} (h : FreeAfter s j) : NoDigitAt E s j := by
  intro c hc hd
  rcases h with h | ⟨x, hx, hs⟩
  · rw [List.getElem?_eq_none h] at hc; cases hc
  · rw [hc] at hx; cases hx; exact sep_not_digit hE hs hd

theorem letter_not_digit {E : RxEnv} (hE : Usual E) {l c : Char} (hl : l ∈ c!"abcdefghijklmnopqrstuvwxyz") (h : E.same l c = true) : ¬ Digit E c := by
  unfold Digit; rw [hE.letter l hl c h]; simp

theorem Spec.LiteralAt.mid {E : RxEnv} {s w : Str} {i k : Nat} (h : LiteralAt E s w i) (hw : Lettered w) (h1 : i ≤ k) (h2 : k < i + w.length) :
    CharAt s (fun c => ∃ l ∈ c!"abcdefghijklmnopqrstuvwxyz", E.same l c = true) k := by
  obtain ⟨l, hl⟩ : ∃ l, w[k - i]? = some l := ⟨w[k - i]'(by omega), List.getElem?_eq_getElem _⟩
  obtain ⟨c, hc, hs⟩ := h (k - i) l hl
  rw [show i + (k - i) = k by omega] at hc
  exact ⟨c, hc, l, hw.2 l (List.mem_of_getElem? hl), hs⟩

theorem matchAt_of_mem {r : Re} {s : Str} {i j : Nat} {c : Caps} (h : (j, c) ∈ r.exec s i []) : ∃ j' c', r.matchAt s i = some (j', c') := by
  cases hm : r.matchAt s i with
  | none => rw [matchAt_none] at hm; rw [hm] at h; cases h
  | some x => exact ⟨x.1, x.2, rfl⟩

theorem matchAt_head {r : Re} {s : Str} {i j : Nat} {c : Caps} (h : (r.exec s i []).head? = some (j, c)) : r.matchAt s i = some (j, c) := h

/-- ASCII tables, as an instance of the hypotheses. -/
def asciiRx : RxEnv where
  u := asciiUni
  same := fun l c => c = l || c = l.toUpper

theorem asciiRx_usual : Usual asciiRx where
  sane := asciiUni_sane
  digit := by intro c _; rfl
  same := by intro l _ c _; simp [asciiRx]
  apart := by
    intro l hl l' hl' c h h'
    simp only [asciiRx, Bool.or_eq_true, decide_eq_true_eq] at h h'
    have hall : ∀ l ∈ c!"abcdefghijklmnopqrstuvwxyz", ∀ l' ∈ c!"abcdefghijklmnopqrstuvwxyz", l = l' ∨ (l ≠ l'.toUpper ∧ l.toUpper ≠ l' ∧ l.toUpper ≠ l'.toUpper) := by
      decide +kernel
    rcases hall l hl l' hl' with h0 | ⟨h1, h2, h3⟩
    · exact h0
    · rcases h with rfl | rfl <;> rcases h' with h' | h'
      · exact h'
      · exact absurd h' h1
      · exact absurd h' h2
      · exact absurd h' h3
  letter := by
    intro l hl c h
    simp only [asciiRx, Bool.or_eq_true, decide_eq_true_eq] at h
    have hall : ∀ l ∈ c!"abcdefghijklmnopqrstuvwxyz", Uni.isDigit asciiUni l = false ∧ Uni.isDigit asciiUni l.toUpper = false := by decide
    rcases h with rfl | rfl
    · exact (hall _ hl).1
    · exact (hall _ hl).2

end Guessit
