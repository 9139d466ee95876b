import Verif.Spec.Print
import Verif.Proofs.Quantity

/-!
# Reading back what is printed
-/

namespace Guessit

open Spec

/-! ## Strings -/

theorem hexDigit_val : ∀ n, n < 16 → hexVal (hexDigit n) = some n := by decide

theorem escape_read (c : Char) (r : Str) : readString (escapeChar c ++ r) = putFirst c (readString r) := by
  unfold escapeChar
  by_cases h1 : c = '"'
  · subst h1; rw [if_pos rfl]; rfl
  rw [if_neg h1]
  by_cases h2 : c = '\\'
  · subst h2; rw [if_pos rfl]; rfl
  rw [if_neg h2]
  by_cases h3 : c = '\n'
  · subst h3; rw [if_pos rfl]; rfl
  rw [if_neg h3]
  by_cases h4 : c = '\r'
  · subst h4; rw [if_pos rfl]; rfl
  rw [if_neg h4]
  by_cases h5 : c = '\t'
  · subst h5; rw [if_pos rfl]; rfl
  rw [if_neg h5]
  by_cases h6 : c.toNat = 8
  · rw [if_pos h6]
    have : c = Char.ofNat 8 := by rw [← h6, Char.ofNat_toNat]
    subst this; rfl
  rw [if_neg h6]
  by_cases h7 : c.toNat = 12
  · rw [if_pos h7]
    have : c = Char.ofNat 12 := by rw [← h7, Char.ofNat_toNat]
    subst this; rfl
  rw [if_neg h7]
  by_cases h8 : c.toNat < 32
  · rw [if_pos h8]
    show readString ('\\' :: 'u' :: '0' :: '0' :: hexDigit (c.toNat / 16) :: hexDigit (c.toNat % 16) :: r) = _
    have hh : hexChar '0' '0' (hexDigit (c.toNat / 16)) (hexDigit (c.toNat % 16)) = some c := by
      unfold hexChar
      rw [hexDigit_val _ (by omega), hexDigit_val _ (by omega)]
      rw [show hexVal '0' = some 0 from rfl]
      simp only
      rw [if_neg (by omega)]
      have : ((0 * 16 + 0) * 16 + c.toNat / 16) * 16 + c.toNat % 16 = c.toNat := by omega
      rw [this, Char.ofNat_toNat]
    rw [readString, hh]
  · rw [if_neg h8, List.singleton_append]
    have hr : readString (c :: r) = if c.toNat < 32 then none else putFirst c (readString r) := by
      conv => lhs; unfold readString
      split
      · rename_i h; cases h
      · rename_i h; cases h; exact absurd rfl h1
      · rename_i h; cases h; exact absurd rfl h2
      · rename_i h; cases h; exact absurd rfl h2
      · rename_i h; cases h; rfl
    rw [hr, if_neg h8]

theorem quote_read (s r : Str) : readString ((s.flatMap escapeChar ++ ['"']) ++ r) = some (s, r) := by
  induction s with
  | nil => rfl
  | cons c s ih =>
    rw [List.flatMap_cons, List.append_assoc, List.append_assoc, escape_read, ← List.append_assoc, ih]
    rfl

/-! ## Numbers -/

theorem decDigit_num {c : Char} (h : decDigit c = true) : numChar c = true := by simp [numChar, h]

theorem isExp_chars {t : Str} (h : isExp t = true) : ∀ c ∈ t, numChar c = true := by
  cases t with
  | nil => intro c hc; cases hc
  | cons e r =>
    rw [isExp, Bool.and_eq_true, Bool.or_eq_true] at h
    obtain ⟨he, hr⟩ := h
    have h1 : numChar e = true := by
      rcases he with he | he
      · have : e = 'e' := by simpa using he
        subst this; rfl
      · have : e = 'E' := by simpa using he
        subst this; rfl
    have h2 : ∀ c ∈ r, numChar c = true := by
      unfold isSigned at hr
      split at hr
      · rw [Bool.and_eq_true, List.all_eq_true] at hr
        intro c hc
        rcases List.mem_cons.1 hc with rfl | hc
        · rfl
        · exact decDigit_num (hr.2 c hc)
      · rw [Bool.and_eq_true, List.all_eq_true] at hr
        intro c hc
        rcases List.mem_cons.1 hc with rfl | hc
        · rfl
        · exact decDigit_num (hr.2 c hc)
      · rw [Bool.and_eq_true, List.all_eq_true] at hr
        intro c hc
        exact decDigit_num (hr.2 c hc)
    intro c hc
    rcases List.mem_cons.1 hc with rfl | hc
    · exact h1
    · exact h2 c hc

theorem takeWhile_dec {t : Str} : ∀ c ∈ t.takeWhile decDigit, numChar c = true := fun c hc =>
  decDigit_num (List.all_eq_true.1 (List.all_takeWhile (p := decDigit) (l := t)) c hc)

theorem isFrac_chars {t : Str} (h : isFrac t = true) : ∀ c ∈ t, numChar c = true := by
  unfold isFrac at h
  split at h
  · rename_i r
    rw [Bool.and_eq_true] at h
    intro c hc
    rcases List.mem_cons.1 hc with rfl | hc
    · rfl
    · rw [← List.takeWhile_append_dropWhile (p := decDigit) (l := r)] at hc
      rcases List.mem_append.1 hc with hc | hc
      · exact takeWhile_dec c hc
      · exact isExp_chars h.2 c hc
  · exact isExp_chars h

theorem isUnsigned_chars {t : Str} (h : isUnsigned t = true) : ∀ c ∈ t, numChar c = true := by
  unfold isUnsigned at h
  rw [Bool.and_eq_true] at h
  intro c hc
  rw [← List.takeWhile_append_dropWhile (p := decDigit) (l := t)] at hc
  rcases List.mem_append.1 hc with hc | hc
  · exact takeWhile_dec c hc
  · exact isFrac_chars h.2 c hc

theorem isUnsigned_head {t : Str} (h : isUnsigned t = true) : ∃ c r, t = c :: r ∧ decDigit c = true := by
  cases t with
  | nil => exact absurd h (by decide)
  | cons c r =>
    refine ⟨c, r, rfl, ?_⟩
    cases hd : decDigit c with
    | true => rfl
    | false =>
      unfold isUnsigned at h
      rw [List.takeWhile_cons, hd] at h
      simp at h

theorem isNumber_cases {t : Str} (h : isNumber t = true) :
    (isUnsigned t = true) ∨ ∃ r, t = '-' :: r ∧ isUnsigned r = true := by
  unfold isNumber at h
  split at h
  · exact .inr ⟨_, rfl, h⟩
  · exact .inl h

theorem isNumber_chars {t : Str} (h : isNumber t = true) : ∀ c ∈ t, numChar c = true := by
  rcases isNumber_cases h with h | ⟨r, rfl, h⟩
  · exact isUnsigned_chars h
  · intro c hc
    rcases List.mem_cons.1 hc with rfl | hc
    · rfl
    · exact isUnsigned_chars h c hc

theorem isNumber_head {t : Str} (h : isNumber t = true) : ∃ c r, t = c :: r ∧ (decDigit c = true ∨ c = '-') := by
  rcases isNumber_cases h with h | ⟨r, rfl, h⟩
  · obtain ⟨c, r, h1, h2⟩ := isUnsigned_head h
    exact ⟨c, r, h1, .inl h2⟩
  · exact ⟨_, _, rfl, .inr rfl⟩

/-- What may follow a value. -/
def Ends (r : Str) : Prop := ∀ c ∈ r.head?, numChar c = false

theorem takeWhile_num {t r : Str} (h : ∀ c ∈ t, numChar c = true) (hr : Ends r) :
    (t ++ r).takeWhile numChar = t ∧ (t ++ r).dropWhile numChar = r := by
  induction t with
  | nil =>
    cases r with
    | nil => exact ⟨rfl, rfl⟩
    | cons c r =>
      have := hr c (by simp)
      simp [List.takeWhile_cons, List.dropWhile_cons, this]
  | cons x t ih =>
    have hx := h x (by simp)
    obtain ⟨i1, i2⟩ := ih (fun c hc => h c (by simp [hc]))
    simp [List.takeWhile_cons, List.dropWhile_cons, hx, i1, i2]

theorem decDigit_iff {c : Char} : decDigit c = true ↔ 48 ≤ c.toNat ∧ c.toNat ≤ 57 := by
  unfold decDigit
  simp only [Bool.and_eq_true, decide_eq_true_eq]
  exact Iff.rfl

theorem head_other {c : Char} (h : decDigit c = true ∨ c = '-') :
    c ≠ '"' ∧ c ≠ '[' ∧ c ≠ '{' ∧ c ≠ 'n' ∧ c ≠ 't' ∧ c ≠ 'f' ∧ jsonBlank c = false ∧ c ≠ ']' ∧ c ≠ '}' := by
  rcases h with h | h
  · rw [decDigit_iff] at h
    have key : ∀ d : Char, ¬ (48 ≤ d.toNat ∧ d.toNat ≤ 57) → c ≠ d := fun d hd e => hd (e ▸ h)
    refine ⟨key _ (by decide), key _ (by decide), key _ (by decide), key _ (by decide), key _ (by decide), key _ (by decide), ?_,
      key _ (by decide), key _ (by decide)⟩
    unfold jsonBlank
    have h1 := key ' ' (by decide)
    have h2 := key '\t' (by decide)
    have h3 := key '\n' (by decide)
    have h4 := key '\r' (by decide)
    simp [h1, h2, h3, h4]
  · subst h; decide

theorem number_read {t r : Str} (h : isNumber t = true) (hr : Ends r) : readWord (t ++ r) = some (.num t, r) := by
  obtain ⟨h1, h2⟩ := takeWhile_num (isNumber_chars h) hr
  obtain ⟨c, t', rfl, hc⟩ := isNumber_head h
  obtain ⟨-, -, -, hn, ht, hf, -⟩ := head_other hc
  unfold readWord
  rw [h1, h2, h]
  have e : ∀ (p : Char) (ps : Str), c ≠ p → (p :: ps).isPrefixOf (c :: t' ++ r) = false := by
    intro p ps hp
    simp only [List.cons_append, List.isPrefixOf]
    have : (p == c) = false := by simpa using fun e : p = c => hp e.symm
    rw [this]; rfl
  rw [e _ _ hn, e _ _ ht, e _ _ hf]
  rfl

/-! ## White space -/

/-- Only white space. -/
def Blank (w : Str) : Prop := ∀ c ∈ w, jsonBlank c = true

theorem skip_blank {w s : Str} (h : Blank w) : skipBlank (w ++ s) = skipBlank s := by
  unfold skipBlank
  induction w with
  | nil => rfl
  | cons c w ih =>
    rw [List.cons_append, List.dropWhile_cons, if_pos (h c (by simp)), ih (fun x hx => h x (by simp [hx]))]

theorem skip_stop {c : Char} {s : Str} (h : jsonBlank c = false) : skipBlank (c :: s) = c :: s := by
  unfold skipBlank
  rw [List.dropWhile_cons, if_neg (by simp [h])]

/-- A layout of white space. -/
structure Airy (L : Layout) : Prop where
  inner : ∀ d, Blank (L.inner d)
  between : ∀ d, Blank (L.between d)
  last : ∀ d, Blank (L.last d)

theorem compact_airy : Airy compact where
  inner := fun _ c hc => by cases hc
  between := fun _ c hc => by
    have : c = ' ' := by simpa [compact] using hc
    subst this; rfl
  last := fun _ c hc => by cases hc

theorem indented_airy : Airy indented := by
  have key : ∀ n, Blank ('\n' :: List.replicate n ' ') := by
    intro n c hc
    rcases List.mem_cons.1 hc with rfl | hc
    · rfl
    · rw [(List.mem_replicate.1 hc).2]; rfl
  exact ⟨fun _ => key _, fun _ => key _, fun _ => key _⟩

/-! ## Documents -/

mutual
/-- The numbers of a document are numbers. -/
def Proper : Json → Prop
  | .num t => isNumber t = true
  | .arr xs => ProperList xs
  | .obj es => ProperItems es
  | _ => True
termination_by structural j => j
def ProperList : List Json → Prop
  | [] => True
  | x :: xs => Proper x ∧ ProperList xs
termination_by structural l => l
def ProperItems : List (Str × Json) → Prop
  | [] => True
  | e :: es => ProperEntry e ∧ ProperItems es
termination_by structural l => l
def ProperEntry : Str × Json → Prop
  | (_, j) => Proper j
termination_by structural e => e
end

/-- The first character of a document is none of white space and closing brackets. -/
theorem render_head {L : Layout} {d : Nat} {j : Json} (h : Proper j) :
    ∃ c r, render L d j = c :: r ∧ jsonBlank c = false ∧ c ≠ ']' ∧ c ≠ '}' := by
  cases j with
  | null => exact ⟨_, _, rfl, by decide⟩
  | bool b => cases b <;> exact ⟨_, _, rfl, by decide⟩
  | num t =>
    rw [Proper] at h
    obtain ⟨c, r, rfl, hc⟩ := isNumber_head h
    obtain ⟨-, -, -, -, -, -, h1, h2, h3⟩ := head_other hc
    exact ⟨c, r, by rw [render], h1, h2, h3⟩
  | str s => exact ⟨_, _, by rw [render, quote], by decide⟩
  | arr xs => cases xs <;> exact ⟨_, _, by rw [render], by decide⟩
  | obj es => cases es <;> exact ⟨_, _, by rw [render], by decide⟩

theorem ends_cons {c : Char} {r : Str} (h : numChar c = false) : Ends (c :: r) := by
  intro x hx
  simp only [List.head?_cons, Option.mem_def, Option.some.injEq] at hx
  subst hx; exact h

theorem blank_num {c : Char} (h : jsonBlank c = true) : numChar c = false := by
  unfold jsonBlank at h
  simp only [Bool.or_eq_true, decide_eq_true_eq] at h
  rcases h with ((h | h) | h) | h <;> subst h <;> rfl

theorem ends_blank {w r : Str} (h : Blank w) (hr : Ends r) : Ends (w ++ r) := by
  cases w with
  | nil => exact hr
  | cons c w => exact ends_cons (blank_num (h c (by simp)))

theorem renderList_ends {L : Layout} (hL : Airy L) (d : Nat) (xs : List Json) (r : Str) : Ends (renderList L d xs ++ r) := by
  cases xs with
  | nil =>
    rw [renderList, List.append_assoc]
    exact ends_blank (hL.last d) (ends_cons rfl)
  | cons x xs => rw [renderList]; exact ends_cons rfl

theorem renderItems_ends {L : Layout} (hL : Airy L) (d : Nat) (es : List (Str × Json)) (r : Str) :
    Ends (renderItems L d es ++ r) := by
  cases es with
  | nil =>
    rw [renderItems, List.append_assoc]
    exact ends_blank (hL.last d) (ends_cons rfl)
  | cons x xs => rw [renderItems]; exact ends_cons rfl

theorem renderList_pos {L : Layout} (d : Nat) (xs : List Json) : 0 < (renderList L d xs).length := by
  cases xs <;> rw [renderList] <;> simp

theorem renderItems_pos {L : Layout} (d : Nat) (es : List (Str × Json)) : 0 < (renderItems L d es).length := by
  cases es <;> rw [renderItems] <;> simp

theorem readValue_word {f : Nat} {c : Char} {s : Str} (h : jsonBlank c = false) (h1 : c ≠ '"') (h2 : c ≠ '[') (h3 : c ≠ '{') :
    readValue (f + 1) (c :: s) = readWord (c :: s) := by
  rw [readValue, skip_stop h]
  split
  · rename_i e; cases e; exact absurd rfl h1
  · rename_i e; cases e; exact absurd rfl h2
  · rename_i e; cases e; exact absurd rfl h3
  · rfl

theorem readValue_blank {f : Nat} {w s : Str} (h : Blank w) : readValue f (w ++ s) = readValue f s := by
  cases f with
  | zero => rw [readValue, readValue]
  | succ f => rw [readValue, readValue, skip_blank h]

/-- The items of a list from the first on. -/
def renderTail (L : Layout) (d : Nat) : List Json → Str
  | [] => []
  | x :: xs => render L (d + 1) x ++ renderList L d xs

/-- The entries of a dictionary from the first on. -/
def renderRows (L : Layout) (d : Nat) : List (Str × Json) → Str
  | [] => []
  | e :: es => renderEntry L d e ++ renderItems L d es

theorem readItems_blank {f : Nat} {w s : Str} (h : Blank w) : readItems f (w ++ s) = readItems f s := by
  cases f with
  | zero => rw [readItems, readItems]
  | succ f => rw [readItems, readItems, readValue_blank h]

theorem readEntries_blank {f : Nat} {w s : Str} (h : Blank w) : readEntries f (w ++ s) = readEntries f s := by
  cases f with
  | zero => rw [readEntries, readEntries]
  | succ f => rw [readEntries, readEntries, skip_blank h]

/-- An entry, up to what follows its value. -/
theorem readEntries_step {f : Nat} {k s : Str} : readEntries (f + 1) (quote k ++ c!": " ++ s) =
    match readValue f s with
    | none => none
    | some (x, r2) => match skipBlank r2 with
      | '}' :: r3 => some ([(k, x)], r3)
      | ',' :: r3 => match readEntries f r3 with
        | none => none
        | some (es, r4) => some ((k, x) :: es, r4)
      | _ => none := by
  rw [quote, List.cons_append, List.cons_append, readEntries, skip_stop (by decide)]
  simp only
  rw [List.append_assoc, quote_read]
  simp only
  rw [show c!": " ++ s = ':' :: (c!" " ++ s) from rfl, skip_stop (by decide)]
  simp only
  rw [readValue_blank (w := c!" ") (by intro c hc; simp only [List.mem_singleton] at hc; subst hc; rfl)]
  rfl

mutual
theorem read_value {L : Layout} (hL : Airy L) : ∀ (j : Json), Proper j → ∀ (d f : Nat) (r : Str), (render L d j).length ≤ f → Ends r →
    readValue f (render L d j ++ r) = some (j, r)
  | .null, _, d, 0, r, hf, _ => by rw [render] at hf; simp at hf
  | .null, _, d, f + 1, r, hf, _ => by
    rw [render]
    exact readValue_word (by decide) (by decide) (by decide) (by decide)
  | .bool b, _, d, 0, r, hf, _ => by cases b <;> rw [render] at hf <;> simp at hf
  | .bool b, _, d, f + 1, r, hf, _ => by
    cases b <;> rw [render] <;> exact readValue_word (by decide) (by decide) (by decide) (by decide)
  | .num t, h, d, f, r, hf, hr => by
    rw [Proper] at h
    obtain ⟨c, t', ht, hc⟩ := isNumber_head h
    rw [render] at hf ⊢
    have := number_read h hr
    obtain ⟨g1, g2, g3, -, -, -, g4, -⟩ := head_other hc
    cases f with
    | zero => rw [ht] at hf; simp at hf
    | succ f =>
      rw [← this, ht]
      exact readValue_word g4 g1 g2 g3
  | .str s, _, d, 0, r, hf, _ => by rw [render, quote] at hf; simp at hf
  | .str s, _, d, f + 1, r, hf, _ => by
    rw [render, quote, List.cons_append, readValue, skip_stop (by decide)]
    simp only
    rw [quote_read]
  | .arr xs, h, d, f, r, hf, hr => by
    rw [Proper] at h
    have ih := read_items hL xs h
    cases f with
    | zero => cases xs <;> rw [render] at hf <;> simp at hf
    | succ f =>
      cases xs with
      | nil => rw [render]; rfl
      | cons x xs =>
        rw [ProperList] at h
        rw [render] at hf ⊢
        rw [List.cons_append, readValue, skip_stop (by decide)]
        simp only
        obtain ⟨c, t, hc, hb, h1, h2⟩ := render_head (L := L) (d := d + 1) h.1
        have hskip : skipBlank (L.inner d ++ render L (d + 1) x ++ renderList L d xs ++ r) = renderTail L d (x :: xs) ++ r := by
          rw [List.append_assoc, List.append_assoc, skip_blank (hL.inner d), hc, renderTail, hc]
          simp only [List.cons_append, List.append_assoc]
          exact skip_stop hb
        rw [hskip]
        have hi := ih d f r (by
          simp only [List.length_cons, List.length_append] at hf
          rw [renderTail, List.length_append]; omega) (by simp)
        split
        · rename_i e
          rw [renderTail, hc] at e
          cases e
          exact absurd rfl h1
        · rw [hi]
  | .obj es, h, d, f, r, hf, hr => by
    rw [Proper] at h
    have ih := read_rows hL es h
    cases f with
    | zero => cases es <;> rw [render] at hf <;> simp at hf
    | succ f =>
      cases es with
      | nil => rw [render]; rfl
      | cons e es =>
        rw [render] at hf ⊢
        rw [List.cons_append, readValue, skip_stop (by decide)]
        simp only
        have hc : ∃ t, renderEntry L d e = '"' :: t := by
          obtain ⟨k, v⟩ := e
          rw [renderEntry, quote]
          exact ⟨_, rfl⟩
        obtain ⟨t, hc⟩ := hc
        have hskip : skipBlank (L.inner d ++ renderEntry L d e ++ renderItems L d es ++ r) = renderRows L d (e :: es) ++ r := by
          rw [List.append_assoc, List.append_assoc, skip_blank (hL.inner d), hc, renderRows, hc]
          simp only [List.cons_append, List.append_assoc]
          exact skip_stop (by decide)
        rw [hskip]
        have hi := ih d f r (by
          simp only [List.length_cons, List.length_append] at hf
          rw [renderRows, List.length_append]; omega) (by simp)
        split
        · rename_i e
          rw [renderRows, hc] at e
          cases e
        · rw [hi]
termination_by structural j => j
theorem read_items {L : Layout} (hL : Airy L) : ∀ (l : List Json), ProperList l → ∀ (d f : Nat) (r : Str),
    (renderTail L d l).length ≤ f → l ≠ [] → readItems f (renderTail L d l ++ r) = some (l, r)
  | [], _, _, _, _, _, hn => absurd rfl hn
  | x :: xs, h, d, f, r, hf, _ => by
    rw [ProperList] at h
    have ih1 := read_value hL x h.1
    have ih2 := read_items hL xs h.2
    rw [renderTail] at hf ⊢
    have hpos := renderList_pos (L := L) d xs
    rw [List.length_append] at hf
    cases f with
    | zero => omega
    | succ f =>
      rw [readItems, List.append_assoc, ih1 (d + 1) f _ (by omega) (renderList_ends hL d xs r)]
      simp only
      cases xs with
      | nil =>
        rw [renderList, List.append_assoc, skip_blank (hL.last d)]
        rw [show c!"]" ++ r = ']' :: r from rfl, skip_stop (by decide)]
        rfl
      | cons y ys =>
        have hl : (renderTail L d (y :: ys)).length ≤ f := by
          rw [renderList] at hf
          simp only [List.length_cons, List.length_append] at hf
          rw [renderTail, List.length_append]
          omega
        have hi := ih2 d f r hl (by simp)
        rw [renderList, List.cons_append, skip_stop (by decide)]
        simp only
        rw [List.append_assoc, List.append_assoc, readItems_blank (hL.between d), ← List.append_assoc]
        rw [renderTail] at hi
        rw [hi]
termination_by structural l => l
theorem read_rows {L : Layout} (hL : Airy L) : ∀ (l : List (Str × Json)), ProperItems l → ∀ (d f : Nat) (r : Str),
    (renderRows L d l).length ≤ f → l ≠ [] → readEntries f (renderRows L d l ++ r) = some (l, r)
  | [], _, _, _, _, _, hn => absurd rfl hn
  | e :: es, h, d, f, r, hf, _ => by
    rw [ProperItems] at h
    have ih1 := read_row hL e h.1
    have ih2 := read_rows hL es h.2
    obtain ⟨k, x⟩ := e
    dsimp only at ih1
    rw [renderRows] at hf ⊢
    have hpos := renderItems_pos (L := L) d es
    rw [List.length_append, renderEntry, List.length_append] at hf
    cases f with
    | zero => omega
    | succ f =>
      rw [renderEntry, List.append_assoc, List.append_assoc, readEntries_step]
      rw [ih1 (d + 1) f _ (by omega) (renderItems_ends hL d es r)]
      simp only
      cases es with
      | nil =>
        rw [renderItems, List.append_assoc, skip_blank (hL.last d)]
        rw [show c!"}" ++ r = '}' :: r from rfl, skip_stop (by decide)]
        rfl
      | cons y ys =>
        have hl : (renderRows L d (y :: ys)).length ≤ f := by
          rw [renderItems] at hf
          simp only [List.length_cons, List.length_append] at hf
          rw [renderRows, List.length_append]
          omega
        have hi := ih2 d f r hl (by simp)
        rw [renderItems, List.cons_append, skip_stop (by decide)]
        simp only
        rw [List.append_assoc, List.append_assoc, readEntries_blank (hL.between d), ← List.append_assoc]
        rw [renderRows] at hi
        rw [hi]
termination_by structural l => l
theorem read_row {L : Layout} (hL : Airy L) : ∀ (e : Str × Json), ProperEntry e → ∀ (d f : Nat) (r : Str),
    (render L d e.2).length ≤ f → Ends r → readValue f (render L d e.2 ++ r) = some (e.2, r)
  | (_, j), h, d, f, r, hf, hr => by
    rw [ProperEntry] at h
    exact read_value hL j h d f r hf hr
termination_by structural e => e
end

/-- A document is read back from its text. -/
theorem read_render {L : Layout} (hL : Airy L) {j : Json} (h : Proper j) (d : Nat) : readJson (render L d j) = some j := by
  unfold readJson
  have := read_value hL j h d ((render L d j).length + 1) [] (by omega) (by intro c hc; simp at hc)
  rw [List.append_nil] at this
  rw [this]
  rfl

end Guessit
