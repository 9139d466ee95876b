import Verif.Props.Discs
import Verif.Proofs.Fold

/-! # C118: which parts are recognised -/

namespace Guessit
open Spec Re

/-! ## Alternatives -/

theorem alts_head {rs : List Re} {s : Str} {i : Nat} {c : Caps} {x : Nat × Caps} : ((Re.alts rs).exec s i c).head? = some x ↔
    ∃ pre r post, rs = pre ++ r :: post ∧ (r.exec s i c).head? = some x ∧ ∀ r' ∈ pre, r'.exec s i c = [] := by
  have cons : ∀ r rs, (Re.alts (r :: rs)).exec s i c = r.exec s i c ++ (Re.alts rs).exec s i c := by
    intro r rs
    cases rs with
    | nil => simp [Re.alts, exec]
    | cons r' rs => simp [Re.alts, exec]
  induction rs with
  | nil => simp [Re.alts, exec]
  | cons r rs ih =>
    rw [cons, List.head?_append]
    cases h : r.exec s i c with
    | nil =>
      simp only [List.head?_nil, Option.none_or]
      refine ih.trans ?_
      constructor
      · rintro ⟨pre, r1, post, rfl, h1, h2⟩
        refine ⟨r :: pre, r1, post, rfl, h1, ?_⟩
        intro r' hr'
        rcases List.mem_cons.1 hr' with rfl | hr'
        · exact h
        · exact h2 r' hr'
      · rintro ⟨pre, r1, post, he, h1, h2⟩
        cases pre with
        | nil =>
          simp only [List.nil_append, List.cons.injEq] at he
          obtain ⟨rfl, rfl⟩ := he
          rw [h] at h1; cases h1
        | cons p pre =>
          simp only [List.cons_append, List.cons.injEq] at he
          obtain ⟨rfl, rfl⟩ := he
          exact ⟨pre, r1, post, rfl, h1, fun r' hr' => h2 r' (by simp [hr'])⟩
    | cons y l =>
      simp only [List.head?_cons, Option.some_or, Option.some.injEq]
      constructor
      · rintro rfl
        exact ⟨[], r, rs, rfl, by rw [h]; rfl, by simp⟩
      · rintro ⟨pre, r1, post, he, h1, h2⟩
        cases pre with
        | nil =>
          simp only [List.nil_append, List.cons.injEq] at he
          obtain ⟨rfl, rfl⟩ := he
          rw [h] at h1; simpa using h1
        | cons p pre =>
          simp only [List.cons_append, List.cons.injEq] at he
          obtain ⟨rfl, rfl⟩ := he
          have := h2 r (by simp); rw [h] at this; cases this

theorem word_exec_nil {E : RxEnv} {s w : Str} {i : Nat} {c : Caps} : (E.word w).exec s i c = [] ↔ ¬ LiteralAt E s w i := by
  constructor
  · intro h h'
    have := word_head (c := c) h'; rw [h] at this; cases this
  · intro h
    by_contra hc
    obtain ⟨⟨j, c'⟩, hx⟩ := List.exists_mem_of_ne_nil _ hc
    exact h (mem_word.1 hx).1

theorem words_head {E : RxEnv} {ws : List Str} {s : Str} {i j : Nat} {c c' : Caps} : ((E.words ws).exec s i c).head? = some (j, c') ↔
    c' = c ∧ ∃ pre w post, ws = pre ++ w :: post ∧ LiteralAt E s w i ∧ j = i + w.length ∧ ∀ w' ∈ pre, ¬ LiteralAt E s w' i := by
  rw [RxEnv.words, alts_head]
  constructor
  · rintro ⟨pre, r, post, he, h1, h2⟩
    obtain ⟨p, q, rfl, rfl, he'⟩ := List.map_eq_append_iff.1 he
    obtain ⟨w, q', rfl, rfl, rfl⟩ := List.map_eq_cons_iff.1 he'
    by_cases hw : LiteralAt E s w i
    · rw [word_head hw] at h1
      simp only [Option.some.injEq, Prod.mk.injEq] at h1
      exact ⟨h1.2.symm, p, w, q', rfl, hw, h1.1.symm, fun w' hw' => word_exec_nil.1 (h2 _ (List.mem_map_of_mem hw'))⟩
    · rw [word_exec_nil.2 hw] at h1; cases h1
  · rintro ⟨rfl, pre, w, post, rfl, h1, rfl, h2⟩
    refine ⟨pre.map E.word, E.word w, post.map E.word, by simp, word_head h1, ?_⟩
    intro r hr
    obtain ⟨w', hw', rfl⟩ := List.mem_map.1 hr
    exact word_exec_nil.2 (h2 w' hw')

/-! ## Roman numerals -/

theorem look_pos {E : RxEnv} {s : Str} {i : Nat} {c : Caps} (h : CharAt s (fun x => ∃ l ∈ c!"mcdlxvi", E.same l x = true) i) :
    (Re.look (.rep (.chr fun c => c!"mcdlxvi".any fun l => E.same l c) 1 none)).exec s i c = [(i, c)] := by
  obtain ⟨x, hx, hp⟩ := h
  have hi : i < s.length := (List.getElem?_eq_some_iff.1 hx).1
  have hall : ∀ {j c'}, (j, c') ∈ (Re.rep (.chr fun c => c!"mcdlxvi".any fun l => E.same l c) 1 none).exec s i c ↔ _ :=
    mem_rep_chr (by omega)
  have hm : (i + 1, c) ∈ (Re.rep (.chr fun c => c!"mcdlxvi".any fun l => E.same l c) 1 none).exec s i c := by
    refine hall.2 ⟨rfl, Nat.le_refl _, fun k h1 h2 => ⟨x, ?_, List.any_eq_true.2 hp⟩⟩
    rw [show k = i by omega, hx]
  rw [exec]
  split
  · rename_i h; rw [h] at hm; cases hm
  · rename_i y l h
    have : (y.1, y.2) ∈ (Re.rep (.chr fun c => c!"mcdlxvi".any fun l => E.same l c) 1 none).exec s i c := by rw [h]; exact List.mem_cons_self
    rw [(hall.1 this).1]

theorem look_neg {E : RxEnv} {s : Str} {i : Nat} {c : Caps} (h : ¬ CharAt s (fun x => ∃ l ∈ c!"mcdlxvi", E.same l x = true) i) :
    (Re.look (.rep (.chr fun c => c!"mcdlxvi".any fun l => E.same l c) 1 none)).exec s i c = [] := by
  by_contra hc
  obtain ⟨⟨j, c'⟩, hx⟩ := List.exists_mem_of_ne_nil _ hc
  obtain ⟨rfl, k, hk⟩ := mem_look hx
  rw [exec] at hk
  obtain ⟨_, h1, _, h2⟩ := mem_repExec_chr.1 hk
  obtain ⟨x, hx, hp⟩ := h2 j (Nat.le_refl _) (by omega)
  exact h ⟨x, hx, List.any_eq_true.1 hp⟩

theorem roman_nil {E : RxEnv} {s : Str} {i : Nat} {c : Caps} (h : ¬ CharAt s (fun x => ∃ l ∈ c!"mcdlxvi", E.same l x = true) i) :
    E.romanNumeral.exec s i c = [] := by
  rw [RxEnv.romanNumeral, Re.cat, exec, look_neg h]; rfl

theorem roman_sound {E : RxEnv} (hE : Usual E) {s : Str} {i j : Nat} {c c' : Caps} (h : (j, c') ∈ E.romanNumeral.exec s i c) :
    c' = c ∧ CharAt s (fun x => ∃ l ∈ c!"mcdlxvi", E.same l x = true) i ∧
      ∃ n, n < 5000 ∧ (E.upText s).drop i = roman n ++ (E.upText s).drop j ∧ j = i + (roman n).length := by
  simp only [RxEnv.romanNumeral, Re.cat, mem_seq, mem_eps] at h
  obtain ⟨k0, c0, h0, k1, c1, h1, k2, c2, h2, k3, c3, h3, k4, c4, h4, rfl, rfl⟩ := h
  have hp : CharAt s (fun x => ∃ l ∈ c!"mcdlxvi", E.same l x = true) i := by
    by_contra hn; rw [look_neg hn] at h0; cases h0
  rw [look_pos hp, List.mem_singleton] at h0
  cases h0
  rw [exec_rep_up hE (by decide), mem_repLit] at h1
  rw [exec_place_up hE (by decide) (by decide) (by decide), mem_romanStage] at h2 h3 h4
  obtain ⟨a, _, ha, rfl, g1, rfl⟩ := h1
  obtain ⟨b, hb, g2, rfl, rfl⟩ := h2
  obtain ⟨d, hd, g3, rfl, rfl⟩ := h3
  obtain ⟨e, he, g4, rfl, rfl⟩ := h4
  refine ⟨rfl, hp, a * 1000 + b * 100 + d * 10 + e, by omega, ?_⟩
  have e1 : (a * 1000 + b * 100 + d * 10 + e) / 1000 = a := by omega
  have e2 : (a * 1000 + b * 100 + d * 10 + e) / 100 % 10 = b := by omega
  have e3 : (a * 1000 + b * 100 + d * 10 + e) / 10 % 10 = d := by omega
  have e4 : (a * 1000 + b * 100 + d * 10 + e) % 10 = e := by omega
  rw [roman, e1, e2, e3, e4]
  constructor
  · rw [g1, g2, g3, g4]
    simp only [List.append_assoc]
    rfl
  · simp only [List.length_append, List.length_replicate]
    simp only [Char.toUpper] at *
    show _ = _
    have : ∀ o f t d, (romanDigit o f t d).length = (romanDigit 'I' 'V' 'X' d).length := by
      intro o f t d
      match d with
      | 0 | 1 | 2 | 3 | 4 | 5 | 6 | 7 | 8 | 9 | _ + 10 => rfl
    rw [this _ _ _ b, this _ _ _ d, this _ _ _ e, this 'C' _ _ b, this 'X' _ _ d]
    omega


theorem sep_up {E : RxEnv} (hE : Usual E) {c : Char} (hc : c ∈ seps) : E.up c = c := by
  unfold RxEnv.up
  have : alphabet.find? (fun l => E.same l c) = none := by
    rw [List.find?_eq_none]
    intro l hl
    rw [sep_not_letter hE hl hc]; simp
  rw [this]

theorem free_up {E : RxEnv} (hE : Usual E) {s : Str} {b : Nat} (h : FreeAfter s b) {x : Char} (hx : ((E.upText s).drop b).head? = some x) :
    x ∈ seps := by
  rw [List.head?_drop, RxEnv.upText, List.getElem?_map, Option.map_eq_some_iff] at hx
  obtain ⟨y, hy, rfl⟩ := hx
  rcases h with h | ⟨z, hz, hs⟩
  · have := (List.getElem?_eq_some_iff.1 hy).1; omega
  · rw [hz, Option.some.injEq] at hy; subst hy
    rw [sep_up hE hs]; exact hs

theorem sign_case : ∀ c ∈ c!"MCDLXVI", c.toLower ∈ c!"mcdlxvi" ∧ c.toLower.toUpper = c := by decide +kernel

theorem signs_case {n : Nat} : ((roman n).map Char.toLower).map Char.toUpper = roman n := by
  rw [List.map_map]
  conv => rhs; rw [← List.map_id (roman n)]
  apply List.map_congr_left
  intro c hc
  exact (sign_case c (roman_chars c hc)).2

theorem sign_letter : ∀ l ∈ c!"mcdlxvi", l ∈ alphabet := by decide

theorem signs_letters {n : Nat} : ∀ c ∈ (roman n).map Char.toLower, c ∈ c!"mcdlxvi" := by
  intro c hc
  obtain ⟨x, hx, rfl⟩ := List.mem_map.1 hc
  exact (sign_case x (roman_chars x hx)).1

theorem digit_first {o f t : Char} {d : Nat} {r : Str} {x : Char} (hd : d < 10) (h : (romanDigit o f t d ++ r).head? = some x) :
    x = o ∨ x = f ∨ r.head? = some x := by
  match d, hd with
  | 0, _ => exact .inr (.inr h)
  | 1, _ | 2, _ | 3, _ | 4, _ | 9, _ => left; simpa [romanDigit, eq_comm] using h
  | 5, _ | 6, _ | 7, _ | 8, _ => right; left; simpa [romanDigit, eq_comm] using h

theorem noRep {s : Str} {x : Char} {M i : Nat} {c : Caps} (h : s[i]? ≠ some x) : (Re.rep (.lit x) 0 (some M)).exec s i c = [(i, c)] := by
  have : (Re.lit x).exec s i c = [] := by
    rw [Re.lit, exec]
    split
    · rename_i y hy
      rw [if_neg]; simp only [decide_eq_true_eq]; rintro rfl; exact h hy
    · rfl
  cases M with
  | zero => simp [exec, repExec]
  | succ M => simp [exec, repExec, this]

theorem roman_small {n : Nat} (h : n ≤ 99) : roman n = romanDigit 'X' 'L' 'C' (n / 10) ++ romanDigit 'I' 'V' 'X' (n % 10) := by
  have e1 : n / 1000 = 0 := by omega
  have e2 : n / 100 % 10 = 0 := by omega
  have e3 : n / 10 % 10 = n / 10 := by omega
  rw [roman, e1, e2, e3]; simp [romanDigit]

theorem digit_length (o f t : Char) (d : Nat) : (romanDigit o f t d).length = (romanDigit 'I' 'V' 'X' d).length := by
  match d with
  | 0 | 1 | 2 | 3 | 4 | 5 | 6 | 7 | 8 | 9 | _ + 10 => rfl

/-- Backtracking takes the whole of a Roman numeral that ends before a separator. -/
theorem roman_head {E : RxEnv} (hE : Usual E) {s : Str} {i n : Nat} {c : Caps} (h1 : 1 ≤ n) (h2 : n ≤ 99)
    (hl : LiteralAt E s ((roman n).map Char.toLower) i) (hf : FreeAfter s (i + (roman n).length)) :
    (E.romanNumeral.exec s i c).head? = some (i + (roman n).length, c) := by
  have hp := (up_literal hE fun c hc => sign_letter c (signs_letters c hc)).1 hl
  rw [signs_case] at hp
  obtain ⟨r, hr⟩ := hp
  have hrd : r = (E.upText s).drop (i + (roman n).length) := by
    rw [← List.drop_drop, ← hr, List.drop_left]
  have hsep : ∀ x, r.head? = some x → x ∈ seps := fun x hx => free_up hE hf (hrd ▸ hx)
  have hne : roman n ≠ [] := roman_ne_nil h1 (by omega)
  have hfirst : CharAt s (fun x => ∃ l ∈ c!"mcdlxvi", E.same l x = true) i := by
    obtain ⟨y, ys, hy⟩ := List.exists_cons_of_ne_nil hne
    have := hl 0 y.toLower (by rw [hy]; rfl)
    obtain ⟨x, hx, hs⟩ := this
    exact ⟨x, hx, y.toLower, (sign_case y (roman_chars y (by rw [hy]; simp))).1, hs⟩
  rw [roman_small h2, List.append_assoc] at hr
  have hd1 : n / 10 < 10 := by omega
  have hd2 : n % 10 < 10 := by omega
  have s0 : ∀ x, (E.upText s)[i]? = some x → x = 'X' ∨ x = 'L' ∨ x = 'I' ∨ x = 'V' ∨ x ∈ seps := by
    intro x hx
    rw [← List.head?_drop, ← hr] at hx
    rcases digit_first hd1 hx with h | h | h
    · exact .inl h
    · exact .inr (.inl h)
    · rcases digit_first hd2 h with h | h | h
      · exact .inr (.inr (.inl h))
      · exact .inr (.inr (.inr (.inl h)))
      · exact .inr (.inr (.inr (.inr (hsep x h))))
  have hM : (E.upText s)[i]? ≠ some 'M' := by
    intro h
    rcases s0 _ h with h | h | h | h | h
    · cases h
    · cases h
    · cases h
    · cases h
    · revert h; decide
  have p1 : ((Re.rep (E.letter 'm') 0 (some 4)).exec s i c).head? = some (i, c) := by
    rw [exec_rep_up hE (by decide)]
    show ((Re.rep (.lit 'M') 0 (some 4)).exec (E.upText s) i c).head? = _
    rw [noRep hM]; rfl
  have p2 : ((E.romanPlace 'c' 'd' 'm').exec s i c).head? = some (i, c) := by
    rw [exec_place_up hE (by decide) (by decide) (by decide)]
    refine stage_head (o := 'C') (f := 'D') (t := 'M') (by decide) (by decide) (by decide) (d := 0) (by omega) (r := (E.upText s).drop i) rfl ?_
    intro x hx
    rw [List.head?_drop] at hx
    have hs : ∀ x ∈ seps, x ≠ 'C' ∧ x ≠ 'D' ∧ x ≠ 'M' := by decide
    rcases s0 _ hx with rfl | rfl | rfl | rfl | h
    · decide
    · decide
    · decide
    · decide
    · exact hs x h
  have p3 : ((E.romanPlace 'x' 'l' 'c').exec s i c).head? = some (i + (romanDigit 'X' 'L' 'C' (n / 10)).length, c) := by
    rw [exec_place_up hE (by decide) (by decide) (by decide)]
    refine stage_head (o := 'X') (f := 'L') (t := 'C') (by decide) (by decide) (by decide) hd1 hr.symm ?_
    intro x hx
    have hs : ∀ x ∈ seps, x ≠ 'X' ∧ x ≠ 'L' ∧ x ≠ 'C' := by decide
    rcases digit_first hd2 hx with rfl | rfl | h
    · decide
    · decide
    · exact hs x (hsep x h)
  have p4 : ((E.romanPlace 'i' 'v' 'x').exec s (i + (romanDigit 'X' 'L' 'C' (n / 10)).length) c).head? =
      some (i + (romanDigit 'X' 'L' 'C' (n / 10)).length + (romanDigit 'I' 'V' 'X' (n % 10)).length, c) := by
    rw [exec_place_up hE (by decide) (by decide) (by decide)]
    refine stage_head (o := 'I') (f := 'V') (t := 'X') (by decide) (by decide) (by decide) hd2 (r := r) ?_ ?_
    · rw [← List.drop_drop, ← hr, List.drop_left]
    · intro x hx
      have hs : ∀ x ∈ seps, x ≠ 'I' ∧ x ≠ 'V' ∧ x ≠ 'X' := by decide
      exact hs x (hsep x hx)
  have e : i + (roman n).length = i + (romanDigit 'X' 'L' 'C' (n / 10)).length + (romanDigit 'I' 'V' 'X' (n % 10)).length := by
    rw [roman_small h2, List.length_append]; omega
  rw [e]
  unfold RxEnv.romanNumeral
  refine seq_head (k := i) (c1 := c) (by rw [look_pos hfirst]; rfl) (seq_head p1 (seq_head p2 (seq_head p3 (seq_head p4 eps_head))))


/-! ## Number words -/

/-- The words of the pattern, in its order. -/
def numberWords : List Str := englishWords ++ frenchWords ++ frenchAltWords

/-- A word the pattern can take after the alternatives before it: it is zero or one of `partWords`. -/
theorem word_taken : ∀ k < 63, (numberWords.take k).all (fun w' => !(w'.isPrefixOf (numberWords[k]?.getD []))) = true →
    (numberWords[k]?.getD []).head?.any (c!"mcdlxvi".contains) = false →
    ([c!"zero", c!"zéro"].contains (numberWords[k]?.getD []) || partWords.any fun e => e.2.contains (numberWords[k]?.getD [])) = true := by
  decide +kernel

/-- Each of `partWords` is in the pattern, differs from the words before it in one of its letters, and starts with a letter that no
Roman numeral starts with. -/
theorem word_apart : ∀ e ∈ partWords, ∀ w ∈ e.2, w.all (fun c => alphabet.contains c) = true ∧
    w.head?.any (fun c => !(c!"mcdlxvi".contains c)) = true ∧
    ∃ k < 63, numberWords[k]? = some w ∧ (numberWords.take k).all (fun w' => (List.range w.length).any fun p =>
      match w[p]?, w'[p]? with
      | some l, some l' => alphabet.contains l' && l != l'
      | _, _ => false) = true := by decide +kernel

theorem word_value : ∀ e ∈ partWords, 1 ≤ e.1 ∧ e.1 ≤ 20 ∧ ∀ w ∈ e.2, ∃ e' ∈ wordTable, e'.1 = e.1 ∧ w ∈ e'.2 := by decide +kernel

theorem Spec.LiteralAt.prefix {E : RxEnv} {s w w' : Str} {i : Nat} (h : LiteralAt E s w i) (hw : w' <+: w) : LiteralAt E s w' i := by
  intro k l hl
  obtain ⟨r, rfl⟩ := hw
  refine h k l ?_
  rw [List.getElem?_append_left (List.getElem?_eq_some_iff.1 hl).1]; exact hl

theorem literal_dashed {E : RxEnv} {s w : Str} {i : Nat} (hw : '-' ∉ w) : LiteralAt E.dashed s w i ↔ LiteralAt E s w i := by
  have key : ∀ (k : Nat) (l : Char), w[k]? = some l → ∀ c, E.dashed.same l c = E.same l c := by
    intro k l hl c
    have : l ≠ '-' := by rintro rfl; exact hw (List.mem_of_getElem? hl)
    simp [RxEnv.dashed, this]
  constructor
  · intro h k l hl
    obtain ⟨c, hc, hs⟩ := h k l hl
    exact ⟨c, hc, (key k l hl c).symm.trans hs⟩
  · intro h k l hl
    obtain ⟨c, hc, hs⟩ := h k l hl
    exact ⟨c, hc, (key k l hl c).trans hs⟩

theorem letters_no_dash {w : Str} (h : ∀ c ∈ w, c ∈ alphabet) : '-' ∉ w := by
  intro hc
  exact absurd (h _ hc) (by decide)

/-- What the alternatives of the numeral take. -/
inductive Takes (E : RxEnv) (s : Str) (a b : Nat) : Prop
  | digits : a < b → b ≤ a + 4 → AllOf s (Digit E) a b → Takes E s a b
  | roman (n : Nat) : n < 5000 → CharAt s (fun x => ∃ l ∈ c!"mcdlxvi", E.same l x = true) a →
      (E.upText s).drop a = roman n ++ (E.upText s).drop b → b = a + (roman n).length → Takes E s a b
  | word (w : Str) : ¬ CharAt s (fun x => ∃ l ∈ c!"mcdlxvi", E.same l x = true) a → Spelled E s w a b →
      (w ∈ [c!"zero", c!"zéro"] ∨ ∃ e ∈ partWords, w ∈ e.2) → Takes E s a b

theorem numeral_takes {E : RxEnv} (hE : Usual E) {s : Str} {a b : Nat} {c c' : Caps}
    (h : (E.numeral.exec s a c).head? = some (b, c')) : c' = c ∧ Takes E s a b := by
  rw [RxEnv.numeral, alts_head] at h
  obtain ⟨pre, r, post, he, h1, h2⟩ := h
  match pre, he, h2 with
  | [], he, _ =>
    simp only [List.nil_append, List.cons.injEq] at he
    obtain ⟨rfl, _⟩ := he
    obtain ⟨g1, g2, g3, g4⟩ := mem_someDigits.1 (List.mem_of_head? h1)
    exact ⟨g1, .digits (by omega) (by omega) g4⟩
  | [_], he, _ =>
    simp only [List.cons_append, List.nil_append, List.cons.injEq] at he
    obtain ⟨rfl, rfl, _⟩ := he
    obtain ⟨g1, g2, n, g3, g4, g5⟩ := roman_sound hE (List.mem_of_head? h1)
    exact ⟨g1, .roman n g3 g2 g4 g5⟩
  | [_, _], he, h2 =>
    simp only [List.cons_append, List.nil_append, List.cons.injEq] at he
    obtain ⟨rfl, rfl, rfl, _⟩ := he
    rw [RxEnv.wordNumeral, words_head] at h1
    obtain ⟨g1, p, w, q, hw, g2, g3, g4⟩ := h1
    have hno : ¬ CharAt s (fun x => ∃ l ∈ c!"mcdlxvi", E.same l x = true) a := by
      intro hc
      have hn := h2 E.romanNumeral (by simp)
      rw [RxEnv.romanNumeral, Re.cat, exec, look_pos hc] at hn
      have : ∀ (r : Re) (P : Re), (∀ i c, ∃ x, (P.exec s i c).head? = some x) → ∀ i c, (r.exec s i c) ≠ [] → (Re.seq r P).exec s i c ≠ [] := by
        intro r P hP i c hr hn
        rw [exec, List.flatMap_eq_nil_iff] at hn
        obtain ⟨x, hx⟩ := List.exists_mem_of_ne_nil _ hr
        obtain ⟨y, hy⟩ := hP x.1 x.2
        rw [hn x hx] at hy; cases hy
      have ne : ∀ {l : List (Nat × Caps)}, l ≠ [] → ∃ x, l.head? = some x := by
        intro l hl
        cases l with
        | nil => exact absurd rfl hl
        | cons x l => exact ⟨x, rfl⟩
      have rep0 : ∀ (r : Re) M i c, (Re.rep r 0 (some M)).exec s i c ≠ [] := by
        intro r M i c
        simp only [exec, Option.getD_some]
        cases M <;> simp [repExec]
      have place : ∀ o f t i c, (E.romanPlace o f t).exec s i c ≠ [] := by
        intro o f t i c hn
        simp only [RxEnv.romanPlace, Re.alts, exec, List.append_eq_nil_iff] at hn
        exact this (.rep (E.letter f) 0 (some 1)) (.rep (E.letter o) 0 (some 3)) (fun i c => ne (rep0 _ _ i c)) i c (rep0 _ _ _ _) (by rw [exec]; exact hn.2.2)
      simp only [List.flatMap_cons, List.flatMap_nil, List.append_nil] at hn
      refine this _ _ (fun i c => ne ?_) _ _ (rep0 _ _ _ _) hn
      refine this _ _ (fun i c => ne ?_) _ _ (place _ _ _ _ _)
      refine this _ _ (fun i c => ne ?_) _ _ (place _ _ _ _ _)
      exact this _ _ (fun i c => ⟨_, rfl⟩) _ _ (place _ _ _ _ _)
    have hk : p.length < 63 := by
      have := congrArg List.length hw
      simp only [List.length_append, List.length_cons] at this
      have h63 : (englishWords ++ frenchWords ++ frenchAltWords).length = 63 := by decide
      rw [← List.length_append, ← List.length_append, h63] at this
      omega
    have hwk : numberWords[p.length]? = some w := by rw [numberWords, hw]; simp
    have hpk : numberWords.take p.length = p := by rw [numberWords, hw]; simp
    have hall : (∀ c ∈ w, c = '-' ∨ c ∈ c!"abcdefghijklmnopqrstuvwxyzé") := by
      have : ∀ w ∈ numberWords, ∀ c ∈ w, c = '-' ∨ c ∈ c!"abcdefghijklmnopqrstuvwxyzé" := by decide +kernel
      exact this w (List.mem_of_getElem? hwk)
    have htk := word_taken p.length hk
    rw [hwk, hpk, Option.getD_some] at htk
    have hd : w ∈ [c!"zero", c!"zéro"] ∨ ∃ e ∈ partWords, w ∈ e.2 := by
      have hb : ([c!"zero", c!"zéro"].contains w || partWords.any fun e => e.2.contains w) = true → w ∈ [c!"zero", c!"zéro"] ∨ ∃ e ∈ partWords, w ∈ e.2 := by
        intro h
        rw [Bool.or_eq_true, List.any_eq_true] at h
        rcases h with h | ⟨e, he, h⟩
        · exact .inl (by simpa using h)
        · exact .inr ⟨e, he, by simpa using h⟩
      refine hb (htk ?_ ?_)
      · rw [List.all_eq_true]
        intro w' hw'
        have := g4 w' hw'
        cases hb : w'.isPrefixOf w with
        | false => rfl
        | true => exact absurd (g2.prefix (List.isPrefixOf_iff_prefix.1 hb)) this
      · cases hh : w.head? with
        | none => rfl
        | some l =>
          simp only [Option.any_some]
          cases hb : c!"mcdlxvi".contains l with
          | false => rfl
          | true =>
            exfalso
            have hl : l ∈ c!"mcdlxvi" := by simpa using hb
            obtain ⟨x, hx, hs⟩ := g2 0 l (by rw [← List.head?_eq_getElem?]; exact hh)
            have : E.dashed.same l x = E.same l x := by
              have : l ≠ '-' := by rintro rfl; revert hl; decide
              simp [RxEnv.dashed, this]
            rw [this] at hs
            exact hno ⟨x, hx, l, hl, hs⟩
    have hnd : '-' ∉ w := by
      have h0 : ∀ w ∈ [c!"zero", c!"zéro"], '-' ∉ w := by decide
      have h1 : ∀ e ∈ partWords, ∀ w ∈ e.2, '-' ∉ w := by decide
      rcases hd with hd | ⟨e, he, hw⟩
      · exact h0 w hd
      · exact h1 e he w hw
    exact ⟨g1, .word w hno ⟨g3, (literal_dashed hnd).1 g2⟩ hd⟩
  | _ :: _ :: _ :: pre, he, _ =>
    have := congrArg List.length he
    simp at this


theorem word_numeral_head {E : RxEnv} (hE : Usual E) {s w : Str} {a : Nat} {c : Caps} {e : Nat × List Str} (he : e ∈ partWords) (hw : w ∈ e.2)
    (hl : LiteralAt E s w a) : (E.numeral.exec s a c).head? = some (a + w.length, c) := by
  obtain ⟨h1, h2, k, hk, hkw, hall⟩ := word_apart e he w hw
  have hlet : ∀ c ∈ w, c ∈ alphabet := fun c hc => by simpa using List.all_eq_true.1 h1 c hc
  obtain ⟨l, hl0, hr0⟩ : ∃ l, w.head? = some l ∧ l ∉ c!"mcdlxvi" := by
    cases hh : w.head? with
    | none => rw [hh] at h2; simp at h2
    | some l => exact ⟨l, rfl, by rw [hh] at h2; simpa using h2⟩
  have hla : l ∈ alphabet := hlet l (List.mem_of_head? hl0)
  obtain ⟨x, hx, hs⟩ := hl 0 l (by rw [← List.head?_eq_getElem?]; exact hl0)
  simp only [Nat.add_zero] at hx
  have hnr : ¬ CharAt s (fun x => ∃ l ∈ c!"mcdlxvi", E.same l x = true) a := by
    rintro ⟨y, hy, l', hl', hs'⟩
    rw [hx, Option.some.injEq] at hy; subst hy
    exact hr0 (hE.apart l hla l' (sign_letter l' hl') x hs hs' ▸ hl')
  have hnd : (Re.rep E.digit 1 (some 4)).exec s a c = [] := by
    by_contra hc
    obtain ⟨⟨j, c'⟩, hm⟩ := List.exists_mem_of_ne_nil _ hc
    obtain ⟨_, g2, _, g4⟩ := mem_someDigits.1 hm
    obtain ⟨y, hy, hd⟩ := g4 a (Nat.le_refl _) (by omega)
    rw [hx, Option.some.injEq] at hy; subst hy
    exact letter_not_digit hE hla hs hd
  rw [RxEnv.numeral, alts_head]
  refine ⟨[.rep E.digit 1 (some 4), E.romanNumeral], E.wordNumeral, [], rfl, ?_, ?_⟩
  · rw [RxEnv.wordNumeral, words_head]
    have hsplit : numberWords = numberWords.take k ++ w :: numberWords.drop (k + 1) := by
      have h3 := List.getElem?_eq_some_iff.1 hkw
      obtain ⟨h4, h5⟩ := h3
      rw [← h5, List.getElem_cons_drop, List.take_append_drop]
    refine ⟨rfl, numberWords.take k, w, numberWords.drop (k + 1), hsplit, (literal_dashed (letters_no_dash hlet)).2 hl, rfl, ?_⟩
    intro w' hw' hl'
    have := List.all_eq_true.1 hall w' hw'
    obtain ⟨p, hp, hm⟩ := List.any_eq_true.1 this
    split at hm
    · rename_i l1 l2 e1 e2
      simp only [Bool.and_eq_true, bne_iff_ne, ne_eq] at hm
      have hl2 : l2 ∈ alphabet := by simpa using hm.1
      obtain ⟨y, hy, hs1⟩ := hl p l1 e1
      obtain ⟨z, hz, hs2⟩ := hl' p l2 e2
      rw [hy, Option.some.injEq] at hz; subst hz
      have : E.dashed.same l2 y = E.same l2 y := by
        have : l2 ≠ '-' := by rintro rfl; revert hl2; decide
        simp [RxEnv.dashed, this]
      exact hm.2 (hE.apart l1 (hlet l1 (List.mem_of_getElem? e1)) l2 hl2 y hs1 (this ▸ hs2))
    · cases hm
  · intro r hr
    simp only [List.mem_cons, List.not_mem_nil, or_false] at hr
    rcases hr with rfl | rfl
    · exact hnd
    · exact roman_nil hnr

/-! ## Values -/

theorem case_letters : ∀ l ∈ c!"abcdefghijklmnopqrstuvwxyzé", l ∈ wordLetters ∧ upLetter l ∈ wordLetters ∧ lowLetter l = l ∧
    lowLetter (upLetter l) = l ∧ upLetter (upLetter l) = upLetter l := by decide +kernel

/-- The text of a word that is written in any case. -/
theorem literal_text {E : RxEnv} {s : Str} (hP : PlainCase E s) : ∀ {w : Str}, (∀ c ∈ w, c ∈ c!"abcdefghijklmnopqrstuvwxyzé") → ∀ {a : Nat}, LiteralAt E s w a →
    ((s.take (a + w.length)).drop a).map lowLetter = w ∧ ((s.take (a + w.length)).drop a).map upLetter = w.map upLetter ∧
      ∀ c ∈ (s.take (a + w.length)).drop a, c ∈ wordLetters
  | [], _, a, _ => by simp
  | l :: w, hw, a, h => by
    rw [LiteralAt.cons] at h
    obtain ⟨⟨x, hx, hs⟩, h2⟩ := h
    obtain ⟨i1, i2, i3⟩ := literal_text hP (fun c hc => hw c (by simp [hc])) h2
    have hl := hw l (by simp)
    obtain ⟨c1, c2, c3, c4, c5⟩ := case_letters l hl
    have hxl := hP x (List.mem_of_getElem? hx) l hl hs
    have ht : (s.take (a + (l :: w).length)).drop a = x :: (s.take (a + 1 + w.length)).drop (a + 1) := by
      have e : a + (l :: w).length = a + 1 + w.length := by simp; omega
      rw [e]
      refine drop_cons ?_
      rw [List.getElem?_take, if_pos (by omega)]; exact hx
    rw [ht]
    simp only [List.map_cons, i1, i2, List.cons.injEq, and_true, List.mem_cons, forall_eq_or_imp]
    rcases hxl with rfl | rfl
    · exact ⟨c3, rfl, c1, i3⟩
    · exact ⟨c4, c5, c2, i3⟩

theorem letters_plain {c : Char} (h : c ∈ alphabet) : c ∈ c!"abcdefghijklmnopqrstuvwxyzé" := by
  have : ∀ c ∈ alphabet, c ∈ c!"abcdefghijklmnopqrstuvwxyzé" := by decide
  exact this c h

theorem newline_letters : ∀ c ∈ wordLetters, upLetter c ≠ '\n' := by decide +kernel

theorem letters_text {E : RxEnv} (hC : Cased E.u) (w : Str) (hne : w ≠ []) (hw : ∀ c ∈ w, c ∈ wordLetters) : intCoercable E.u w = false ∧
    (∀ c ∈ w, E.u.isDigit c = false) ∧ wordsOf E.u w = [w] ∧ ∀ x ∈ wordsOf E.u w, '\n' ∉ E.u.upper x := by
  have hnd : ∀ c ∈ w, E.u.isDigit c = false := fun c hc => hC.digit c (hw c hc)
  have hw1 : wordsOf E.u w = [w] := wordsOf_single hne fun c hc => hC.space c (hw c hc)
  refine ⟨by simp [intCoercable, pyInt_no_digit E.u w hnd], hnd, hw1, ?_⟩
  intro x hx
  rw [hw1, List.mem_singleton] at hx
  subst hx
  rw [hC.upper x hw]
  intro hn
  obtain ⟨y, hy, he⟩ := List.mem_map.1 hn
  exact newline_letters y (hw y hy) he

theorem roman_reading {E : RxEnv} (hE : Usual E) (hC : Cased E.u) {s : Str} (hP : PlainCase E s) {a n : Nat} (hn : 1 ≤ n) (h1 : n < 5000)
    (hl : LiteralAt E s ((roman n).map Char.toLower) a) :
    parseNumeral E.u ((s.take (a + (roman n).length)).drop a) true true true true = .ok n ∧
      intCoercable E.u ((s.take (a + (roman n).length)).drop a) = false := by
  have hlen : ((roman n).map Char.toLower).length = (roman n).length := by simp
  obtain ⟨t1, t2, t3⟩ := literal_text hP (fun c hc => letters_plain (sign_letter c (signs_letters c hc))) hl
  rw [hlen] at t1 t2 t3
  have hup : ((roman n).map Char.toLower).map upLetter = roman n := by
    refine Eq.trans ?_ (signs_case (n := n))
    rw [List.map_map, List.map_map]
    apply List.map_congr_left
    intro c hc
    have hall : ∀ l ∈ c!"mcdlxvi", upLetter l = l.toUpper := by decide +kernel
    exact hall _ (sign_case c (roman_chars c hc)).1
  have hne : (s.take (a + (roman n).length)).drop a ≠ [] := by
    intro he
    rw [he] at t2
    simp only [List.map_nil] at t2
    rw [hup] at t2
    exact roman_ne_nil hn h1 t2.symm
  obtain ⟨g1, g2, g3, g4⟩ := letters_text hC _ hne t3
  refine ⟨?_, g1⟩
  rw [C26_reading E.u hE.sane _ g4]
  refine .roman n g2 ⟨[], _, [], by rw [g3]; rfl, ⟨hn, h1, ?_⟩, by simp⟩
  rw [hC.upper _ t3, t2, hup]

theorem word_reading {E : RxEnv} (hE : Usual E) (hC : Cased E.u) {s : Str} (hP : PlainCase E s) {w : Str} {a n : Nat}
    (hw : ∀ c ∈ w, c ∈ c!"abcdefghijklmnopqrstuvwxyzé") (hwn : WordNumber w n) (hfirst : ∃ l ∈ w.head?, l ∉ c!"mcdlxvi") (hl : LiteralAt E s w a) :
    parseNumeral E.u ((s.take (a + w.length)).drop a) true true true true = .ok n ∧ intCoercable E.u ((s.take (a + w.length)).drop a) = false := by
  obtain ⟨t1, t2, t3⟩ := literal_text hP hw hl
  obtain ⟨l, hl0, hlm⟩ := hfirst
  have hne : (s.take (a + w.length)).drop a ≠ [] := by
    intro he
    rw [he] at t1
    simp only [List.map_nil] at t1
    rw [← t1] at hl0; simp at hl0
  obtain ⟨g1, g2, g3, g4⟩ := letters_text hC _ hne t3
  refine ⟨?_, g1⟩
  rw [C26_reading E.u hE.sane _ g4]
  refine .word n g2 ?_ ⟨[], _, [], by rw [g3]; rfl, ?_, by simp⟩
  · intro x hx m hm
    rw [g3, List.mem_singleton] at hx
    subst hx
    have hm2 := hm.2.2
    rw [hC.upper _ t3, t2] at hm2
    obtain ⟨y, ys, hy⟩ := List.exists_cons_of_ne_nil (roman_ne_nil hm.1 hm.2.1)
    cases w with
    | nil => simp at hl0
    | cons l' w' =>
      simp only [List.head?_cons, Option.mem_def, Option.some.injEq] at hl0
      subst hl0
      rw [hy] at hm2
      simp only [List.map_cons, List.cons.injEq] at hm2
      have hyr := roman_chars y (by rw [hy]; simp)
      have hall : ∀ l ∈ c!"abcdefghijklmnopqrstuvwxyzé", upLetter l ∈ c!"MCDLXVI" → l ∈ c!"mcdlxvi" := by decide +kernel
      exact hlm (hall l' (hw l' (by simp)) (hm2.1 ▸ hyr))
  · show WordNumber _ _
    rw [hC.lower _ t3, t1]; exact hwn

theorem partWord_letters : ∀ e ∈ partWords, ∀ w ∈ e.2, ∀ c ∈ w, c ∈ c!"abcdefghijklmnopqrstuvwxyzé" := by decide +kernel
theorem zero_letters : ∀ w ∈ [c!"zero", c!"zéro"], ∀ c ∈ w, c ∈ c!"abcdefghijklmnopqrstuvwxyzé" := by decide
theorem zero_first : ∀ w ∈ [c!"zero", c!"zéro"], ∃ l ∈ w.head?, l ∉ c!"mcdlxvi" := by decide
theorem partWord_first : ∀ e ∈ partWords, ∀ w ∈ e.2, ∃ l ∈ w.head?, l ∉ c!"mcdlxvi" := by decide +kernel

theorem partWord_number {e : Nat × List Str} (he : e ∈ partWords) {w : Str} (hw : w ∈ e.2) : WordNumber w e.1 := by
  obtain ⟨_, _, hv⟩ := word_value e he
  obtain ⟨e', he', h5, h6⟩ := hv w hw
  exact ⟨e'.2, by rw [← h5]; exact he', h6⟩

theorem worded_value {E : RxEnv} (hE : Usual E) (hC : Cased E.u) {s : Str} (hP : PlainCase E s) {a b n : Nat} (h1 : 1 ≤ n) (h2 : n ≤ 99)
    (h : Worded E s a b n) :
    parseNumeral E.u ((s.take b).drop a) true true true true = .ok n ∧ intCoercable E.u ((s.take b).drop a) = false := by
  rcases h with ⟨rfl, hl⟩ | ⟨ws, hws, w, hw, rfl, hl⟩
  · rw [List.length_map]
    exact roman_reading hE hC hP h1 (by omega) hl
  · exact word_reading hE hC hP (partWord_letters _ hws w hw) (partWord_number hws hw) (partWord_first _ hws w hw) hl

/-- Reading the numeral of a hit. -/
theorem takes_value {E : RxEnv} (hE : Usual E) (hC : Cased E.u) {s : Str} (hP : PlainCase E s) {a b : Nat} (h : Takes E s a b) (hab : a < b) :
    (∃ n, Number E s a b n ∧ b ≤ a + 4 ∧ parseNumeral E.u ((s.take b).drop a) true true true true = .ok n ∧ intCoercable E.u ((s.take b).drop a) = true) ∨
    (∃ n : Nat, parseNumeral E.u ((s.take b).drop a) true true true true = .ok n ∧ intCoercable E.u ((s.take b).drop a) = false ∧ (n = 0 ∨ Worded E s a b n)) := by
  cases h with
  | digits h1 h2 h3 =>
    left
    refine ⟨_, number_of h1 h3, h2, ?_, ?_⟩
    · have hd := textOf_digits h3
      have hne : (s.take b).drop a ≠ [] := by
        intro hn
        have := textOf_length (i := a) (h3.le h1)
        rw [hn] at this; simp at this; omega
      have := numeralInt_digits E.u hE.sane [] ((s.take b).drop a) [] (by simp) hne hd (by simp)
      simp only [List.nil_append, List.append_nil] at this
      simp only [parseNumeral, if_true, this]; rfl
    · simp [intCoercable, pyInt_number hE h1 h3]
  | roman n h1 h2 h3 h4 =>
    right
    have hn : 1 ≤ n := by
      rcases Nat.eq_zero_or_pos n with rfl | h
      · have : (roman 0).length = 0 := by decide
        omega
      · exact h
    have hl : LiteralAt E s ((roman n).map Char.toLower) a := by
      rw [up_literal hE fun c hc => sign_letter c (signs_letters c hc), signs_case, h3]
      exact List.prefix_append _ _
    subst h4
    obtain ⟨g1, g2⟩ := roman_reading hE hC hP hn h1 hl
    exact ⟨n, g1, g2, .inr (.inl ⟨by rw [List.length_map], hl⟩)⟩
  | word w h1 h2 h3 =>
    right
    obtain ⟨rfl, hl⟩ := h2
    rcases h3 with h | ⟨e, he, hw⟩
    · obtain ⟨g1, g2⟩ := word_reading hE hC hP (n := 0) (zero_letters w h) ⟨[c!"zero", c!"zéro"], by decide, h⟩ (zero_first w h) hl
      exact ⟨0, g1, g2, .inl rfl⟩
    · obtain ⟨g1, g2⟩ := word_reading hE hC hP (partWord_letters e he w hw) (partWord_number he hw) (partWord_first e he w hw) hl
      exact ⟨e.1, g1, g2, .inr (.inr ⟨e.2, he, w, hw, rfl, hl⟩)⟩

/-! ## The pattern -/

theorem partPrefix_lettered : ∀ w ∈ partPrefixes, ∀ c ∈ w, c ∈ alphabet := by decide

theorem partAt_iff {E : RxEnv} {s : Str} {i a : Nat} : PartAt E s i a ↔ ∃ w ∈ partPrefixes, LiteralAt E s w i ∧ MaybeSep s (i + w.length) a := by
  simp [PartAt, partPrefixes]

theorem mem_part {E : RxEnv} {s : Str} {i j : Nat} {c : Caps} : (j, c) ∈ (partPattern E partPrefixes).re.exec s i [] ↔
    ∃ a c', PartAt E s i a ∧ (j, c') ∈ E.numeral.exec s a [] ∧ c = (1, (a, j)) :: c' := by
  show (j, c) ∈ (Re.cat [E.words partPrefixes, dashRe, .grp 1 E.numeral]).exec s i [] ↔ _
  simp only [Re.cat, mem_seq, mem_words, mem_dash, mem_grp, mem_eps, partAt_iff]
  constructor
  · rintro ⟨k, c1, ⟨rfl, w, hw, h1, rfl⟩, a, c2, ⟨h2, rfl⟩, k3, c3, ⟨c4, h3, h4⟩, rfl, rfl⟩
    exact ⟨a, c4, ⟨w, hw, h1, h2⟩, h3, h4⟩
  · rintro ⟨a, c', ⟨w, hw, h1, h2⟩, h3, rfl⟩
    exact ⟨_, _, ⟨rfl, w, hw, h1, rfl⟩, a, _, ⟨h2, rfl⟩, j, _, ⟨c', h3, rfl⟩, rfl, rfl⟩

/-- What a numeral can start with. -/
theorem numeral_first {E : RxEnv} (hE : Usual E) {s : Str} {a b : Nat} {c c' : Caps} (h : (b, c') ∈ E.numeral.exec s a c) :
    CharAt s (fun x => x ∉ seps ∧ E.same 'p' x = false) a := by
  rw [RxEnv.numeral, mem_alts] at h
  obtain ⟨r, hr, h⟩ := h
  have letter : ∀ l ∈ alphabet, l ≠ 'p' → ∀ x, E.same l x = true → x ∉ seps ∧ E.same 'p' x = false := by
    intro l hl hlp x hx
    refine ⟨fun hs => ?_, ?_⟩
    · rw [sep_not_letter hE hl hs] at hx; cases hx
    · cases hp : E.same 'p' x with
      | false => rfl
      | true => exact absurd (hE.apart l hl 'p' (by decide) x hx hp) hlp
  simp only [List.mem_cons, List.not_mem_nil, or_false] at hr
  rcases hr with rfl | rfl | rfl
  · obtain ⟨_, g2, _, g4⟩ := mem_someDigits.1 h
    obtain ⟨x, hx, hd⟩ := g4 a (Nat.le_refl _) (by omega)
    refine ⟨x, hx, fun hs => sep_not_digit hE hs hd, ?_⟩
    cases hp : E.same 'p' x with
    | false => rfl
    | true => exact absurd hd (letter_not_digit hE (by decide) hp)
  · obtain ⟨_, ⟨x, hx, l, hl, hs⟩, _⟩ := roman_sound hE h
    have hne : ∀ l ∈ c!"mcdlxvi", l ≠ 'p' := by decide
    exact ⟨x, hx, letter l (sign_letter l hl) (hne l hl) x hs⟩
  · rw [RxEnv.wordNumeral, mem_words] at h
    obtain ⟨_, w, hw, h1, _⟩ := h
    have hall : ∀ w ∈ englishWords ++ frenchWords ++ frenchAltWords, ∃ l ∈ w.head?, l ∈ alphabet ∧ l ≠ 'p' ∧ l ≠ '-' := by decide +kernel
    obtain ⟨l, hl, h2, h3, h4⟩ := hall w hw
    obtain ⟨x, hx, hs⟩ := h1 0 l (by rw [← List.head?_eq_getElem?]; exact hl)
    have : E.dashed.same l x = E.same l x := by simp [RxEnv.dashed, h4]
    exact ⟨x, hx, letter l h2 h3 x (this ▸ hs)⟩

theorem partAt_unique {E : RxEnv} (hE : Usual E) {s : Str} {i a a' : Nat} (h : PartAt E s i a) (h' : PartAt E s i a')
    (ha : CharAt s (fun x => x ∉ seps) a) (ha' : CharAt s (fun x => x ∉ seps) a') : a = a' := by
  have sep : ∀ {k a a' : Nat}, MaybeSep s k a → MaybeSep s k a' → CharAt s (fun x => x ∉ seps) a → CharAt s (fun x => x ∉ seps) a' → a = a' := by
    rintro k a a' (rfl | ⟨rfl, h1⟩) (rfl | ⟨rfl, h2⟩) g1 g2
    · rfl
    · exact absurd (h2.false g1 fun c hc hd => hd hc.1) not_false
    · exact absurd (h1.false g2 fun c hc hd => hd hc.1) not_false
    · rfl
  have two : ∀ {P : Prop}, LiteralAt E s c!"pt" i → LiteralAt E s c!"part" i → P := by
    intro P g1 g2
    obtain ⟨x, hx, h1⟩ := g1 1 't' rfl
    obtain ⟨y, hy, h2⟩ := g2 1 'a' rfl
    rw [hx, Option.some.injEq] at hy; subst hy
    exact absurd (hE.apart 't' (by decide) 'a' (by decide) x h1 h2) (by decide)
  rcases h with ⟨h1, h2⟩ | ⟨h1, h2⟩ <;> rcases h' with ⟨h3, h4⟩ | ⟨h3, h4⟩
  · exact sep h2 h4 ha ha'
  · exact two h1 h3
  · exact two h3 h1
  · exact sep h2 h4 ha ha'

theorem part_le {E : RxEnv} {s : Str} {i a : Nat} (h : PartAt E s i a) : i + 2 ≤ a := by
  rcases h with ⟨_, rfl | ⟨rfl, _⟩⟩ | ⟨_, rfl | ⟨rfl, _⟩⟩ <;> omega

/-- The match at a position. -/
theorem part_matchAt {E : RxEnv} (hE : Usual E) {s : Str} {i j : Nat} {c : Caps} : (partPattern E partPrefixes).re.matchAt s i = some (j, c) ↔
    ∃ a, PartAt E s i a ∧ (E.numeral.exec s a []).head? = some (j, []) ∧ c = [(1, (a, j))] := by
  have fwd : ∀ {a j}, PartAt E s i a → (E.numeral.exec s a []).head? = some (j, []) →
      (partPattern E partPrefixes).re.matchAt s i = some (j, [(1, (a, j))]) := by
    intro a j ha hn
    have hf := numeral_first hE (List.mem_of_head? hn)
    obtain ⟨w, hw, h1, h2⟩ := partAt_iff.1 ha
    refine matchAt_head (seq_head (k := i + w.length) (c1 := []) ?_ (seq_head (dash_head h2 ?_) (seq_head (grp_head hn) eps_head)))
    · rw [words_head]
      refine ⟨rfl, ?_⟩
      have two : LiteralAt E s c!"part" i → ¬ LiteralAt E s c!"pt" i := by
        intro g2 g1
        obtain ⟨x, hx, h1⟩ := g1 1 't' rfl
        obtain ⟨y, hy, h2⟩ := g2 1 'a' rfl
        rw [hx, Option.some.injEq] at hy; subst hy
        exact absurd (hE.apart 't' (by decide) 'a' (by decide) x h1 h2) (by decide)
      simp only [partPrefixes, List.mem_cons, List.not_mem_nil, or_false] at hw
      rcases hw with rfl | rfl
      · exact ⟨[], _, _, rfl, h1, rfl, by simp⟩
      · exact ⟨[c!"pt"], _, _, rfl, h1, rfl, by simpa using two h1⟩
    · rintro rfl x hx hs
      obtain ⟨y, hy, hn, _⟩ := hf
      rw [hx, Option.some.injEq] at hy; subst hy
      exact hn hs
  constructor
  · intro h
    obtain ⟨a, c', ha, hn, rfl⟩ := mem_part.1 (matchAt_mem h)
    obtain ⟨⟨j', c''⟩, hh⟩ : ∃ x, (E.numeral.exec s a []).head? = some x := by
      cases he : E.numeral.exec s a [] with
      | nil => rw [he] at hn; cases hn
      | cons x l => exact ⟨x, rfl⟩
    have hc := (numeral_takes hE hh).1
    subst hc
    have := fwd ha hh
    rw [h] at this
    simp only [Option.some.injEq, Prod.mk.injEq, List.cons.injEq] at this
    obtain ⟨rfl, ⟨_, _⟩, rfl⟩ := this
    exact ⟨a, ha, hh, rfl⟩
  · rintro ⟨a, ha, hn, rfl⟩
    exact fwd ha hn

theorem numeral_le {E : RxEnv} (hE : Usual E) {s : Str} {a b : Nat} {c c' : Caps} (h : (E.numeral.exec s a c).head? = some (b, c')) : a ≤ b := by
  cases (numeral_takes hE h).2 with
  | digits h1 _ _ => omega
  | roman n _ _ _ h => omega
  | word w _ h _ => have := h.1; omega

theorem part_eats {E : RxEnv} (hE : Usual E) : (partPattern E partPrefixes).re.Eats := by
  intro s i j c _ h
  obtain ⟨a, ha, hn, _⟩ := (part_matchAt hE).1 h
  have := part_le ha; have := numeral_le hE hn; omega


theorem takes_nosep {E : RxEnv} (hE : Usual E) {s : Str} (hP : PlainCase E s) {a b : Nat} (h : Takes E s a b) :
    ∀ k, a ≤ k → k < b → CharAt s (fun x => x ∉ seps) k := by
  have lit : ∀ {w : Str}, (∀ c ∈ w, c ∈ c!"abcdefghijklmnopqrstuvwxyzé") → LiteralAt E s w a → ∀ k, a ≤ k → k < a + w.length →
      CharAt s (fun x => x ∉ seps) k := by
    intro w hw hl k h1 h2
    have hk : k - a < w.length := by omega
    obtain ⟨x, hx, hs⟩ := hl (k - a) w[k - a] (List.getElem?_eq_some_iff.2 ⟨hk, rfl⟩)
    rw [show a + (k - a) = k by omega] at hx
    refine ⟨x, hx, ?_⟩
    have hlw := hw _ (List.getElem_mem hk)
    have hall : ∀ l ∈ c!"abcdefghijklmnopqrstuvwxyzé", l ∉ seps ∧ upLetter l ∉ seps := by decide +kernel
    rcases hP x (List.mem_of_getElem? hx) _ hlw hs with e | e
    · rw [e]; exact (hall _ hlw).1
    · rw [e]; exact (hall _ hlw).2
  cases h with
  | digits h1 h2 h3 =>
    intro k hk1 hk2
    obtain ⟨x, hx, hd⟩ := h3 k hk1 hk2
    exact ⟨x, hx, fun hs => sep_not_digit hE hs hd⟩
  | roman n h1 h2 h3 h4 =>
    have hl : LiteralAt E s ((roman n).map Char.toLower) a := by
      rw [up_literal hE fun c hc => sign_letter c (signs_letters c hc), signs_case, h3]
      exact List.prefix_append _ _
    intro k hk1 hk2
    refine lit (fun c hc => letters_plain (sign_letter c (signs_letters c hc))) hl k hk1 ?_
    rw [List.length_map]; omega
  | word w h1 h2 h3 =>
    intro k hk1 hk2
    refine lit ?_ h2.2 k hk1 (by have := h2.1; omega)
    have h0 : ∀ w ∈ [c!"zero", c!"zéro"], ∀ c ∈ w, c ∈ c!"abcdefghijklmnopqrstuvwxyzé" := by decide
    have h1 : ∀ e ∈ partWords, ∀ w ∈ e.2, ∀ c ∈ w, c ∈ c!"abcdefghijklmnopqrstuvwxyzé" := by decide +kernel
    rcases h3 with h | ⟨e, he, hw⟩
    · exact h0 w h
    · exact h1 e he w hw

theorem part_clear {E : RxEnv} (hE : Usual E) {s : Str} (hP : PlainCase E s) {i a : Nat} (ha : PartAt E s i a) (hf : FreeBefore s i) :
    ∀ i' j' c', i' < i → (partPattern E partPrefixes).re.matchAt s i' = some (j', c') → j' ≤ i := by
  intro i' j' c' hlt hm
  obtain ⟨a', ha', hn, _⟩ := (part_matchAt hE).1 hm
  by_contra hc
  have hp : CharAt s (fun x => E.same 'p' x = true) i := by
    obtain ⟨w, hw, h1, _⟩ := partAt_iff.1 ha
    have hall : ∀ w ∈ partPrefixes, w[0]? = some 'p' := by decide
    exact h1 0 'p' (hall w hw)
  have hsep : CharAt s (· ∈ seps) (i - 1) := by
    rcases hf with h | h
    · omega
    · exact h
  obtain ⟨w, hw, h1, h2⟩ := partAt_iff.1 ha'
  have hle : i' + w.length ≤ i - 1 := by
    by_contra hcon
    have hk : i - 1 - i' < w.length := by omega
    have := h1 (i - 1 - i') w[i - 1 - i'] (List.getElem?_eq_some_iff.2 ⟨hk, rfl⟩)
    rw [show i' + (i - 1 - i') = i - 1 by omega] at this
    refine hsep.false this fun c hc hs => ?_
    rw [sep_not_letter hE (partPrefix_lettered w hw _ (List.getElem_mem hk)) hc] at hs
    cases hs
  by_cases hin : a' ≤ i - 1
  · have := takes_nosep hE hP (numeral_takes hE hn).2 (i - 1) hin (by omega)
    exact hsep.false this fun c h1 h2 => h2 h1
  · have : a' = i := by
      rcases h2 with h | ⟨h, _⟩ <;> omega
    subst this
    exact hp.false (numeral_first hE (List.mem_of_head? hn)) fun c h1 h2 => by rw [h2.2] at h1; cases h1

theorem worded_numeral {E : RxEnv} (hE : Usual E) {s : Str} {a b n : Nat} {c : Caps} (h : Worded E s a b n) (h1 : 1 ≤ n) (h2 : n ≤ 99) (hf : FreeAfter s b) :
    (E.numeral.exec s a c).head? = some (b, c) ∧ a < b := by
  rcases h with ⟨rfl, hl⟩ | ⟨ws, hws, w, hw, rfl, hl⟩
  · have hlen : ((roman n).map Char.toLower).length = (roman n).length := by simp
    rw [hlen] at hf ⊢
    have hne : roman n ≠ [] := roman_ne_nil h1 (by omega)
    have hpos : 0 < (roman n).length := List.length_pos_iff.2 hne
    refine ⟨?_, by omega⟩
    rw [RxEnv.numeral, alts_head]
    refine ⟨[.rep E.digit 1 (some 4)], E.romanNumeral, _, rfl, roman_head hE h1 h2 hl hf, ?_⟩
    intro r hr
    simp only [List.mem_cons, List.not_mem_nil, or_false] at hr
    subst hr
    by_contra hc
    obtain ⟨⟨j, c'⟩, hm⟩ := List.exists_mem_of_ne_nil _ hc
    obtain ⟨_, g2, _, g4⟩ := mem_someDigits.1 hm
    obtain ⟨x, hx, hd⟩ := g4 a (Nat.le_refl _) (by omega)
    obtain ⟨y, ys, hy⟩ := List.exists_cons_of_ne_nil hne
    obtain ⟨z, hz, hs⟩ := hl 0 y.toLower (by rw [hy]; rfl)
    simp only [Nat.add_zero] at hz
    rw [hx, Option.some.injEq] at hz; subst hz
    exact letter_not_digit hE (sign_letter _ (sign_case y (roman_chars y (by rw [hy]; simp))).1) hs hd
  · refine ⟨word_numeral_head hE hws hw hl, ?_⟩
    have hall : ∀ e ∈ partWords, ∀ w ∈ e.2, 0 < w.length := by decide +kernel
    have := hall _ hws w hw
    omega

theorem number_numeral {E : RxEnv} (hE : Usual E) {s : Str} {a b n : Nat} {c : Caps} (h : Number E s a b n) (hb : b ≤ a + 4) (hf : FreeAfter s b) :
    (E.numeral.exec s a c).head? = some (b, c) := by
  rw [RxEnv.numeral, alts_head]
  refine ⟨[], _, _, rfl, someDigits_head (by have := h.some; omega) hb h.digits (.inr (standing_noDigit hE hf)), by simp⟩

/-- C118: a part is reported exactly where `pt` or `part`, at most one separator, and a numeral from 1 to 99 stand between separators:
digits (at most four), or, after a separator, a Roman numeral or one of the words of `partWords`. -/
theorem C118_exact (E : RxEnv) (hE : Usual E) (hC : Cased E.u) (s : Str) (hP : PlainCase E s) (m : RxMatch Int) :
    m ∈ (partPattern E partPrefixes).found s ↔ m.name = c!"part" ∧ ∃ i n : Nat, PartAt E s i m.start ∧ Standing s i m.stop ∧
      1 ≤ n ∧ n ≤ 99 ∧ m.value = .ok n ∧
      ((Number E s m.start m.stop n ∧ m.stop ≤ m.start + 4) ∨ (FreeBefore s m.start ∧ Worded E s m.start m.stop n)) := by
  rw [mem_found]
  have hch : (partPattern E partPrefixes).children = true := rfl
  have hacc : ∀ {i j a}, a < j → ((partPattern E partPrefixes).accepts s ⟨i, j, [(1, (a, j))]⟩ = true ↔ Standing s i j ∧
      (intCoercable E.u ((s.take j).drop a) = true ∨ Standing s a j) ∧
      valueIs underHundred (RxMatch.mk c!"part" a j (parseNumeral E.u ((s.take j).drop a) true true true true)) = true) := by
    intro i j a haj
    simp only [RxPattern.accepts, kids_one (P := partPattern E partPrefixes) (name := c!"part") rfl haj]
    simp only [partPattern, RxPattern.parent, surrounded, Bool.and_eq_true, Bool.or_eq_true, List.all_cons, List.all_nil, standing_iff]
    simp
  constructor
  · rintro ⟨⟨i, j, c⟩, hh, ha, hm⟩
    obtain ⟨h1, _⟩ := hits_sound hh
    simp only at h1
    obtain ⟨a, g1, g2, rfl⟩ := (part_matchAt hE).1 h1
    rw [if_pos hch] at hm
    have haj : a < j := by
      by_contra hc
      simp [RxPattern.kids, partPattern, List.lookup, hc] at hm
    rw [kids_one (name := c!"part") rfl haj, List.mem_singleton] at hm
    rw [hacc haj] at ha
    obtain ⟨a1, a2, a3⟩ := ha
    subst hm
    refine ⟨rfl, i, ?_⟩
    show ∃ n : Nat, PartAt E s i a ∧ Standing s i j ∧ 1 ≤ n ∧ n ≤ 99 ∧ parseNumeral E.u ((s.take j).drop a) true true true true = .ok (n : Int) ∧
      ((Number E s a j n ∧ j ≤ a + 4) ∨ (FreeBefore s a ∧ Worded E s a j n))
    rcases takes_value hE hC hP (numeral_takes hE g2).2 haj with ⟨n, t1, t2, t3, t4⟩ | ⟨n, t1, t2, t3⟩
    · rw [t3] at a3
      simp only [valueIs, underHundred, Bool.and_eq_true, decide_eq_true_eq] at a3
      exact ⟨n, g1, a1, by omega, by omega, t3, .inl ⟨t1, t2⟩⟩
    · rw [t1] at a3
      simp only [valueIs, underHundred, Bool.and_eq_true, decide_eq_true_eq] at a3
      rw [t2] at a2
      have a2 : Standing s a j := by simpa using a2
      rcases t3 with rfl | t3
      · omega
      · exact ⟨n, g1, a1, by omega, by omega, t1, .inr ⟨a2.1, t3⟩⟩
  · obtain ⟨name, a, j, v⟩ := m
    rintro ⟨h0, i, n, h1, h2, h3, h4, h5, h6⟩
    simp only at h0 h1 h2 h5 h6
    subst h0
    have hn : (E.numeral.exec s a []).head? = some (j, []) ∧ a < j := by
      rcases h6 with ⟨h6, h7⟩ | ⟨_, h6⟩
      · exact ⟨number_numeral hE h6 h7 h2.2, h6.some⟩
      · exact worded_numeral hE h6 h3 h4 h2.2
    have hpv : parseNumeral E.u ((s.take j).drop a) true true true true = .ok (n : Int) ∧
        (intCoercable E.u ((s.take j).drop a) = true ∨ Standing s a j) := by
      rcases h6 with ⟨h6, h7⟩ | ⟨h7, h6⟩
      · rcases takes_value hE hC hP (.digits h6.some h7 h6.digits) hn.2 with ⟨n', t1, t2, t3, t4⟩ | ⟨n', t1, t2, t3⟩
        · rw [h6.unique t1]; exact ⟨t3, .inl t4⟩
        · have := pyInt_number hE h6.some h6.digits
          simp [intCoercable, this] at t2
      · exact ⟨(worded_value hE hC hP h3 h4 h6).1, .inr ⟨h7, h2.2⟩⟩
    refine ⟨⟨i, j, [(1, (a, j))]⟩, hits_complete (part_eats hE) ((part_matchAt hE).2 ⟨a, h1, hn.1, rfl⟩) ?_ (part_clear hE hP h1 h2.1), ?_, ?_⟩
    · have := part_le h1
      obtain ⟨x, hx, _⟩ := numeral_first hE (List.mem_of_head? hn.1)
      have := (List.getElem?_eq_some_iff.1 hx).1
      omega
    · rw [hacc hn.2]
      refine ⟨h2, hpv.2, ?_⟩
      rw [hpv.1]
      simp only [valueIs, underHundred, Bool.and_eq_true, decide_eq_true_eq]
      omega
    · rw [if_pos hch, kids_one (name := c!"part") rfl hn.2, List.mem_singleton]
      show _ = RxMatch.mk c!"part" a j (parseNumeral E.u ((s.take j).drop a) true true true true)
      rw [hpv.1, h5]

end Guessit
