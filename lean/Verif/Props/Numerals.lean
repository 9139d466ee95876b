import Verif.Props.Part
import Verif.Props.Detached
import Verif.Spec.SeasonWords

/-! # Numerals in patterns -/

namespace Guessit
open Spec Re

/-- The first way to match `ab` is the first way to match `b` after some way to match `a`. -/
theorem seq_head_inv {a b : Re} {s : Str} {i : Nat} {c : Caps} {x : Nat × Caps} (h : ((Re.seq a b).exec s i c).head? = some x) :
    ∃ k c1, (k, c1) ∈ a.exec s i c ∧ (b.exec s k c1).head? = some x := by
  rw [exec] at h
  revert h
  induction a.exec s i c with
  | nil => intro h; cases h
  | cons y l ih =>
    rw [List.flatMap_cons]
    cases hy : b.exec s y.1 y.2 with
    | nil =>
      rw [List.nil_append]
      intro h
      obtain ⟨k, c1, h1, h2⟩ := ih h
      exact ⟨k, c1, List.mem_cons_of_mem _ h1, h2⟩
    | cons z t =>
      intro h
      exact ⟨y.1, y.2, List.mem_cons_self, by rw [hy]; simpa using h⟩

section
variable {E : RxEnv} {s : Str}

theorem head_of_ne {l : List (Nat × Caps)} (h : l ≠ []) : ∃ x, l.head? = some x := by
  cases l with
  | nil => exact absurd rfl h
  | cons x l => exact ⟨x, rfl⟩

theorem optRep_ne {r : Re} {M i : Nat} {c : Caps} : (Re.rep r 0 (some M)).exec s i c ≠ [] := by
  simp only [exec, Option.getD_some]
  cases M <;> simp [repExec]

theorem letterRep_ge {l : Char} {M i j : Nat} {c c' : Caps} (h : (j, c') ∈ (Re.rep (E.letter l) 0 (some M)).exec s i c) : i ≤ j := by
  simp only [exec, Option.getD_some] at h
  have key : ∀ (f m i : Nat) (c : Caps), (j, c') ∈ repExec (fun i c => (E.letter l).exec s i c) f m i c → i ≤ j := by
    intro f
    induction f with
    | zero =>
      intro m i c h
      simp only [repExec] at h
      split at h
      · simp only [List.mem_singleton, Prod.mk.injEq] at h; omega
      · cases h
    | succ f ih =>
      intro m i c h
      simp only [repExec, List.mem_append, List.mem_flatMap, List.mem_filter] at h
      rcases h with ⟨x, ⟨h1, _⟩, h2⟩ | h
      · have := (mem_chr.1 (show (x.1, x.2) ∈ (Re.chr (E.same l)).exec s i c from h1)).2.1
        have := ih _ _ _ h2
        omega
      · split at h
        · simp only [List.mem_singleton, Prod.mk.injEq] at h; omega
        · cases h
  exact key _ _ _ _ h

theorem letterRep_gt {l : Char} {M i j : Nat} {c c' : Caps} (hc : CharAt s (fun x => E.same l x = true) i)
    (h : ((Re.rep (E.letter l) 0 (some (M + 1))).exec s i c).head? = some (j, c')) : i < j := by
  obtain ⟨x, hx, hs⟩ := hc
  have hl : (E.letter l).exec s i c = [(i + 1, c)] := by simp [RxEnv.letter, exec, hx, hs]
  simp only [exec, Option.getD_some, repExec] at h
  have e : (fun i c => (E.letter l).exec s i c) i c = [(i + 1, c)] := hl
  rw [hl] at h
  simp only [List.filter_cons, List.filter_nil, ne_eq, Nat.add_eq_left, Nat.succ_ne_self, not_false_eq_true, decide_true, if_true, List.flatMap_cons,
    List.flatMap_nil, List.append_nil, Nat.zero_sub] at h
  obtain ⟨y, hy⟩ : ∃ y, ((Re.rep (E.letter l) 0 (some M)).exec s (i + 1) c).head? = some y := head_of_ne optRep_ne
  have hy' : (repExec (fun i c => (E.letter l).exec s i c) M 0 (i + 1) c).head? = some y := by
    rw [← hy]; simp [exec]
  rw [List.head?_append, hy', Option.some_or, Option.some.injEq] at h
  subst h
  have := letterRep_ge (List.mem_of_head? hy)
  omega

theorem place_ne {o f t : Char} {i : Nat} {c : Caps} : (E.romanPlace o f t).exec s i c ≠ [] := by
  intro hn
  simp only [RxEnv.romanPlace, Re.alts, exec, List.append_eq_nil_iff] at hn
  have h1 := hn.2.2
  rw [List.flatMap_eq_nil_iff] at h1
  obtain ⟨x, hx⟩ := List.exists_mem_of_ne_nil _ (optRep_ne (s := s) (r := E.letter f) (M := 1) (i := i) (c := c))
  exact optRep_ne (s := s) (r := E.letter o) (M := 3) (by
    have := h1 x (by simpa [exec] using hx)
    simpa [exec] using this)

theorem place_ge {o f t : Char} {i j : Nat} {c c' : Caps} (h : (j, c') ∈ (E.romanPlace o f t).exec s i c) : i ≤ j := by
  rw [RxEnv.romanPlace, mem_alts] at h
  obtain ⟨r, hr, h⟩ := h
  simp only [List.mem_cons, List.not_mem_nil, or_false] at hr
  rcases hr with rfl | rfl | rfl
  · have := (mem_word.1 h).2.1; omega
  · have := (mem_word.1 h).2.1; omega
  · obtain ⟨k, c1, h1, h2⟩ := mem_seq.1 h
    have := letterRep_ge h1; have := letterRep_ge h2; omega

theorem place_gt {o f t : Char} {i j : Nat} {c c' : Caps} (hc : CharAt s (fun x => E.same o x = true ∨ E.same f x = true) i)
    (h : ((E.romanPlace o f t).exec s i c).head? = some (j, c')) : i < j := by
  rw [RxEnv.romanPlace, alts_head] at h
  obtain ⟨pre, r, post, he, h1, _⟩ := h
  have hr : r ∈ [E.word [o, t], E.word [o, f], .seq (.rep (E.letter f) 0 (some 1)) (.rep (E.letter o) 0 (some 3))] := by rw [he]; simp
  simp only [List.mem_cons, List.not_mem_nil, or_false] at hr
  rcases hr with rfl | rfl | rfl
  · have := (mem_word.1 (List.mem_of_head? h1)).2.1; simp at this; omega
  · have := (mem_word.1 (List.mem_of_head? h1)).2.1; simp at this; omega
  · obtain ⟨⟨k, c1⟩, hk⟩ := head_of_ne (optRep_ne (s := s) (r := E.letter f) (M := 1) (i := i) (c := c))
    obtain ⟨⟨k2, c2⟩, hk2⟩ := head_of_ne (optRep_ne (s := s) (r := E.letter o) (M := 3) (i := k) (c := c1))
    rw [seq_head hk hk2, Option.some.injEq, Prod.mk.injEq] at h1
    obtain ⟨rfl, rfl⟩ := h1
    have g1 := letterRep_ge (List.mem_of_head? hk)
    have g2 := letterRep_ge (List.mem_of_head? hk2)
    by_contra hcon
    have : k = i := by omega
    subst this
    obtain ⟨x, hx, h3 | h3⟩ := hc
    · have := letterRep_gt ⟨x, hx, h3⟩ hk2; omega
    · have := letterRep_gt ⟨x, hx, h3⟩ hk; omega

/-- A Roman numeral that is there is not empty. -/
theorem roman_gt {i j : Nat} {c c' : Caps} (h : (E.romanNumeral.exec s i c).head? = some (j, c')) : i < j := by
  by_cases hc : CharAt s (fun x => ∃ l ∈ c!"mcdlxvi", E.same l x = true) i
  swap
  · rw [roman_nil hc] at h; cases h
  obtain ⟨⟨k1, c1⟩, h1⟩ := head_of_ne (optRep_ne (s := s) (r := E.letter 'm') (M := 4) (i := i) (c := c))
  obtain ⟨⟨k2, c2⟩, h2⟩ := head_of_ne (place_ne (E := E) (s := s) (o := 'c') (f := 'd') (t := 'm') (i := k1) (c := c1))
  obtain ⟨⟨k3, c3⟩, h3⟩ := head_of_ne (place_ne (E := E) (s := s) (o := 'x') (f := 'l') (t := 'c') (i := k2) (c := c2))
  obtain ⟨⟨k4, c4⟩, h4⟩ := head_of_ne (place_ne (E := E) (s := s) (o := 'i') (f := 'v') (t := 'x') (i := k3) (c := c3))
  have hh : (E.romanNumeral.exec s i c).head? = some (k4, c4) := by
    unfold RxEnv.romanNumeral
    exact seq_head (k := i) (c1 := c) (by rw [look_pos hc]; rfl) (seq_head h1 (seq_head h2 (seq_head h3 (seq_head h4 eps_head))))
  rw [hh, Option.some.injEq, Prod.mk.injEq] at h
  obtain ⟨rfl, rfl⟩ := h
  have g1 := letterRep_ge (List.mem_of_head? h1)
  have g2 := place_ge (List.mem_of_head? h2)
  have g3 := place_ge (List.mem_of_head? h3)
  have g4 := place_ge (List.mem_of_head? h4)
  by_contra hcon
  obtain rfl : k1 = i := by omega
  obtain rfl : k2 = k1 := by omega
  obtain rfl : k3 = k2 := by omega
  obtain ⟨x, hx, l, hl, hs⟩ := hc
  simp only [List.mem_cons, List.not_mem_nil, or_false] at hl
  rcases hl with rfl | rfl | rfl | rfl | rfl | rfl | rfl
  · have := letterRep_gt ⟨x, hx, hs⟩ h1; omega
  · have := place_gt ⟨x, hx, .inl hs⟩ h2; omega
  · have := place_gt ⟨x, hx, .inr hs⟩ h2; omega
  · have := place_gt ⟨x, hx, .inr hs⟩ h3; omega
  · have := place_gt ⟨x, hx, .inl hs⟩ h3; omega
  · have := place_gt ⟨x, hx, .inr hs⟩ h4; omega
  · have := place_gt ⟨x, hx, .inl hs⟩ h4; omega

/-! ## `numeral` where `-` stands for itself -/

theorem words_exec_nil {ws : List Str} {i : Nat} {c : Caps} : (E.words ws).exec s i c = [] ↔ ∀ w ∈ ws, ¬ LiteralAt E s w i := by
  constructor
  · intro h w hw hl
    have : (i + w.length, c) ∈ (E.words ws).exec s i c := mem_words.2 ⟨rfl, w, hw, hl, rfl⟩
    rw [h] at this; cases this
  · intro h
    by_contra hc
    obtain ⟨⟨j, c'⟩, hm⟩ := List.exists_mem_of_ne_nil _ hc
    obtain ⟨_, w, hw, hl, _⟩ := mem_words.1 hm
    exact h w hw hl

theorem word_exec_one {E : RxEnv} : ∀ {w : Str} {i : Nat} {c : Caps}, LiteralAt E s w i → (E.word w).exec s i c = [(i + w.length, c)]
  | [], _, _, _ => rfl
  | l :: w, i, c, h => by
    obtain ⟨x, hx, hs⟩ := h 0 l rfl
    have h2 : LiteralAt E s w (i + 1) := fun k l' hk => by
      have := h (k + 1) l' (by simpa using hk)
      rwa [show i + (k + 1) = i + 1 + k by omega] at this
    have hl : (E.letter l).exec s i c = [(i + 1, c)] := by
      simp only [Nat.add_zero] at hx
      simp [RxEnv.letter, exec, hx, hs]
    rw [RxEnv.word, exec, hl, List.flatMap_cons, List.flatMap_nil, List.append_nil, word_exec_one h2]
    simp only [List.length_cons]
    congr 2; omega

/-- The patterns find the same. -/
theorem plain_head {i : Nat} {c : Caps} : (E.plainNumeral.exec s i c).head? = (E.numeral.exec s i c).head? := by
  simp only [RxEnv.plainNumeral, RxEnv.numeral, Re.alts, exec, List.head?_append]
  by_cases hc : CharAt s (fun x => ∃ l ∈ c!"mcdlxvi", E.same l x = true) i
  · have hne : E.romanNumeral.exec s i c ≠ [] := by
      obtain ⟨⟨k1, c1⟩, h1⟩ := head_of_ne (optRep_ne (s := s) (r := E.letter 'm') (M := 4) (i := i) (c := c))
      obtain ⟨⟨k2, c2⟩, h2⟩ := head_of_ne (place_ne (E := E) (s := s) (o := 'c') (f := 'd') (t := 'm') (i := k1) (c := c1))
      obtain ⟨⟨k3, c3⟩, h3⟩ := head_of_ne (place_ne (E := E) (s := s) (o := 'x') (f := 'l') (t := 'c') (i := k2) (c := c2))
      obtain ⟨⟨k4, c4⟩, h4⟩ := head_of_ne (place_ne (E := E) (s := s) (o := 'i') (f := 'v') (t := 'x') (i := k3) (c := c3))
      have hh : (E.romanNumeral.exec s i c).head? = some (k4, c4) := by
        unfold RxEnv.romanNumeral
        exact seq_head (k := i) (c1 := c) (by rw [look_pos hc]; rfl) (seq_head h1 (seq_head h2 (seq_head h3 (seq_head h4 eps_head))))
      intro h; rw [h] at hh; cases hh
    obtain ⟨x, hx⟩ := head_of_ne hne
    simp [hx]
  · have hw : (E.words (englishWords ++ frenchWords ++ frenchAltWords)).exec s i c = E.wordNumeral.exec s i c := by
      simp only [RxEnv.wordNumeral, RxEnv.words]
      have hlist : ∀ ws : List Str, (∀ w ∈ ws, w.head?.any c!"mcdlxvi".contains = true ∨ '-' ∉ w) →
          (Re.alts (ws.map E.word)).exec s i c = (Re.alts (ws.map E.dashed.word)).exec s i c := by
        intro ws hws
        induction ws with
        | nil => rfl
        | cons w ws ih =>
          have hlit : LiteralAt E s w i ↔ LiteralAt E.dashed s w i := by
            rcases hws w List.mem_cons_self with h | h
            · obtain ⟨l, hl, hm⟩ := Option.any_eq_true_iff_get _ _ |>.1 h |> fun ⟨h1, h2⟩ => (⟨_, Option.eq_some_of_isSome h1, h2⟩ : ∃ l, w.head? = some l ∧ c!"mcdlxvi".contains l = true)
              have hm' : l ∈ c!"mcdlxvi" := by simpa using hm
              have hd : l ≠ '-' := by rintro rfl; revert hm'; decide
              have no : ∀ E' : RxEnv, (∀ x, E'.same l x = E.same l x) → ¬ LiteralAt E' s w i := by
                intro E' hE' hl'
                obtain ⟨x, hx, hs⟩ := hl' 0 l (by rw [← List.head?_eq_getElem?]; exact hl)
                exact hc ⟨x, hx, l, hm', by rw [← hE']; exact hs⟩
              exact ⟨fun h => absurd h (no E fun _ => rfl), fun h => absurd h (no E.dashed fun x => by simp [RxEnv.dashed, hd])⟩
            · exact (literal_dashed h).symm
          have hone : (E.word w).exec s i c = (E.dashed.word w).exec s i c := by
            by_cases hl : LiteralAt E s w i
            · rw [word_exec_one hl, word_exec_one (hlit.1 hl)]
            · rw [word_exec_nil.2 hl, word_exec_nil.2 fun h => hl (hlit.2 h)]
          have ih' := ih fun w hw => hws w (List.mem_cons_of_mem _ hw)
          cases ws with
          | nil => simpa [Re.alts] using hone
          | cons w' ws =>
            simp only [List.map_cons, Re.alts, exec] at ih' ⊢
            rw [hone, ih']
      refine hlist _ ?_
      have : ∀ w ∈ englishWords ++ frenchWords ++ frenchAltWords, w.head?.any c!"mcdlxvi".contains = true ∨ '-' ∉ w := by decide +kernel
      exact this
    rw [hw]

theorem plain_takes (hE : Usual E) {a b : Nat} {c c' : Caps} (h : (E.plainNumeral.exec s a c).head? = some (b, c')) : c' = c ∧ a < b ∧ Takes E s a b := by
  rw [plain_head] at h
  obtain ⟨h1, h2⟩ := numeral_takes hE h
  refine ⟨h1, ?_, h2⟩
  rw [RxEnv.numeral, alts_head] at h
  obtain ⟨pre, r, post, he, h3, _⟩ := h
  have hr : r ∈ [.rep E.digit 1 (some 4), E.romanNumeral, E.wordNumeral] := by rw [he]; simp
  simp only [List.mem_cons, List.not_mem_nil, or_false] at hr
  rcases hr with rfl | rfl | rfl
  · have := mem_someDigits.1 (List.mem_of_head? h3); omega
  · exact roman_gt h3
  · rw [RxEnv.wordNumeral] at h3
    obtain ⟨_, w, hw, _, hl⟩ := mem_words.1 (List.mem_of_head? h3)
    have hall : ∀ w ∈ englishWords ++ frenchWords ++ frenchAltWords, 0 < w.length := by decide +kernel
    have := hall w hw
    omega

/-- What a numeral reads, and its value. -/
theorem takes_reads (hE : Usual E) (hC : Cased E.u) (hP : PlainCase E s) {a b : Nat} (h : Takes E s a b) (hab : a < b) :
    ∃ n, NumeralReads E s a b n ∧ wordedValue E s (a, b) = .ok (n : Int) ∧ (intCoercable E.u ((s.take b).drop a) = true ↔ AllOf s (Digit E) a b) := by
  have nodig : intCoercable E.u ((s.take b).drop a) = false → ¬ AllOf s (Digit E) a b := by
    intro h1 h2
    have := pyInt_number hE hab h2
    simp [intCoercable, this] at h1
  have hval := takes_value hE hC hP h hab
  cases h with
  | digits h1 h2 h3 =>
    rcases hval with ⟨n, t1, t2, t3, t4⟩ | ⟨n, t1, t2, t3⟩
    · exact ⟨n, .inl ⟨t1, t2⟩, t3, by simp [t4, h3]⟩
    · exact absurd h3 (nodig t2)
  | roman n h1 h2 h3 h4 =>
    rcases hval with ⟨n', t1, t2, t3, t4⟩ | ⟨n', t1, t2, t3⟩
    · have := t1.digits a (by omega) hab
      exact (h2.false this fun c ⟨l, hl, hs⟩ hd => letter_not_digit hE (sign_letter l hl) hs hd).elim
    · have hn : 1 ≤ n := by
        rcases Nat.eq_zero_or_pos n with rfl | h
        · have : (roman 0).length = 0 := by decide
          omega
        · exact h
      have hl : LiteralAt E s ((roman n).map Char.toLower) a := by
        rw [up_literal hE fun c hc => sign_letter c (signs_letters c hc), signs_case, h3]
        exact List.prefix_append _ _
      subst h4
      obtain ⟨g1, g2⟩ := roman_reading hE hC hP hn h1 hl
      exact ⟨n, .inr (.inl ⟨hn, .inl ⟨by rw [List.length_map], hl⟩⟩), g1, by simp only [t2, Bool.false_eq_true, false_iff]; exact nodig t2⟩
  | word w h1 h2 h3 =>
    obtain ⟨rfl, hl⟩ := h2
    rcases h3 with h | ⟨e, he, hw⟩
    · obtain ⟨g1, g2⟩ := word_reading hE hC hP (n := 0) (zero_letters w h) ⟨[c!"zero", c!"zéro"], by decide, h⟩ (zero_first w h) hl
      exact ⟨0, .inr (.inr ⟨rfl, w, h, rfl, hl⟩), g1, by simp only [g2, Bool.false_eq_true, false_iff]; exact nodig g2⟩
    · obtain ⟨g1, g2⟩ := word_reading hE hC hP (partWord_letters e he w hw) (partWord_number he hw) (partWord_first e he w hw) hl
      exact ⟨e.1, .inr (.inl ⟨(word_value e he).1, .inr ⟨e.2, he, w, hw, rfl, hl⟩⟩), g1, by simp only [g2, Bool.false_eq_true, false_iff]; exact nodig g2⟩

end
end Guessit
