import Verif.Proofs.Text

/-!
# Properties C17, C19–C22, C50: options filter, formatters, words, validators
-/

namespace Guessit
open Spec

/-! ## C17 -/

/-- An `includes`/`excludes` entry of the options: missing or `None` (no names), or a list of names. -/
def NamesOption (v : PyVal) (names : List Str) : Prop := (v = .none ∧ names = []) ∨ v = .list (names.map .str)

theorem pyIn_names (name : Str) (names : List Str) : pyIn (.str name) (names.map .str) = true ↔ name ∈ names := by
  have hstr : ∀ x, pyEq (.str name) (.str x) = decide (name = x) := fun x => by simp [pyEq]
  unfold pyIn
  rw [List.any_eq_true]
  constructor
  · rintro ⟨y, h1, h2⟩
    obtain ⟨x, hx, rfl⟩ := List.mem_map.1 h1
    rw [hstr] at h2
    rw [of_decide_eq_true h2]; exact hx
  · intro h; exact ⟨.str name, List.mem_map.2 ⟨name, h, rfl⟩, by rw [hstr]; simp⟩

theorem truthy_names {v : PyVal} {names : List Str} (h : NamesOption v names) : truthy v = true ↔ names ≠ [] := by
  rcases h with ⟨rfl, rfl⟩ | rfl
  · simp [truthy]
  · cases names <;> simp [truthy]

theorem in_names {v : PyVal} {names : List Str} (h : NamesOption v names) (name : Str) :
    inOption name v = true ↔ name ∈ names := by
  rcases h with ⟨rfl, rfl⟩ | rfl
  · simp [inOption]
  · simp only [inOption]; exact pyIn_names name names

/-- C17: a property is disabled iff it is excluded, or there are includes and it is not among them. -/
theorem C17_disabled_iff (context : Dict) (excludes includes : List Str)
    (he : NamesOption (context.getD (.str c!"excludes")) excludes)
    (hi : NamesOption (context.getD (.str c!"includes")) includes) (name : Str) :
    isDisabled context name = true ↔ name ∈ excludes ∨ (includes ≠ [] ∧ name ∉ includes) := by
  have e1 := truthy_names he
  have e2 := in_names he name
  have i1 := truthy_names hi
  have i2 := in_names hi name
  unfold isDisabled
  by_cases hc : context.isEmpty = true
  · have : context = [] := by simpa using hc
    subst this
    simp only [List.isEmpty_nil, if_true]
    have g1 : excludes = [] := by
      rcases he with ⟨_, h⟩ | h
      · exact h
      · simp [Dict.getD, Dict.get?] at h
    have g2 : includes = [] := by
      rcases hi with ⟨_, h⟩ | h
      · exact h
      · simp [Dict.getD, Dict.get?] at h
    simp [g1, g2]
  · rw [if_neg hc]
    by_cases hx : name ∈ excludes
    · have : excludes ≠ [] := List.ne_nil_of_mem hx
      rw [if_pos (by rw [e1.2 this, e2.2 hx]; rfl)]
      simp [hx]
    · have : inOption name (context.getD (.str c!"excludes")) = false := by
        cases h : inOption name (context.getD (.str c!"excludes"))
        · rfl
        · exact absurd (e2.1 h) hx
      rw [this, Bool.and_false, if_neg (by simp)]
      simp only [hx, false_or, Bool.and_eq_true, i1, Bool.not_eq_true']
      constructor
      · rintro ⟨h1, h2⟩; exact ⟨h1, fun h => by rw [i2.2 h] at h2; cases h2⟩
      · rintro ⟨h1, h2⟩
        refine ⟨h1, ?_⟩
        cases h : inOption name (context.getD (.str c!"includes"))
        · rfl
        · exact absurd (i2.1 h) h2

example : NamesOption (Dict.getD [(.str c!"excludes", .list [.str c!"year"])] (.str c!"excludes")) [c!"year"] ∧
    NamesOption (Dict.getD [(.str c!"excludes", .list [.str c!"year"])] (.str c!"includes")) [] ∧
    isDisabled [(.str c!"excludes", .list [.str c!"year"])] c!"year" = true ∧
    isDisabled [(.str c!"excludes", .list [.str c!"year"])] c!"title" = false :=
  ⟨Or.inr rfl, Or.inl ⟨rfl, rfl⟩, by decide, by decide⟩

/-! ## C19 -/

/-- C19: a cleaned value never contains two consecutive spaces. -/
theorem C19_no_double_space (s a b : Str) : cleanup s ≠ a ++ ' ' :: ' ' :: b := (collapse_noDouble false _).1 a b

theorem cleanup_end {s : Str} {c : Char}
    (h : c ∉ seps.filter fun c => !(dots s).contains c) (hs : c ∈ seps) : AcronymSep s c := by
  apply mem_dots
  by_contra hd
  exact h (List.mem_filter.2 ⟨hs, by simpa using hd⟩)

/-- C19: if a cleaned value starts with a separator, that separator is one used in an acronym of the raw text. -/
theorem C19_start_partial (s : Str) (c : Char) (h : (cleanup s).head? = some c) (hs : c ∈ seps) : AcronymSep s c := by
  unfold cleanup collapseSpaces at h
  rw [collapse_head] at h
  exact cleanup_end (strip_head h) hs

/-- C19: the same for the end of a cleaned value. -/
theorem C19_end_partial (s : Str) (c : Char) (h : (cleanup s).getLast? = some c) (hs : c ∈ seps) : AcronymSep s c := by
  unfold cleanup collapseSpaces at h
  rw [collapse_getLast] at h
  simp only [Bool.and_false, Bool.false_eq_true, if_false] at h
  exact cleanup_end (strip_getLast h) hs

/-- C19: without acronyms in the raw text, a cleaned value neither starts nor ends with a separator. -/
theorem C19_plain_text (s : Str) (hno : ∀ c, ¬ AcronymSep s c) :
    (∀ c, (cleanup s).head? = some c → c ∉ seps) ∧ (∀ c, (cleanup s).getLast? = some c → c ∉ seps) :=
  ⟨fun c h hs => hno c (C19_start_partial s c h hs), fun c h hs => hno c (C19_end_partial s c h hs)⟩

/-- C19: the only separators left anywhere in a cleaned value are spaces, comma, colon, semicolon, dash, slash, backslash and those of acronyms. -/
theorem C19_inner (s : Str) (c : Char) (h : c ∈ cleanup s) (hs : c ∈ seps) :
    c = ' ' ∨ c ∈ c!",:;-/\\" ∨ AcronymSep s c := by
  unfold cleanup collapseSpaces at h
  rcases restored_get_mem (strip_mem (collapse_mem h)) (isSep_iff.2 hs) with h | h | h
  · exact Or.inl h
  · exact Or.inr (Or.inl h)
  · exact Or.inr (Or.inr (mem_dots h))

/-- C19, full statement for the beginning of a value: it is never a separator (a separator kept inside an acronym follows
a character of the acronym, so it cannot come first). -/
def CleanEnds : Prop := ∀ s c, (cleanup s).head? = some c → c ∉ seps

/-- The full statement is false of the code: when spaces separate single characters, no space is stripped. -/
theorem C19_counterexample_spaced_letters : ¬ CleanEnds := by
  intro h
  exact h c!" a b c" ' ' (by decide) (by decide)

/-- C19 for the comparison form of a value: `raw_cleanup` never starts or ends with a separator. -/
theorem C19_raw_cleanup (lower : Str → Str) (s : Str) (c : Char) :
    ((rawCleanup lower s).head? = some c → c ∉ seps) ∧ ((rawCleanup lower s).getLast? = some c → c ∉ seps) :=
  ⟨strip_head, strip_getLast⟩

/-- Concrete acronym: `S.H.I.` keeps its dots, and a text without acronyms meets the hypothesis of `C19_plain_text`. -/
example : cleanup c!"Agents.of.S.H.I" = c!"Agents of S.H.I" ∧ AcronymSep c!"of.S.H.I" '.' ∧
    ∀ c, ¬ AcronymSep c!"ab.cd" c := by
  refine ⟨by decide, ⟨4, 6, Or.inl rfl, ?_, ?_, rfl, rfl⟩, ?_⟩
  · exact ⟨'.', 'S', rfl, by decide, by decide, rfl, by decide, Or.inr ⟨'.', rfl, by decide⟩⟩
  · exact ⟨'.', 'H', rfl, by decide, by decide, rfl, by decide, Or.inr ⟨'.', rfl, by decide⟩⟩
  · rintro c ⟨i, j, _, ⟨c1, x, h1, h2, h3, h4, h5, h6⟩, _⟩
    have hi := (List.getElem?_eq_some_iff.1 h1).1
    simp only [List.length_cons, List.length_nil] at hi
    have : i = 0 ∨ i = 1 ∨ i = 2 ∨ i = 3 ∨ i = 4 := by omega
    rcases this with rfl | rfl | rfl | rfl | rfl
    · omega
    · cases h1; exact absurd h2 (by decide)
    · rcases h6 with h6 | ⟨y, hy, hys⟩
      · omega
      · cases hy; exact absurd hys (by decide)
    · cases h1; exact absurd h2 (by decide)
    · cases h1; exact absurd h2 (by decide)

/-! ## C20 -/

/-- C20: cleaning keeps exactly the word characters, in order. -/
theorem C20_word_characters (s : Str) : wordChars (cleanup s) = wordChars s := by
  unfold cleanup collapseSpaces
  rw [wordChars_collapse, wordChars_strip _ _ (fun c hc => (List.mem_filter.1 hc).1)]
  exact filter_forall2 (restored_forall2 s)

/-- C20 for the comparison form. -/
theorem C20_raw_cleanup (lower : Str → Str) (s : Str) : wordChars (rawCleanup lower s) = wordChars (lower s) := by
  unfold rawCleanup stripSeps
  rw [wordChars_strip _ _ (fun c hc => hc), C20_word_characters]

/-- C20: cleaning never lengthens a value. -/
theorem C20_length (s : Str) : (cleanup s).length ≤ s.length := by
  unfold cleanup collapseSpaces stripChars
  have h1 : ∀ p (t : Str), (collapseFrom p t).length ≤ t.length := by
    intro p t
    induction t generalizing p with
    | nil => simp [collapseFrom]
    | cons c t ih =>
      simp only [collapseFrom]
      have h1 := ih true
      have h2 := ih false
      split
      · split <;> simp <;> omega
      · simp; omega
  refine Nat.le_trans (h1 _ _) ?_
  rw [List.length_reverse]
  refine Nat.le_trans (List.dropWhile_sublist _).length_le ?_
  rw [List.length_reverse]
  exact Nat.le_trans (List.dropWhile_sublist _).length_le (Nat.le_of_eq (restored_forall2 s).length_eq)

example : wordChars (cleanup c!"[The].Title-x") = c!"TheTitlex" := by decide

/-! ## C21 -/

theorem slice_suffix {t suffix : Str} (hne : suffix ≠ []) :
    pySlice t (-(suffix.length : Int)) t.length = suffix ↔ ∃ r, t = r ++ suffix := by
  have hn : 0 < suffix.length := List.length_pos_iff.2 hne
  have hb : pyBound t.length (-(suffix.length : Int)) = t.length - suffix.length := by
    unfold pyBound; rw [if_pos (by omega)]; omega
  have hb2 : pyBound t.length (t.length : Int) = t.length := by unfold pyBound; rw [if_neg (by omega)]; omega
  unfold pySlice
  rw [hb, hb2, List.take_length]
  constructor
  · intro h; exact ⟨t.take (t.length - suffix.length), by conv_lhs => rw [← List.take_append_drop (t.length - suffix.length) t]; rw [h]⟩
  · rintro ⟨r, rfl⟩; simp

theorem reorderWith_some {lower : Str → Str} {title a : Str} {ss : List Str} {t : Str} (ha : a ≠ [])
    (hlen : (lower title).length = title.length) (h : reorderWith lower title a ss = some t) :
    ∃ sep ∈ ss, (∃ r, lower title = r ++ (sep ++ a)) ∧
      ∃ rest sepText art, title = rest ++ sepText ++ art ∧ sepText.length = sep.length ∧ art.length = a.length ∧
        t = art ++ ' ' :: rest := by
  induction ss with
  | nil => simp [reorderWith] at h
  | cons sep ss ih =>
    simp only [reorderWith] at h
    have hne : sep ++ a ≠ [] := by simp [ha]
    split at h
    · rename_i hsl
      obtain ⟨r, hr⟩ := (slice_suffix hne).1 hsl
      refine ⟨sep, by simp, ⟨r, hr⟩, ?_⟩
      simp only [Option.some.injEq] at h
      have hl : title.length = r.length + (sep.length + a.length) := by
        rw [← hlen, hr]; simp
      have hapos : 0 < a.length := List.length_pos_iff.2 ha
      refine ⟨title.take r.length, (title.drop r.length).take sep.length, title.drop (r.length + sep.length), ?_, ?_, ?_, ?_⟩
      · rw [List.append_assoc, ← List.drop_drop, List.take_append_drop, List.take_append_drop]
      · simp; omega
      · simp; omega
      · rw [← h]
        have b1 : pyBound title.length (-((sep ++ a).length : Int) + sep.length) = r.length + sep.length := by
          unfold pyBound; rw [if_pos (by simp; omega)]; simp; omega
        have b2 : pyBound title.length (title.length : Int) = title.length := by
          unfold pyBound; rw [if_neg (by omega)]; omega
        have b3 : pyBound title.length (-((sep ++ a).length : Int)) = r.length := by
          unfold pyBound; rw [if_pos (by simp; omega)]; simp; omega
        have b4 : pyBound title.length 0 = 0 := by unfold pyBound; simp
        simp only [pySlice, b1, b2, b3, b4, List.take_length, List.drop_zero, List.append_assoc, List.cons_append,
          List.nil_append]
    · obtain ⟨s', h1, h2⟩ := ih h
      exact ⟨s', by simp [h1], h2⟩

theorem reorderWith_none {lower : Str → Str} {title a : Str} {ss : List Str} (ha : a ≠ []) :
    reorderWith lower title a ss = none ↔ ∀ sep ∈ ss, ¬ ∃ r, lower title = r ++ (sep ++ a) := by
  induction ss with
  | nil => simp [reorderWith]
  | cons sep ss ih =>
    have hne : sep ++ a ≠ [] := by simp [ha]
    simp only [reorderWith]
    rw [List.forall_mem_cons]
    split
    · rename_i hsl
      constructor
      · intro h; cases h
      · intro h; exact absurd ((slice_suffix hne).1 hsl) h.1
    · rename_i hsl
      rw [ih]
      constructor
      · intro h; exact ⟨fun h' => hsl ((slice_suffix hne).2 h'), h⟩
      · intro h; exact h.2

/-- C21: a title whose lower-case form does not end with a separator and an article is returned unchanged. -/
theorem C21_unchanged (lower : Str → Str) (articles separators : List Str) (title : Str) (hne : ∀ a ∈ articles, a ≠ [])
    (h : ∀ a ∈ articles, ∀ sep ∈ separators, ¬ ∃ r, lower title = r ++ (sep ++ a)) :
    reorderTitle lower articles separators title = title := by
  induction articles with
  | nil => rfl
  | cons a as ih =>
    simp only [reorderTitle]
    rw [(reorderWith_none (hne a (by simp))).2 (h a (by simp))]
    exact ih (fun b hb => hne b (by simp [hb])) (fun b hb => h b (by simp [hb]))

/-- C21: otherwise the title is `rest`, separator, article (up to case), and the result is the article as written, a space
and the rest.  `hlen`: lower-casing keeps the length, as it does for all but a few characters such as `İ`. -/
theorem C21_moved (lower : Str → Str) (articles separators : List Str) (title : Str) (hne : ∀ a ∈ articles, a ≠ [])
    (hlen : (lower title).length = title.length)
    (h : ∃ a ∈ articles, ∃ sep ∈ separators, ∃ r, lower title = r ++ (sep ++ a)) :
    ∃ a ∈ articles, ∃ sep ∈ separators, (∃ r, lower title = r ++ (sep ++ a)) ∧
      ∃ rest sepText art, title = rest ++ sepText ++ art ∧ sepText.length = sep.length ∧ art.length = a.length ∧
        reorderTitle lower articles separators title = art ++ ' ' :: rest := by
  induction articles with
  | nil => obtain ⟨a, ha, _⟩ := h; cases ha
  | cons a as ih =>
    simp only [reorderTitle]
    cases hw : reorderWith lower title a separators with
    | some t =>
      obtain ⟨sep, h1, h2, h3⟩ := reorderWith_some (hne a (by simp)) hlen hw
      exact ⟨a, by simp, sep, h1, h2, h3⟩
    | none =>
      rw [reorderWith_none (hne a (by simp))] at hw
      have : ∃ a ∈ as, ∃ sep ∈ separators, ∃ r, lower title = r ++ (sep ++ a) := by
        obtain ⟨b, hb, sep, hs, hr⟩ := h
        rcases List.mem_cons.1 hb with rfl | hb
        · exact absurd hr (hw sep hs)
        · exact ⟨b, hb, sep, hs, hr⟩
      obtain ⟨b, hb, rest⟩ := ih (fun b hb => hne b (by simp [hb])) this
      exact ⟨b, by simp [hb], rest⟩

/-- C21: for a character-wise lower-casing the moved parts are the article and the separator themselves, up to case, and
no character of the title is lost. -/
theorem C21_characterwise (f : Char → Char) (articles separators : List Str) (title : Str) (hne : ∀ a ∈ articles, a ≠ []) :
    reorderTitle (List.map f) articles separators title = title ∨
    ∃ rest sepText art, title = rest ++ sepText ++ art ∧ sepText.map f ∈ separators ∧ art.map f ∈ articles ∧
      reorderTitle (List.map f) articles separators title = art ++ ' ' :: rest := by
  by_cases h : ∃ a ∈ articles, ∃ sep ∈ separators, ∃ r, title.map f = r ++ (sep ++ a)
  · right
    obtain ⟨a, ha, sep, hs, ⟨r, hr⟩, rest, st, art, h1, h2, h3, h4⟩ := C21_moved (List.map f) articles separators title hne (by simp) h
    refine ⟨rest, st, art, h1, ?_, ?_, h4⟩
    · rw [h1, List.map_append, List.map_append, List.append_assoc] at hr
      have hl := congrArg List.length hr
      simp at hl
      have := List.append_inj hr (by simp; omega)
      have := List.append_inj this.2 (by simpa using h2)
      rw [this.1]; exact hs
    · rw [h1, List.map_append, List.map_append, List.append_assoc] at hr
      have hl := congrArg List.length hr
      simp at hl
      have := List.append_inj hr (by simp; omega)
      have := List.append_inj this.2 (by simpa using h2)
      rw [this.2]; exact ha
  · left
    apply C21_unchanged _ _ _ _ hne
    intro a ha sep hs hr
    exact h ⟨a, ha, sep, hs, hr⟩

example : reorderTitle id [c!"the"] [c!",", c!", "] c!"simpsons, the" = c!"the simpsons" ∧
    reorderTitle id [c!"the"] [c!",", c!", "] c!"the simpsons" = c!"the simpsons" := by decide

/-! ## C22 -/

/-- C22: the words are exactly the maximal separator-free runs, each with its exact text. -/
theorem C22_words_are_runs (s : Str) (a b : Nat) (w : Str) :
    ((a, b), w) ∈ iterWords s ↔ IsRun (fun c => c ∉ seps) s a b ∧ w = textOf s a b := by
  have := (iterWordsFrom_spec s s 0 0 false rfl (Nat.zero_le _) (Nat.le_refl _) (by simp)
    (fun j c _ h => absurd h (by omega)) (fun c h => absurd h (by omega))).1 a b w
  simpa [iterWords] using this

/-- C22: they come in order, without overlap, and each only once. -/
theorem C22_words_in_order (s : Str) : (iterWords s).Pairwise (fun x y => x.1.2 < y.1.1) :=
  (iterWordsFrom_spec s s 0 0 false rfl (Nat.zero_le _) (Nat.le_refl _) (by simp)
    (fun j c _ h => absurd h (by omega)) (fun c h => absurd h (by omega))).2

/-- C22: no word character is missed: every one of them lies in a word. -/
theorem C22_words_cover (s : Str) (i : Nat) (c : Char) (h : s[i]? = some c) (hc : c ∉ seps) :
    ∃ a b w, ((a, b), w) ∈ iterWords s ∧ a ≤ i ∧ i < b := by
  have hi := (List.getElem?_eq_some_iff.1 h).1
  -- left end
  have hl : ∀ k, k ≤ i → ∃ a, a ≤ i ∧ (∀ j d, a ≤ j → j ≤ i → s[j]? = some d → d ∉ seps) ∧
      (a ≤ i - k ∨ (∀ d, 0 < a → s[a - 1]? = some d → ¬ d ∉ seps)) := by
    intro k
    induction k with
    | zero =>
      intro _
      refine ⟨i, Nat.le_refl _, ?_, Or.inl (by omega)⟩
      intro j d h1 h2 h3
      have : j = i := by omega
      subst this; rw [h] at h3; cases h3; exact hc
    | succ k ih =>
      intro hk
      obtain ⟨a, h1, h2, h3⟩ := ih (by omega)
      rcases h3 with h3 | h3
      · by_cases ha : a ≤ i - (k + 1)
        · exact ⟨a, h1, h2, Or.inl ha⟩
        · have hapos : 0 < a := by omega
          have hlt : a - 1 < s.length := by omega
          by_cases hs : s[a - 1] ∈ seps
          · refine ⟨a, h1, h2, Or.inr ?_⟩
            intro d _ hd hn
            rw [List.getElem?_eq_getElem hlt] at hd
            simp only [Option.some.injEq] at hd
            exact hn (hd ▸ hs)
          · refine ⟨a - 1, by omega, ?_, Or.inl (by omega)⟩
            intro j d h4 h5 h6
            by_cases hj : j = a - 1
            · subst hj; rw [List.getElem?_eq_getElem hlt] at h6; cases h6; exact hs
            · exact h2 j d (by omega) h5 h6
      · exact ⟨a, h1, h2, Or.inr h3⟩
  obtain ⟨a, ha, hall, hleft⟩ := hl i (Nat.le_refl _)
  have hleft' : ∀ d, 0 < a → s[a - 1]? = some d → ¬ d ∉ seps := by
    rcases hleft with h' | h'
    · intro d hd; omega
    · exact h'
  -- right end
  have hr : ∀ k, i + 1 + k ≤ s.length → ∃ b, i < b ∧ b ≤ s.length ∧ (∀ j d, a ≤ j → j < b → s[j]? = some d → d ∉ seps) ∧
      (i + 1 + k ≤ b ∨ ∀ d, s[b]? = some d → ¬ d ∉ seps) := by
    intro k
    induction k with
    | zero =>
      intro _
      exact ⟨i + 1, by omega, by omega, fun j d h1 h2 h3 => hall j d h1 (by omega) h3, Or.inl (by omega)⟩
    | succ k ih =>
      intro hk
      obtain ⟨b, h1, h0, h2, h3⟩ := ih (by omega)
      rcases h3 with h3 | h3
      · by_cases hb : i + 1 + (k + 1) ≤ b
        · exact ⟨b, h1, h0, h2, Or.inl hb⟩
        · have hlt : b < s.length := by omega
          by_cases hs : s[b] ∈ seps
          · refine ⟨b, h1, h0, h2, Or.inr ?_⟩
            intro d hd hn
            rw [List.getElem?_eq_getElem hlt] at hd
            simp only [Option.some.injEq] at hd
            exact hn (hd ▸ hs)
          · refine ⟨b + 1, by omega, by omega, ?_, Or.inl (by omega)⟩
            intro j d h4 h5 h6
            by_cases hj : j = b
            · subst hj; rw [List.getElem?_eq_getElem hlt] at h6; cases h6; exact hs
            · exact h2 j d h4 (by omega) h6
      · exact ⟨b, h1, h0, h2, Or.inr h3⟩
  obtain ⟨b, hb, hble, hall2, hright⟩ := hr (s.length - (i + 1)) (by omega)
  have hright' : ∀ d, s[b]? = some d → ¬ d ∉ seps := by
    rcases hright with h' | h'
    · intro d hd; rw [List.getElem?_eq_none (by omega)] at hd; cases hd
    · exact h'
  exact ⟨a, b, textOf s a b, (C22_words_are_runs s a b _).2 ⟨⟨by omega, hble, hall2, hleft', hright'⟩, rfl⟩, ha, hb⟩

example : iterWords c!"ab c. d" = [((0, 2), c!"ab"), ((3, 4), c!"c"), ((6, 7), c!"d")] := by decide

/-! ## C50 -/

/-- C50: `and_` of validators that do not raise accepts iff all of them accept. -/
theorem C50_and {α : Type} (vs : List (α → Bool)) (x : α) :
    vAnd (vs.map fun v y => .ok (v y)) x = .ok (decide (∀ v ∈ vs, v x = true)) := by
  induction vs with
  | nil => simp [vAnd]
  | cons v vs ih =>
    simp only [List.map_cons, vAnd]
    cases h : v x <;> simp [h, ih]

/-- C50: `or_` of validators that do not raise accepts iff one of them accepts. -/
theorem C50_or {α : Type} (vs : List (α → Bool)) (x : α) :
    vOr (vs.map fun v y => .ok (v y)) x = .ok (decide (∃ v ∈ vs, v x = true)) := by
  induction vs with
  | nil => simp [vOr]
  | cons v vs ih =>
    simp only [List.map_cons, vOr]
    cases h : v x <;> simp [h, ih]

/-- C50: a validator after one that refuses is not called by `and_`, so what it would raise does not matter; likewise for
`or_` after one that accepts. -/
theorem C50_short_circuit {α : Type} (vs ws : List (α → Except PyErr Bool)) (x : α) :
    (vAnd vs x = .ok false → vAnd (vs ++ ws) x = .ok false) ∧ (vOr vs x = .ok true → vOr (vs ++ ws) x = .ok true) := by
  constructor
  · induction vs with
    | nil => intro h; simp [vAnd] at h
    | cons v vs ih =>
      simp only [List.cons_append, vAnd]
      intro h
      split at h <;> simp_all
  · induction vs with
    | nil => intro h; simp [vOr] at h
    | cons v vs ih =>
      simp only [List.cons_append, vOr]
      intro h
      split at h <;> simp_all

/-- C50: the separator validator accepts a span iff the text around it is the beginning or end of the name, or a
separator. -/
theorem C50_surround (s : Str) (a b : Nat) (hab : a ≤ b) (hb : b ≤ s.length) :
    sepsSurround s a b = true ↔
      (∀ c, 0 < a → s[a - 1]? = some c → c ∈ seps) ∧ (∀ c, s[b]? = some c → c ∈ seps) := by
  unfold sepsSurround charsBefore charsAfter
  rw [Bool.and_eq_true]
  refine and_congr ?_ ?_
  · split
    · rename_i h; subst h; simp
    · rw [Option.any_eq_true]
      obtain ⟨c, hc⟩ : ∃ c, s[a - 1]? = some c := ⟨_, List.getElem?_eq_getElem (by omega)⟩
      have h0 : 0 < a := by omega
      rw [hc]; simp [h0]
  · split
    · rw [List.getElem?_eq_none (by omega)]; simp
    · rw [Option.any_eq_true]
      obtain ⟨c, hc⟩ : ∃ c, s[b]? = some c := ⟨_, List.getElem?_eq_getElem (by omega)⟩
      rw [hc]; simp

example : sepsSurround c!"a.2010.b" 2 6 = true ∧ sepsSurround c!"a.2010.b" 2 5 = false := by decide

example : vAnd [fun n : Nat => .ok (decide (n < 5)), fun n => .ok (decide (2 < n))] 3 = .ok true ∧
    vOr [fun n : Nat => .ok (decide (n < 2)), fun n => .ok (decide (2 < n))] 3 = .ok true := by decide

end Guessit
