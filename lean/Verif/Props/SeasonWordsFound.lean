import Verif.Props.SeasonWords

/-! # C141: what is written is reported -/

namespace Guessit
open Spec Re

section
variable {E : RxEnv} {C : EpisodeConfig} {ofs : List Str} {s : Str}

theorem seasonWords_lettered : ∀ w ∈ seasonWords, Lettered w := by
  intro w hw
  have h1 : ∀ w ∈ seasonWords, w ≠ [] := by decide
  have h2 : ∀ w ∈ seasonWords, ∀ c ∈ w, c ∈ c!"abcdefghijklmnopqrstuvwxyz" := by decide
  exact ⟨h1 w hw, h2 w hw⟩

/-- Two words of letters at the same place: one is the beginning of the other. -/
theorem literal_comparable (hE : Usual E) : ∀ {w w' : Str} {i : Nat}, (∀ c ∈ w, c ∈ c!"abcdefghijklmnopqrstuvwxyz") → (∀ c ∈ w', c ∈ c!"abcdefghijklmnopqrstuvwxyz") →
    LiteralAt E s w i → LiteralAt E s w' i → w <+: w' ∨ w' <+: w
  | [], _, _, _, _, _, _ => .inl (List.nil_prefix)
  | _, [], _, _, _, _, _ => .inr (List.nil_prefix)
  | l :: w, l' :: w', i, h1, h2, h3, h4 => by
    obtain ⟨x, hx, hs⟩ := h3 0 l rfl
    obtain ⟨y, hy, hs'⟩ := h4 0 l' rfl
    rw [hx, Option.some.injEq] at hy; subst hy
    obtain rfl := hE.apart l (h1 l (by simp)) l' (h2 l' (by simp)) x hs hs'
    have t : ∀ {v : Str}, LiteralAt E s (l :: v) i → LiteralAt E s v (i + 1) := by
      intro v hv k l' hk
      have := hv (k + 1) l' (by simpa using hk)
      rwa [show i + (k + 1) = i + 1 + k by omega] at this
    rcases literal_comparable hE (fun c hc => h1 c (by simp [hc])) (fun c hc => h2 c (by simp [hc])) (t h3) (t h4) with h | h
    · exact .inl ((List.prefix_cons_inj l).2 h)
    · exact .inr ((List.prefix_cons_inj l).2 h)

/-- The second letter of a numeral, where its first one is `s`, `o` or `p`. -/
theorem numeral_second (hE : Usual E) {a b : Nat} (h : Takes E s a b) {l : Char} (hl : l ∈ c!"sop") (hs : CharAt s (fun x => E.same l x = true) a) :
    ∃ l' ∈ c!"ein", CharAt s (fun x => E.same l' x = true) (a + 1) := by
  have hla : ∀ l ∈ c!"sop", l ∈ c!"abcdefghijklmnopqrstuvwxyz" ∧ l ∉ c!"mcdlxvi" := by decide
  cases h with
  | digits h1 _ h3 => exact (hs.false (h3 a (by omega) h1) fun c x y => letter_not_digit hE (hla l hl).1 x y).elim
  | roman n _ h2 _ _ =>
    exact (hs.false h2 fun c x ⟨l', y, z⟩ => (hla l hl).2 (hE.apart l (hla l hl).1 l' (sign_letter l' y) c x z ▸ y)).elim
  | word w _ h2 h3 =>
    have hz : ∀ w ∈ [c!"zero", c!"zéro"], w.head? = some 'z' := by decide
    have hw : ∀ e ∈ partWords, ∀ w ∈ e.2, (∀ c ∈ w, c ∈ c!"abcdefghijklmnopqrstuvwxyz") ∧ ∀ l, w.head? = some l → l ∈ c!"sop" → ∃ l' ∈ c!"ein", w[1]? = some l' := by decide +kernel
    rcases h3 with h3 | ⟨e, he, h3⟩
    · obtain ⟨x, hx, hs'⟩ := h2.2 0 'z' (by rw [← List.head?_eq_getElem?]; exact hz w h3)
      obtain ⟨y, hy, hs⟩ := hs
      simp only [Nat.add_zero] at hx
      rw [hx, Option.some.injEq] at hy; subst hy
      have := hE.apart l (hla l hl).1 'z' (by decide) x hs hs'
      subst this
      exact absurd hl (by decide)
    · obtain ⟨g1, g2⟩ := hw e he w h3
      cases hh : w.head? with
      | none =>
        obtain ⟨l0, _, _⟩ := partWord_first e he w h3
        rename_i hl0 _
        rw [hh] at hl0; cases hl0
      | some l0 =>
        obtain ⟨x, hx, hs'⟩ := h2.2 0 l0 (by rw [← List.head?_eq_getElem?]; exact hh)
        obtain ⟨y, hy, hs⟩ := hs
        simp only [Nat.add_zero] at hx
        rw [hx, Option.some.injEq] at hy; subst hy
        obtain rfl := hE.apart l (hla l hl).1 l0 (g1 l0 (List.mem_of_head? hh)) x hs hs'
        obtain ⟨l', h4, h5⟩ := g2 l hh hl
        exact ⟨l', h4, h2.2 1 l' h5⟩

/-- What follows a word for seasons in a longer one begins no numeral, unless it is the `s` of the plural. -/
theorem season_longer : ∀ w ∈ seasonWords, ∀ w' ∈ seasonWords, w' <+: w → w'.length < w.length →
    (w.length = w'.length + 1 ∧ w[w'.length]? = some 's') ∨ w[w'.length]? = some 'p' ∧ (w[w'.length + 1]?.all fun l => !(c!"ein".contains l)) = true ∨
      (w[w'.length]? = some 'o' ∧ w[w'.length + 1]? = some 'r') := by decide +kernel

/-- No numeral is written where a word for seasons is. -/
theorem season_no_numeral (hE : Usual E) {i x b : Nat} (h : MarkAt E seasonWords s i x) (ht : Takes E s i b) : False := by
  obtain ⟨w, hw, hl, rfl⟩ := h
  have hfirst : ∀ w ∈ seasonWords, ∃ l ∈ c!"st", w.head? = some l := by decide
  obtain ⟨l, h1, h2⟩ := hfirst w hw
  have hla : ∀ l ∈ c!"st", l ∈ c!"abcdefghijklmnopqrstuvwxyz" ∧ l ∉ c!"mcdlxvi" ∧ l ≠ 'z' := by decide
  have hc : CharAt s (fun c => E.same l c = true) i := hl 0 l (by rw [← List.head?_eq_getElem?]; exact h2)
  cases ht with
  | digits g1 _ g3 => exact hc.false (g3 i (by omega) g1) fun c x y => letter_not_digit hE (hla l h1).1 x y
  | roman n _ g2 _ _ => exact hc.false g2 fun c x ⟨l', y, z⟩ => (hla l h1).2.1 (hE.apart l (hla l h1).1 l' (sign_letter l' y) c x z ▸ y)
  | word w' _ g2 g3 =>
    have hz : ∀ w ∈ [c!"zero", c!"zéro"], w.head? = some 'z' := by decide
    rcases g3 with g3 | ⟨e, he, g3⟩
    · have := g2.2 0 'z' (by rw [← List.head?_eq_getElem?]; exact hz w' g3)
      exact hc.false this fun c x y => (hla l h1).2.2 (hE.apart l (hla l h1).1 'z' (by decide) c x y)
    · have hall : ∀ e ∈ partWords, ∀ w' ∈ e.2, (∀ c ∈ w', c ∈ c!"abcdefghijklmnopqrstuvwxyz") ∧ ∀ w ∈ seasonWords, ¬ w <+: w' ∧ ¬ w' <+: w := by decide +kernel
      obtain ⟨k1, k2⟩ := hall e he w' g3
      rcases literal_comparable hE (seasonWords_lettered w hw).2 k1 hl g2.2 with h | h
      · exact (k2 w hw).1 h
      · exact (k2 w hw).2 h

/-- The characters of a mark of words of letters are letters. -/
theorem mark_letters {ws : List Str} (hws : ∀ w ∈ ws, Lettered w) {i x k : Nat} (h : MarkAt E ws s i x) (h1 : i ≤ k) (h2 : k < x) :
    CharAt s (fun c => ∃ l ∈ c!"abcdefghijklmnopqrstuvwxyz", E.same l c = true) k := by
  obtain ⟨w, hw, hl, rfl⟩ := h
  have hk : k - i < w.length := by omega
  obtain ⟨c, h3, h4⟩ := hl (k - i) w[k - i] (List.getElem?_eq_some_iff.2 ⟨hk, rfl⟩)
  exact ⟨c, by rw [← h3]; congr 1; omega, _, (hws w hw).2 _ (List.getElem_mem hk), h4⟩

/-- The first match of the pattern. -/
theorem seasonWord_head (hE : Usual E) {i x a j : Nat} {c : Caps} (hx : MarkAt E seasonWords s i x) (ha : MaybeSep s x a)
    (hn : ∀ c, (E.plainNumeral.exec s a c).head? = some (j, c)) (hst : CharAt s (Digit E) a ∨ FreeBefore s a) :
    ((E.seasonWord seasonWords).exec s i c).head? = some (j, (1, (a, j)) :: (3, (i, x)) :: c) := by
  have hmlen : ∀ {i x}, MarkAt E seasonWords s i x → i < x := by
    rintro i x ⟨w, hw, _, rfl⟩
    have := List.length_pos_iff.2 (seasonWords_lettered w hw).1
    omega
  -- the character after the word is no letter
  have hafter : CharAt s (fun c => ∃ l ∈ c!"abcdefghijklmnopqrstuvwxyz", E.same l c = true) x → False := by
    rintro hc
    rcases ha with rfl | ⟨rfl, hsep⟩
    · rcases hst with h | h | h
      · exact hc.false h fun c ⟨l, y, z⟩ w => letter_not_digit hE y z w
      · have := hmlen hx; omega
      · have := hmlen hx
        exact (mark_letters seasonWords_lettered hx (k := a - 1) (by omega) (by omega)).false h fun c ⟨l, y, z⟩ w => by
          rw [sep_not_letter hE y w] at z; cases z
    · exact hc.false hsep fun c ⟨l, y, z⟩ w => by rw [sep_not_letter hE y w.1] at z; cases z
  have hfirst : CharAt s (fun x => x ∉ seps) a := by
    obtain ⟨y, hy, h, _⟩ := numeral_first hE (List.mem_of_head? (by rw [← plain_head]; exact hn []))
    exact ⟨y, hy, h⟩
  refine seq_first (mem_mark.2 ⟨hx, rfl⟩) (seq_head (dash_head ha ?_) (seq_head (grp_head (hn _)) eps_head)) ?_
  · rintro rfl z hz hs
    obtain ⟨y, hy, h⟩ := hfirst
    rw [hz, Option.some.injEq] at hy; subst hy
    exact h hs
  · intro k' c' g0 g2
    obtain ⟨g1, rfl⟩ := mem_mark.1 g0
    obtain ⟨y, hy⟩ := head_of_ne g2
    have hy' : ((Re.seq dashRe (.seq (.grp 1 E.plainNumeral) .eps)).exec s k' ((3, (i, k')) :: c)).head? = some y := hy
    obtain ⟨a', c2, h3, h4⟩ := seq_head_inv hy'
    obtain ⟨h5, rfl⟩ := mem_dash.1 h3
    obtain ⟨k, c3, h6, _⟩ := seq_head_inv h4
    obtain ⟨c5, h8, _⟩ := mem_grp.1 h6
    obtain ⟨⟨b', c6⟩, h7⟩ := head_of_ne (List.ne_nil_of_mem h8)
    obtain ⟨_, hab, htake⟩ := plain_takes hE h7
    rcases Nat.lt_trichotomy k' x with hlt | rfl | hlt
    · exfalso
      obtain ⟨w, hw, hl, rfl⟩ := hx
      obtain ⟨w', hw', hl', rfl⟩ := g1
      have hp : w' <+: w := by
        rcases literal_comparable hE (seasonWords_lettered w' hw').2 (seasonWords_lettered w hw).2 hl' hl with h | h
        · exact h
        · have := h.length_le; omega
      have hchar : CharAt s (fun c => ∃ l ∈ c!"abcdefghijklmnopqrstuvwxyz", E.same l c = true) (i + w'.length) :=
        mark_letters seasonWords_lettered ⟨w, hw, hl, rfl⟩ (by omega) (by omega)
      obtain rfl : a' = i + w'.length := by
        rcases h5 with h | ⟨_, h⟩
        · exact h
        · exact (hchar.false h fun c ⟨l, y, z⟩ w => by rw [sep_not_letter hE y w.1] at z; cases z).elim
      have hein : ∀ l' ∈ c!"ein", l' ∈ c!"abcdefghijklmnopqrstuvwxyz" ∧ l' ≠ 'r' := by decide
      rcases season_longer w hw w' hw' hp (by omega) with ⟨e1, e2⟩ | ⟨e1, _⟩ | ⟨e1, e2⟩
      · obtain ⟨l', h9, h10⟩ := numeral_second hE htake (l := 's') (by decide) (hl _ _ e2)
        refine hafter ?_
        rw [e1, ← Nat.add_assoc]
        obtain ⟨z, hz, hs⟩ := h10
        exact ⟨z, hz, l', (hein l' h9).1, hs⟩
      · have h1 : CharAt s (fun x => E.same 'p' x = true) (i + w'.length) := hl _ _ e1
        have := numeral_first hE (List.mem_of_head? (by rw [← plain_head]; exact h7))
        exact h1.false this fun c u v => by rw [v.2] at u; cases u
      · obtain ⟨l', h9, h10⟩ := numeral_second hE htake (l := 'o') (by decide) (hl _ _ e1)
        have := hl _ _ e2
        rw [← Nat.add_assoc] at this
        exact this.false h10 fun c u v => (hein l' h9).2 (hE.apart l' (hein l' h9).1 'r' (by decide) c v u)
    · exact ⟨rfl, rfl⟩
    · exfalso
      exact hafter (mark_letters seasonWords_lettered g1 (by have := hmlen hx; omega) hlt)

/-- A word and a numeral before `i` end before `i`. -/
theorem worded_before (hE : Usual E) (hP : PlainCase E s) {ws : List Str} (hws : ∀ w ∈ ws, Lettered w) {i z i' x' a' j' : Nat} (hz : MarkAt E seasonWords s i z)
    (hf : FreeBefore s i) (hlt : i' < i) (h1 : MarkAt E ws s i' x') (h2 : MaybeSep s x' a') (h3 : a' < j') (h4 : Takes E s a' j') : j' < i := by
  have hsep : CharAt s (· ∈ seps) (i - 1) := by
    rcases hf with h | h
    · omega
    · exact h
  have hx : x' ≤ i - 1 := by
    by_contra hcon
    exact (mark_letters hws h1 (k := i - 1) (by omega) (by omega)).false hsep fun c ⟨l, y, z⟩ w => by rw [sep_not_letter hE y w] at z; cases z
  have ha : a' ≤ i := by rcases h2 with h | ⟨h, _⟩ <;> omega
  rcases Nat.lt_or_ge a' i with h | h
  · by_contra hcon
    exact (takes_nosep hE hP h4 (i - 1) (by omega) (by omega)).false hsep fun c u v => u v
  · obtain rfl : a' = i := by omega
    exact (season_no_numeral hE hz h4).elim

theorem amp_not_letter (hE : Usual E) {l : Char} (hl : l ∈ c!"abcdefghijklmnopqrstuvwxyz") : E.same l '&' = false := by
  cases h : E.same l '&' with
  | false => rfl
  | true =>
    have := (hE.same l hl '&' (by decide)).1 h
    have hall : ∀ l ∈ c!"abcdefghijklmnopqrstuvwxyz", '&' ≠ l ∧ '&' ≠ l.toUpper := by decide
    have h5 := hall l hl
    rcases this with h | h
    · exact absurd h h5.1
    · exact absurd h h5.2

theorem separator_sign (hC : PlainSeasons C) {w : Str} (h : w ∈ C.separators) : (∃ c ∈ c!"&" ++ seps, w = [c]) ∨
    (Lettered w ∧ ∀ w' ∈ seasonWords, ¬ w <+: w' ∧ ¬ w' <+: w) := by
  simp only [EpisodeConfig.separators, List.mem_append] at h
  rcases h with (h | h) | h
  · exact hC.separators w (by simp [h])
  · obtain ⟨c, hc, rfl⟩ := weak_seps h
    exact .inl ⟨c, List.mem_append_right _ hc, rfl⟩
  · exact hC.separators w (by simp [h])

/-- A number of a list before `i` ends before `i`. -/
theorem next_before (hE : Usual E) (hL : Literal E) (hC : PlainSeasons C) {i z i' x y d j : Nat} (hz : MarkAt E seasonWords s i z)
    (hf : FreeBefore s i) (hlt : i' < i) (h : NextAt E C s i' x y d j) : j < i := by
  have hsep : CharAt s (· ∈ seps) (i - 1) := by
    rcases hf with h | h
    · omega
    · exact h
  have hzl : CharAt s (fun c => ∃ l ∈ c!"abcdefghijklmnopqrstuvwxyz", E.same l c = true) i := by
    refine mark_letters seasonWords_lettered hz (Nat.le_refl _) ?_
    obtain ⟨w, hw, _, rfl⟩ := hz
    have := List.length_pos_iff.2 (seasonWords_lettered w hw).1
    omega
  by_contra hcon
  have hdj := h.number.1
  have hd : i < d := by
    by_contra hd
    by_cases hd' : d = i
    · subst hd'
      exact hzl.false (digits_char h.number) fun c ⟨l, y, z⟩ w => letter_not_digit hE y z w
    · exact (h.number.2 (i - 1) (by omega) (by omega)).false hsep fun c u v => sep_not_digit hE v u
  have hy : i < y := by
    rcases h.after with h1 | ⟨h1, h2⟩
    · omega
    · by_contra hy
      obtain rfl : y = i := by omega
      exact hzl.false h2 fun c ⟨l, y, z⟩ w => by rw [sep_not_letter hE y w.1] at z; cases z
  have hx : x ≤ i := by rcases h.before with h1 | ⟨h1, _⟩ <;> omega
  obtain ⟨w, hw, hl, rfl⟩ := h.word
  rcases separator_sign hC hw with ⟨c, hc, rfl⟩ | ⟨h1, h2⟩
  · have : x = i := by simp at hy; omega
    subst this
    obtain ⟨u, hu, hs⟩ := hl 0 c rfl
    obtain rfl := (hL c hc u).1 hs
    obtain ⟨v, hv, l, hl1, hl2⟩ := hzl
    have hu' : s[x]? = some u := hu
    rw [hu', Option.some.injEq] at hv; subst hv
    rcases List.mem_append.1 hc with hc | hc
    · have : u = '&' := by simpa using hc
      subst this
      rw [amp_not_letter hE hl1] at hl2; cases hl2
    · rw [sep_not_letter hE hl1 hc] at hl2; cases hl2
  · have hxi : x = i := by
      by_contra hne
      exact (mark_letters (ws := [w]) (by simpa using h1) ⟨w, by simp, hl, rfl⟩ (k := i - 1) (by omega) (by omega)).false hsep fun c ⟨l, y, z⟩ w => by
        rw [sep_not_letter hE y w] at z; cases z
    subst hxi
    obtain ⟨w', hw', hl', _⟩ := hz
    rcases literal_comparable hE h1.2 (seasonWords_lettered w' hw').2 hl hl' with h | h
    · exact (h2 w' hw').1 h
    · exact (h2 w' hw').2 h

/-- A number alone is in order. -/
theorem ordering_alone {range weak strong : Str → Bool} {gap : Int} {x : Option Str × Int} : orderingValidator range weak strong gap [x] [] = true := by
  refine (C59_accepted_iff_strong _ _ _ _ _ _).2 ⟨?_, ?_, .inr ?_, .inr ?_⟩
  · intro pre v post he
    cases pre with
    | nil => exact .inr (by simp)
    | cons u pre => simp at he
  · intro pre v post he
    simp at he
  · rintro p sep v ⟨pre, q, post, he⟩
    have := congrArg List.length he
    simp only [List.length_cons, List.length_nil, List.length_append] at this
    omega
  · rintro p sep v ⟨pre, q, post, he⟩
    simp at he

/-! ## Lists -/

theorem seasons_avoid (hE : Usual E) (hL : Literal E) (hC : PlainSeasons C) : Avoids E C.separators (Digit E) := by
  intro w hw
  rcases separator_sign hC hw with ⟨c, hc, rfl⟩ | ⟨h1, _⟩
  · refine ⟨by simp, seps_avoid hE hL ?_⟩
    intro x hx
    rw [List.mem_singleton.1 hx]
    have : ∀ c ∈ c!"&" ++ seps, c ∈ c!"abcdefghijklmnopqrstuvwxyz&" ++ seps := by decide
    exact this c hc
  · exact ⟨h1.1, fun l hl c hs => letter_not_digit hE (h1.2 l hl) hs⟩

theorem next_grow (hE : Usual E) (hL : Literal E) (hC : PlainSeasons C) {i x y d j : Nat} (h : NextAt E C s i x y d j) : i ≤ x ∧ x < y ∧ y ≤ d ∧ d < j ∧ j ≤ s.length := by
  have h1 : i ≤ x := by rcases h.before with e | ⟨e, _⟩ <;> omega
  have h2 := (h.word.first (seasons_avoid hE hL hC)).1
  have h3 : y ≤ d := by rcases h.after with e | ⟨e, _⟩ <;> omega
  exact ⟨h1, h2, h3, h.number.1, h.number.2.le h.number.1⟩

/-- There is no digit before the number. -/
theorem next_nodigit (hE : Usual E) (hL : Literal E) (hC : PlainSeasons C) {i x y d j k : Nat} (h : NextAt E C s i x y d j) (h1 : i ≤ k) (h2 : k < d) :
    CharAt s (fun c => ¬ Digit E c) k := by
  have sep : ∀ {u v k}, MaybeSep s u v → u ≤ k → k < v → CharAt s (fun c => ¬ Digit E c) k := by
    rintro u v k (rfl | ⟨rfl, c, hc, hs⟩) g1 g2
    · omega
    · obtain rfl : k = u := by omega
      exact ⟨c, hc, sep_not_digit hE hs.1⟩
  by_cases c1 : k < x
  · exact sep h.before h1 c1
  · by_cases c2 : k < y
    · exact (h.word.first (seasons_avoid hE hL hC)).2 k (by omega) c2
    · exact sep h.after (by omega) h2

theorem next_number (hE : Usual E) (hL : Literal E) (hC : PlainSeasons C) {i x y d j x' y' d' j' : Nat} (h : NextAt E C s i x y d j) (h' : NextAt E C s i x' y' d' j') : d = d' := by
  rcases Nat.lt_trichotomy d d' with hlt | rfl | hlt
  · have := next_grow hE hL hC h
    exact ((next_nodigit hE hL hC h' (by omega) hlt).false (digits_char h.number) fun c a b => a b).elim
  · rfl
  · have := next_grow hE hL hC h'
    exact ((next_nodigit hE hL hC h (by omega) hlt).false (digits_char h'.number) fun c a b => a b).elim

theorem next_word_lt (hE : Usual E) (hL : Literal E) (hC : PlainSeasons C) {i x y d j y' j' : Nat} (h : NextAt E C s i x y d j) (h' : NextAt E C s i x y' d j') (hlt : y < y') : False := by
  have g := next_grow hE hL hC h
  have g' := next_grow hE hL hC h'
  have hd : d = y + 1 := by rcases h.after with e | ⟨e, _⟩ <;> omega
  have hs : CharAt s (· ∈ seps) y := by
    rcases h.after with e | ⟨_, c, hc, e, _⟩
    · omega
    · exact ⟨c, hc, e⟩
  obtain ⟨w, hw, hl, e⟩ := h'.word
  rcases separator_sign hC hw with ⟨c, hc, rfl⟩ | ⟨h1, _⟩
  · simp at e; omega
  · exact (mark_letters (ws := [w]) (by simpa using h1) ⟨w, by simp, hl, rfl⟩ (k := y) (by omega) (by omega)).false hs fun c ⟨l, y, z⟩ w => by
      rw [sep_not_letter hE y w] at z; cases z

theorem next_word (hE : Usual E) (hL : Literal E) (hC : PlainSeasons C) {i x y d j y' j' : Nat} (h : NextAt E C s i x y d j) (h' : NextAt E C s i x y' d j') : y' = y := by
  rcases Nat.lt_trichotomy y y' with hlt | rfl | hlt
  · exact (next_word_lt hE hL hC h h' hlt).elim
  · rfl
  · exact (next_word_lt hE hL hC h' h hlt).elim

/-- The first match of the pattern. -/
theorem nextSeason_head (hE : Usual E) (hL : Literal E) (hC : PlainSeasons C) {i x y d j : Nat} {c : Caps} (h : NextAt E C s i x y d j)
    (hx : x = i → ∀ y', ¬ NextAt E C s i (i + 1) y' d j) (hj : NoDigitAt E s j) :
    ((E.nextSeason C).exec s i c).head? = some (j, (1, (d, j)) :: (6, (x, y)) :: c) := by
  have hwhole : ∀ {d' j'}, d' = d → (d' < j' ∧ AllOf s (Digit E) d' j') → NextAt E C s i x y d j := fun _ _ => h
  have hrest : ((Re.seq (.grp 6 (.alt (E.words (C.rangeSeparators ++ (C.discreteSeparators ++ C.weak))) (.chr fun c => sepsNoFs.contains c)))
      (.seq dashRe (.seq (.grp 1 E.digits) .eps))).exec s x c).head? = some (j, (1, (d, j)) :: (6, (x, y)) :: c) := by
    have hmem : (y, (6, (x, y)) :: c) ∈ (Re.grp 6 (.alt (E.words (C.rangeSeparators ++ (C.discreteSeparators ++ C.weak))) (.chr fun c => sepsNoFs.contains c))).exec s x c := by
      obtain ⟨w, hw, hl⟩ := h.word
      refine mem_grp.2 ⟨c, mem_alt.2 (.inl (mem_words.2 ⟨rfl, w, ?_, hl⟩)), rfl⟩
      simp only [EpisodeConfig.separators, List.mem_append] at hw ⊢
      tauto
    refine seq_first hmem (seq_head (dash_head h.after ?_) (seq_head (grp_head (digits_head h.number.1 h.number.2 hj)) eps_head)) ?_
    · rintro rfl z hz hs
      obtain ⟨z', hz', h4⟩ := digits_char h.number
      rw [hz, Option.some.injEq] at hz'; subst hz'
      exact sep_not_digit hE hs h4
    · intro k' c' g1 g2
      obtain ⟨⟨e, c2⟩, g2⟩ := List.exists_mem_of_ne_nil _ g2
      have : (e, c2) ∈ (E.nextSeason C).exec s x c := by
        have hd : (x, c) ∈ dashRe.exec s x c := mem_dash.2 ⟨.inl rfl, rfl⟩
        exact mem_seq.2 ⟨x, c, hd, mem_seq.2 ⟨k', c', g1, g2⟩⟩
      obtain ⟨c3, g3, rfl⟩ := mem_grp.1 g1
      have hcore : c3 = c ∧ MarkAt E C.separators s x k' := by
        have hfake : (k', c3) ∈ (Re.alt (E.words (C.rangeSeparators ++ (C.discreteSeparators ++ C.weak))) (.chr fun c => sepsNoFs.contains c)).exec s x c := g3
        rcases mem_alt.1 hfake with h1 | h1
        · obtain ⟨rfl, w, hw, hl⟩ := mem_words.1 h1
          refine ⟨rfl, w, ?_, hl⟩
          simp only [EpisodeConfig.separators, List.mem_append] at hw ⊢
          tauto
        · obtain ⟨⟨z, hz, hs⟩, rfl, rfl⟩ := mem_chr.1 h1
          refine ⟨rfl, [z], ?_, ?_, rfl⟩
          · by_cases hr : [z] ∈ C.rangeSeparators
            · simp [EpisodeConfig.separators, hr]
            · have : [z] ∈ C.weak := by
                simp only [EpisodeConfig.weak, List.mem_filter, List.mem_map]
                exact ⟨⟨z, by simpa using hs, rfl⟩, by simpa using hr⟩
              simp [EpisodeConfig.separators, this]
          · intro k l hk
            cases k with
            | zero =>
              simp only [List.getElem?_cons_zero, Option.some.injEq] at hk
              subst hk
              exact ⟨z, hz, (hL z (List.mem_append_right _ (sepsNoFs_iff.1 hs).1) z).2 rfl⟩
            | succ k => simp at hk
      obtain ⟨rfl, hmark⟩ := hcore
      simp only [mem_seq, mem_dash, mem_run, mem_eps] at g2
      obtain ⟨d', c4, ⟨g4, rfl⟩, k, c5, ⟨g5, rfl⟩, rfl, rfl⟩ := g2
      have hn' : NextAt E C s i x k' d' e := ⟨h.before, hmark, g4, g5⟩
      obtain rfl := next_number hE hL hC h hn'
      obtain rfl := next_word hE hL hC h hn'
      exact ⟨rfl, rfl⟩
  unfold RxEnv.nextSeason
  rcases h.before with rfl | ⟨rfl, hs⟩
  · refine seq_first (k := x) (c1 := c) (mem_dash.2 ⟨.inl rfl, rfl⟩) hrest ?_
    intro k' c' g1 g2
    obtain ⟨g3, rfl⟩ := mem_dash.1 g1
    rcases g3 with rfl | ⟨rfl, _⟩
    · exact ⟨rfl, rfl⟩
    · exfalso
      obtain ⟨⟨e, c2⟩, g2⟩ := List.exists_mem_of_ne_nil _ g2
      have : (e, c2) ∈ (E.nextSeason C).exec s x c' := mem_seq.2 ⟨x + 1, c', g1, g2⟩
      have hin : (e, c2) ∈ (Re.seq (.grp 6 (.alt (E.words (C.rangeSeparators ++ (C.discreteSeparators ++ C.weak))) (.chr fun c => sepsNoFs.contains c)))
        (.seq dashRe (.seq (.grp 1 E.digits) .eps))).exec s (x + 1) c' := g2
      have hin' : (e, c2) ∈ (E.nextSeason C).exec s (x + 1) c' := mem_seq.2 ⟨x + 1, c', mem_dash.2 ⟨.inl rfl, rfl⟩, hin⟩
      -- read the word at `x + 1`
      obtain ⟨k', c3, g4, g5⟩ := mem_seq.1 hin
      simp only [mem_seq, mem_dash, mem_run, mem_eps] at g5
      obtain ⟨d', c4, ⟨g6, rfl⟩, k, c5, ⟨g7, rfl⟩, rfl, rfl⟩ := g5
      have hmark : MarkAt E C.separators s (x + 1) k' := by
        obtain ⟨c6, h1, rfl⟩ := mem_grp.1 g4
        have hall : (e, (1, (d', e)) :: (6, (x + 1, k')) :: c6) ∈ (E.nextSeason C).exec s (x + 1) c' := hin'
        obtain ⟨x1, y1, d1, q1, q2⟩ := mem_nextSeason hL hall
        simp only [List.cons.injEq, Prod.mk.injEq] at q2
        obtain ⟨_, ⟨_, rfl, rfl⟩, _⟩ := q2
        exact q1.word
      have hn' : NextAt E C s x (x + 1) k' d' e := ⟨(mem_dash.1 g1).1, hmark, g6, g7⟩
      obtain rfl := next_number hE hL hC h hn'
      exact hx rfl k' ⟨hn'.before, hn'.word, hn'.after, h.number⟩
  · refine seq_head (dash_head (.inr ⟨rfl, hs⟩) fun e => by omega) hrest

/-- The match of an item. -/
def seasonHit (i : Nat) (x : Nat × Nat × Nat × Nat) : RxHit := ⟨i, x.2.2.2, [(1, (x.2.2.1, x.2.2.2)), (6, (x.1, x.2.1))]⟩
/-- The matches of a list from `i`. -/
def seasonHits : Nat → List (Nat × Nat × Nat × Nat) → List RxHit
  | _, [] => []
  | i, x :: l => seasonHit i x :: seasonHits x.2.2.2 l

theorem seasons_start (hE : Usual E) (hL : Literal E) (hC : PlainSeasons C) {i k : Nat} {l : List (Nat × Nat × Nat × Nat)} (h : SeasonsListed E C s i l k) (hk : NoDigitAt E s k) :
    NoDigitAt E s i := by
  cases h with
  | nil => exact hk
  | cons h1 _ _ =>
    intro z hz hd
    have := next_grow hE hL hC h1
    obtain ⟨z', hz', h4⟩ := next_nodigit hE hL hC h1 (k := i) (by omega) (by omega)
    rw [hz, Option.some.injEq] at hz'; subst hz'
    exact h4 hd

theorem seasons_run (hE : Usual E) (hL : Literal E) (hC : PlainSeasons C) {i k : Nat} {l : List (Nat × Nat × Nat × Nat)} (h : SeasonsListed E C s i l k) (hk : NoDigitAt E s k) :
    ∀ f, l.length ≤ f → ∃ more, (E.nextSeason C).run s f i = seasonHits i l ++ more := by
  induction h with
  | nil => intro f _; exact ⟨_, rfl⟩
  | cons h1 h2 h3 ih =>
    intro f hf
    cases f with
    | zero => simp at hf
    | succ f =>
      obtain ⟨more, h4⟩ := ih hk f (by simpa using hf)
      refine ⟨more, ?_⟩
      rw [Re.run, matchAt_head (nextSeason_head hE hL hC h1 h2 (seasons_start hE hL hC h3 hk))]
      simp only [h4, seasonHits, List.cons_append]
      rfl

theorem seasons_grow (hE : Usual E) (hL : Literal E) (hC : PlainSeasons C) {i k : Nat} {l : List (Nat × Nat × Nat × Nat)} (h : SeasonsListed E C s i l k) :
    i + l.length ≤ k ∧ (l ≠ [] → k ≤ s.length) := by
  induction h with
  | nil => simp
  | cons h1 _ h3 ih =>
    have g := next_grow hE hL hC h1
    refine ⟨by simp only [List.length_cons]; omega, fun _ => ?_⟩
    cases h3 with
    | nil => omega
    | cons _ _ _ => exact ih.2 (by simp)

theorem seasonHits_stop {i k : Nat} {l : List (Nat × Nat × Nat × Nat)} (h : SeasonsListed E C s i l k) : lastStop i (seasonHits i l) = k := by
  induction h with
  | nil => rfl
  | cons _ _ _ ih => exact ih

theorem seasonHits_append (i : Nat) (l m : List (Nat × Nat × Nat × Nat)) : ∃ i', seasonHits i (l ++ m) = seasonHits i l ++ seasonHits i' m := by
  induction l generalizing i with
  | nil => exact ⟨i, rfl⟩
  | cons x l ih =>
    obtain ⟨i', h⟩ := ih x.2.2.2
    exact ⟨i', by simp [seasonHits, h]⟩

theorem seasonHits_take (n i : Nat) (l : List (Nat × Nat × Nat × Nat)) : (seasonHits i l).take n = seasonHits i (l.take n) := by
  induction l generalizing n i with
  | nil => simp [seasonHits]
  | cons x l ih =>
    cases n with
    | zero => simp [seasonHits]
    | succ n => simp [seasonHits, ih]

theorem seasonHits_length (i : Nat) (l : List (Nat × Nat × Nat × Nat)) : (seasonHits i l).length = l.length := by
  induction l generalizing i with
  | nil => rfl
  | cons x l ih => simp [seasonHits, ih]

theorem listed_numbers {i k : Nat} {l : List (Nat × Nat × Nat × Nat)} (h : SeasonsListed E C s i l k) {x : Nat × Nat × Nat × Nat} (hx : x ∈ l) :
    x.2.2.1 < x.2.2.2 ∧ AllOf s (Digit E) x.2.2.1 x.2.2.2 := by
  induction h with
  | nil => cases hx
  | cons h1 _ _ ih =>
    rcases List.mem_cons.1 hx with rfl | hx
    · exact h1.number
    · exact ih hx

theorem worded_items (hE : Usual E) (i : Nat) (l : List (Nat × Nat × Nat × Nat)) (h : ∀ x ∈ l, x.2.2.1 < x.2.2.2 ∧ AllOf s (Digit E) x.2.2.1 x.2.2.2) :
    wordedSeasons E s (seasonHits i l) = l.map fun x => (some (textOf s x.1 x.2.1), numberAt E s x.2.2.1 x.2.2.2) := by
  induction l generalizing i with
  | nil => rfl
  | cons x l ih =>
    have := ih x.2.2.2 fun y hy => h y (by simp [hy])
    have hv := digits_worded hE (h x (by simp))
    simp only [seasonHits, List.map_cons, wordedSeasons, List.filterMap_cons, seasonHit, List.lookup, beq_self_eq_true, Nat.reduceBEq, Option.map_some] at this ⊢
    rw [hv, this]
    rfl

theorem items_valid (hE : Usual E) (i : Nat) (l : List (Nat × Nat × Nat × Nat)) (h : ∀ x ∈ l, x.2.2.1 < x.2.2.2 ∧ AllOf s (Digit E) x.2.2.1 x.2.2.2) :
    ∀ z ∈ seasonHits i l, validSeasonHit E s z = true := by
  induction l generalizing i with
  | nil => intro z hz; cases hz
  | cons x l ih =>
    intro z hz
    rcases List.mem_cons.1 hz with rfl | hz
    · obtain ⟨h1, h2⟩ := h x (by simp)
      have := pyInt_number hE h1 h2
      simp [validSeasonHit, seasonHit, List.lookup, validateRoman, intCoercable, this]
    · exact ih x.2.2.2 (fun y hy => h y (by simp [hy])) z hz

/-! ## Chains -/

/-- Where the chain of a season begins. -/
theorem season_chain (hE : Usual E) (hL : Literal E) (hP : PlainCase E s) (hC : PlainSeasons C) (hO : ∀ w ∈ ofs, Lettered w) {i x a j : Nat}
    (hx : MarkAt E seasonWords s i x) (ha : MaybeSep s x a) (hf : FreeBefore s i) (hplain : ∀ c, (E.plainNumeral.exec s a c).head? = some (j, c))
    (hdig : CharAt s (Digit E) a ∨ FreeBefore s a) :
    (⟨i, j, [(1, (a, j)), (3, (i, x))]⟩ : RxHit) :: chainTail s [⟨E.ofCount ofs, some 1⟩, ⟨E.nextSeason C, none⟩] j ∈
      chains s ⟨E.seasonWord seasonWords, some 1⟩ [⟨E.ofCount ofs, some 1⟩, ⟨E.nextSeason C, none⟩] := by
  have hm := matchAt_head (seasonWord_head (c := []) hE hx ha hplain hdig)
  have hmoves : Moves s [E.seasonWord seasonWords, E.ofCount ofs, E.nextSeason C] := by
    intro r hr i' j' c' hm'
    simp only [List.mem_cons, List.not_mem_nil, or_false] at hr
    have le : ∀ {ws : List Str} {i x}, MarkAt E ws s i x → i ≤ x := by rintro ws i x ⟨w, _, _, rfl⟩; omega
    have le2 : ∀ {x a}, MaybeSep s x a → x ≤ a := by rintro x a (h | ⟨h, _⟩) <;> omega
    rcases hr with rfl | rfl | rfl
    · obtain ⟨x, a, g1, g2, g3, _⟩ := seasonWord_inv hE hm'
      have := le g1; have := le2 g2; omega
    · obtain ⟨x, a, g1, g2, g3, _⟩ := ofCount_inv hE hm'
      have := le g1; have := le2 g2; omega
    · obtain ⟨x, y, d, g1, _⟩ := mem_nextSeason hL (matchAt_mem hm')
      have := le2 g1.before; have := le g1.word; have := le2 g1.after; have := g1.number.1; omega
  have hbefore : ∀ r ∈ [E.seasonWord seasonWords, E.ofCount ofs, E.nextSeason C], ∀ i' j' c', i' < i → r.matchAt s i' = some (j', c') → j' < i := by
    intro r hr i' j' c' hlt hm'
    simp only [List.mem_cons, List.not_mem_nil, or_false] at hr
    rcases hr with rfl | rfl | rfl
    · obtain ⟨x', a', g1, g2, g3, g4, _⟩ := seasonWord_inv hE hm'
      exact worded_before hE hP seasonWords_lettered hx hf hlt g1 g2 g3 g4
    · obtain ⟨x', a', g1, g2, g3, g4, _⟩ := ofCount_inv hE hm'
      exact worded_before hE hP hO hx hf hlt g1 g2 g3 g4
    · obtain ⟨x', y', d', g1, _⟩ := mem_nextSeason hL (matchAt_mem hm')
      exact next_before hE hL hC hx hf hlt g1
  have hi : i < s.length := by
    obtain ⟨w, hw, hl, rfl⟩ := hx
    obtain ⟨l, w', rfl⟩ := List.exists_cons_of_ne_nil (seasonWords_lettered w hw).1
    obtain ⟨c, hc, _⟩ := hl 0 l rfl
    exact (List.getElem?_eq_some_iff.1 hc).1
  have hchain := chains_complete (first := ⟨E.seasonWord seasonWords, some 1⟩) (rest := [⟨E.ofCount ofs, some 1⟩, ⟨E.nextSeason C, none⟩]) hmoves hm hi hbefore
    (s.length + 1) 0 (by omega) (by omega)
  have e : chainOf s ⟨E.seasonWord seasonWords, some 1⟩ [⟨E.ofCount ofs, some 1⟩, ⟨E.nextSeason C, none⟩] ⟨i, j, [(1, (a, j)), (3, (i, x))]⟩ =
      (⟨i, j, [(1, (a, j)), (3, (i, x))]⟩ : RxHit) :: chainTail s [⟨E.ofCount ofs, some 1⟩, ⟨E.nextSeason C, none⟩] j := by
    simp [chainOf, Re.run, lastStop]
  rw [e] at hchain
  exact hchain

/-- A beginning of a chain that is valid is reported. -/
theorem worded_reported {hs p q : List RxHit} (hm : hs ∈ chains s ⟨E.seasonWord ws, some 1⟩ [⟨E.ofCount ofs, some 1⟩, ⟨E.nextSeason C, none⟩]) (hpq : hs = p ++ q) (hne : p ≠ [])
    (hall : ∀ h ∈ p, validSeasonHit E s h = true) (hb : ∀ n, n < p.length → brokenSeasons E C s (p.take (n + 1)) = false) (hv : validSeasons E C s p = true)
    {h : RxHit} (hh : h ∈ p) {m : RxMatch Int} (hn : m ∈ wordedNumbers E s h) : m ∈ seasonsWorded E C ws ofs s := by
  simp only [seasonsWorded, wordedKept, List.mem_flatMap, List.mem_map]
  refine ⟨_, ⟨hs, hm, rfl⟩, h, ?_, hn⟩
  rw [hpq, List.filter_append, List.filter_eq_self.2 hall, keepHits_whole p [] _ (by simpa using hb), List.nil_append]
  obtain ⟨l, h1, _⟩ := keepHits_prefix (broken := brokenSeasons E C s) (q.filter (validSeasonHit E s)) p
  rw [h1, List.reverse_append]
  obtain ⟨l', h2⟩ := trimChain_complete hv l.reverse hne
  rw [h2]
  simp [hh]

/-- C141: a word for seasons, maybe a separator, and a numeral (a number of at most four digits, or, between separators, a Roman numeral or a number word from 1 to 99),
with a list of more seasons after it if need be (`Seasons 1-3`, `Season II & 3`), between separators: all the seasons are reported with their numbers.  Listed numbers
must increase, stay close when a separator such as a dot is before them, and not be further apart than the configured maximum; a list must be given as
far as it goes. -/
theorem C141_list (hE : Usual E) (hL : Literal E) (hU : Cased E.u) (hP : PlainCase E s) (hC : PlainSeasons C) (hO : ∀ w ∈ ofs, Lettered w)
    {i a j k n : Nat} {l : List (Nat × Nat × Nat × Nat)} (h : WordThen E seasonWords s i a) (hst : Standing s i k)
    (hn : (Number E s a j n ∧ j ≤ a + 4) ∨ (Standing s a j ∧ 1 ≤ n ∧ n ≤ 99 ∧ Worded E s a j n))
    (hof : ∀ x, ¬ MarkAt E ofs s j x) (hl : SeasonsListed E C s j l k)
    (hnew : NewIsLarger ((seasonsOf E s n l).map Prod.snd))
    (hweak : HasStrong C.discreteSeparators.contains (seasonsOf E s n l) ∨ WeakIsClose C.rangeSeparators.contains C.weak.contains C.gap (seasonsOf E s n l))
    (hclose : ∀ u v, Neighbours ((seasonsOf E s n l).map Prod.snd) u v → ((v - u).natAbs : Int) ≤ C.seasonMax) :
    ({ name := c!"season", start := a, stop := j, value := .ok (n : Int) } : RxMatch Int) ∈ seasonsWorded E C seasonWords ofs s ∧
    ∀ x ∈ l, ({ name := c!"season", start := x.2.2.1, stop := x.2.2.2, value := .ok (numberAt E s x.2.2.1 x.2.2.2) } : RxMatch Int) ∈
      seasonsWorded E C seasonWords ofs s := by
  obtain ⟨x, hx, ha⟩ := h
  have hk := standing_noDigit hE hst.2
  have hj := seasons_start hE hL hC hl hk
  have hplain : ∀ c, (E.plainNumeral.exec s a c).head? = some (j, c) := by
    intro c
    rw [plain_head]
    rcases hn with ⟨h1, h2⟩ | ⟨h0, h1, h2, h3⟩
    · rw [RxEnv.numeral, alts_head]
      exact ⟨[], _, _, rfl, someDigits_head (by have := h1.some; omega) h2 h1.digits (.inr hj), by simp⟩
    · exact (worded_numeral hE h3 h1 h2 h0.2).1
  obtain ⟨_, haj, htake⟩ := plain_takes hE (hplain [])
  have hval : wordedValue E s (a, j) = .ok (n : Int) ∧ validateRoman E s (a, j) = true := by
    rcases hn with ⟨h1, h2⟩ | ⟨h0, h1, h2, h3⟩
    · refine ⟨?_, (validRoman_iff hE hU hP htake haj).2 (.inl h1.digits)⟩
      rw [digits_worded hE ⟨h1.some, h1.digits⟩, h1.value]
    · exact ⟨(worded_value hE hU hP h1 h2 h3).1, (validRoman_iff hE hU hP htake haj).2 (.inr h0)⟩
  have hdig : CharAt s (Digit E) a ∨ FreeBefore s a := by
    rcases hn with ⟨h1, _⟩ | ⟨h0, _⟩
    · exact .inl (digits_char ⟨h1.some, h1.digits⟩)
    · exact .inr h0.1
  have hchain := season_chain (ofs := ofs) hE hL hP hC hO hx ha hst.1 hplain hdig
  have hrun0 : (E.ofCount ofs).run s 1 j = [] := by
    rw [Re.run]
    cases h2 : (E.ofCount ofs).matchAt s j with
    | none => rfl
    | some z =>
      obtain ⟨x', _, g1, _⟩ := ofCount_inv (j := z.1) (c := z.2) hE h2
      exact absurd g1 (hof x')
  have hlen : l.length ≤ s.length := by
    have := seasons_grow hE hL hC hl
    by_cases hl0 : l = []
    · subst hl0; simp
    · have := this.2 hl0; omega
  obtain ⟨more, hmore⟩ := seasons_run hE hL hC hl hk s.length hlen
  generalize h0e : (⟨i, j, [(1, (a, j)), (3, (i, x))]⟩ : RxHit) = h0 at hchain
  have hcaps : h0.caps = [(1, (a, j)), (3, (i, x))] := by rw [← h0e]
  have hstart : h0.start = i := by rw [← h0e]
  have hstop : h0.stop = j := by rw [← h0e]
  have heq : h0 :: chainTail s [⟨E.ofCount ofs, some 1⟩, ⟨E.nextSeason C, none⟩] j = (h0 :: seasonHits j l) ++ more := by
    simp only [chainTail, Option.getD_some, Option.getD_none, hrun0, lastStop, hmore, List.append_nil, List.nil_append, List.cons_append]
  have hseas : ∀ m, wordedSeasons E s (h0 :: seasonHits j (l.take m)) = seasonsOf E s n (l.take m) := by
    intro m
    have e1 : wordedSeasons E s (h0 :: seasonHits j (l.take m)) = wordedSeasons E s [h0] ++ wordedSeasons E s (seasonHits j (l.take m)) := by
      simp only [wordedSeasons]
      rw [← List.filterMap_append]; rfl
    have hone : wordedSeasons E s [h0] = [(none, (n : Int))] := by
      simp only [wordedSeasons, hcaps, List.filterMap_cons, List.filterMap_nil, List.lookup, beq_self_eq_true, Nat.reduceBEq, Option.map_some, Option.map_none, hval.1]
    rw [e1, hone, worded_items hE j _ fun y hy => listed_numbers hl (List.mem_of_mem_take hy)]
    rfl
  have hall : ∀ z ∈ h0 :: seasonHits j l, validSeasonHit E s z = true := by
    intro z hz
    rcases List.mem_cons.1 hz with rfl | hz
    · simp only [validSeasonHit, hcaps, List.all_cons, List.all_nil, Bool.and_true]
      simp only [List.lookup, beq_self_eq_true, Nat.reduceBEq, Bool.and_true]
      exact hval.2
    · exact items_valid hE j l (fun y hy => listed_numbers hl hy) z hz
  have hbr : ∀ m, m < (h0 :: seasonHits j l).length → brokenSeasons E C s ((h0 :: seasonHits j l).take (m + 1)) = false := by
    intro m _
    rw [List.take_succ_cons, seasonHits_take, brokenSeasons, chainBreaker, hseas, Bool.or_eq_false_iff]
    refine ⟨rfl, breaks_false fun u v huv => hclose u v (huv.of_prefix ?_)⟩
    simp only [seasonsOf, List.map_cons, List.map_map]
    rw [List.map_take]
    exact (List.prefix_cons_inj _).2 (List.take_prefix _ _)
  have hval' : validSeasons E C s (h0 :: seasonHits j l) = true := by
    have e1 : i ≤ x := by obtain ⟨w, _, _, e⟩ := hx; omega
    have e2 : x ≤ a := by rcases ha with e | ⟨e, _⟩ <;> omega
    have hchild : h0.start = i := by rw [← h0e]
    have e3 := hseas l.length
    rw [List.take_length] at e3
    rw [validSeasons, hchild, e3, hstop, seasonHits_stop hl, Bool.and_eq_true]
    refine ⟨standing_iff.2 hst, (C59_accepted_iff_strong _ _ _ _ _ _).2 ⟨hnew, ?_, hweak, .inr ?_⟩⟩
    · intro pre v post he
      simp at he
    · rintro p sep v ⟨pre, q, post, he⟩
      simp at he
  have hrep := fun (z : RxHit) (hz : z ∈ h0 :: seasonHits j l) (m : RxMatch Int) (hm : m ∈ wordedNumbers E s z) =>
    worded_reported hchain heq (by simp) hall hbr hval' hz hm
  refine ⟨hrep h0 (by simp) _ ?_, fun y hy => ?_⟩
  · simp only [wordedNumbers, hcaps, List.filterMap_cons, List.filterMap_nil, List.lookup, beq_self_eq_true, Nat.reduceBEq, Option.map_some, Option.map_none, hval.1]
    simp
  · have hin : ∃ i', seasonHit i' y ∈ seasonHits j l := by
      clear * - hy
      induction l generalizing j with
      | nil => cases hy
      | cons z l ih =>
        rcases List.mem_cons.1 hy with rfl | hy
        · exact ⟨j, by simp [seasonHits]⟩
        · obtain ⟨i', h⟩ := ih (j := z.2.2.2) hy
          exact ⟨i', by simp [seasonHits, h]⟩
    obtain ⟨i', hi'⟩ := hin
    refine hrep _ (List.mem_cons_of_mem _ hi') _ ?_
    have := digits_worded hE (listed_numbers hl hy)
    simp only [wordedNumbers, seasonHit, List.filterMap_cons, List.filterMap_nil, List.lookup, beq_self_eq_true, Nat.reduceBEq, Option.map_some, Option.map_none, this]
    simp [numberAt]

/-- C141: a word for seasons, maybe a separator, and a numeral between separators are reported, whatever is around: a number of at most four digits, or, after a separator,
a Roman numeral or a number word from 1 to 99. -/
theorem C141_complete (hE : Usual E) (hL : Literal E) (hU : Cased E.u) (hP : PlainCase E s) (hC : PlainSeasons C) (hO : ∀ w ∈ ofs, Lettered w)
    {i a j n : Nat} (h : WordThen E seasonWords s i a) (hst : Standing s i j)
    (hn : (Number E s a j n ∧ j ≤ a + 4) ∨ (FreeBefore s a ∧ 1 ≤ n ∧ n ≤ 99 ∧ Worded E s a j n)) :
    ({ name := c!"season", start := a, stop := j, value := .ok (n : Int) } : RxMatch Int) ∈ seasonsWorded E C seasonWords ofs s := by
  refine (C141_list (k := j) (l := []) hE hL hU hP hC hO h hst ?_ ?_ .nil ?_ (.inr ?_) ?_).1
  · rcases hn with h | ⟨h0, h⟩
    · exact .inl h
    · exact .inr ⟨⟨h0, hst.2⟩, h⟩
  · intro x hx
    have hlt : j < x := by
      obtain ⟨w, hw, _, rfl⟩ := hx
      have := List.length_pos_iff.2 (hO w hw).1
      omega
    have h1 := mark_letters hO hx (k := j) (by omega) hlt
    rcases hst.2 with h2 | h2
    · obtain ⟨c, h3, _⟩ := h1
      have := (List.getElem?_eq_some_iff.1 h3).1
      omega
    · exact h1.false h2 fun c ⟨l, y, z⟩ w => by rw [sep_not_letter hE y w] at z; cases z
  · intro pre v post he
    cases pre with
    | nil => exact .inr (by simp)
    | cons u pre => simp [seasonsOf] at he
  · rintro p sep v ⟨pre, q, post, he⟩
    have := congrArg List.length he
    simp only [seasonsOf, List.map_nil, List.length_cons, List.length_nil, List.length_append] at this
    omega
  · rintro u v ⟨pre, post, he⟩
    have := congrArg List.length he
    simp only [seasonsOf, List.map_nil, List.map_cons, List.length_cons, List.length_nil, List.length_append] at this
    omega

/-- C141: `Season 1of3` between separators: the season and the count are reported.  The season is a number of at most four digits; the count is one too, or stands after
a separator. -/
theorem C141_count (hE : Usual E) (hL : Literal E) (hU : Cased E.u) (hP : PlainCase E s) (hC : PlainSeasons C) (hO : ∀ w ∈ ofs, Lettered w)
    (hO2 : ∀ w ∈ ofs, ∀ w' ∈ ofs, w <+: w' → w = w') {i a j c k n m : Nat} (h : WordThen E seasonWords s i a) (hn : Number E s a j n) (hj : j ≤ a + 4)
    (hw : WordThen E ofs s j c) (hm : (Number E s c k m ∧ k ≤ c + 4) ∨ (FreeBefore s c ∧ 1 ≤ m ∧ m ≤ 99 ∧ Worded E s c k m)) (hst : Standing s i k) :
    ({ name := c!"season", start := a, stop := j, value := .ok (n : Int) } : RxMatch Int) ∈ seasonsWorded E C seasonWords ofs s ∧
    ({ name := c!"count", start := c, stop := k, value := .ok (m : Int) } : RxMatch Int) ∈ seasonsWorded E C seasonWords ofs s := by
  obtain ⟨x, hx, ha⟩ := h
  obtain ⟨y, hy, hc⟩ := hw
  have hjy : j < y := by
    obtain ⟨w, hw, _, rfl⟩ := hy
    have := List.length_pos_iff.2 (hO w hw).1
    omega
  have hjn : NoDigitAt E s j := by
    intro z hz hd
    obtain ⟨z', hz', l, hl, hs⟩ := mark_letters hO hy (k := j) (by omega) hjy
    rw [hz, Option.some.injEq] at hz'; subst hz'
    exact letter_not_digit hE hl hs hd
  have hplain : ∀ c, (E.plainNumeral.exec s a c).head? = some (j, c) := by
    intro c
    rw [plain_head, RxEnv.numeral, alts_head]
    exact ⟨[], _, _, rfl, someDigits_head (by have := hn.some; omega) hj hn.digits (.inr hjn), by simp⟩
  have hplain2 : ∀ c', (E.plainNumeral.exec s c c').head? = some (k, c') := by
    intro c'
    rw [plain_head]
    rcases hm with ⟨h1, h2⟩ | ⟨_, h1, h2, h3⟩
    · exact number_numeral hE h1 h2 hst.2
    · exact (worded_numeral hE h3 h1 h2 hst.2).1
  obtain ⟨_, haj, htake⟩ := plain_takes hE (hplain [])
  obtain ⟨_, hck, htake2⟩ := plain_takes hE (hplain2 [])
  have hval : wordedValue E s (a, j) = .ok (n : Int) ∧ validateRoman E s (a, j) = true := by
    refine ⟨?_, (validRoman_iff hE hU hP htake haj).2 (.inl hn.digits)⟩
    rw [digits_worded hE ⟨hn.some, hn.digits⟩, hn.value]
  have hval2 : wordedValue E s (c, k) = .ok (m : Int) ∧ validateRoman E s (c, k) = true := by
    rcases hm with ⟨h1, h2⟩ | ⟨h0, h1, h2, h3⟩
    · refine ⟨?_, (validRoman_iff hE hU hP htake2 hck).2 (.inl h1.digits)⟩
      rw [digits_worded hE ⟨h1.some, h1.digits⟩, h1.value]
    · exact ⟨(worded_value hE hU hP h1 h2 h3).1, (validRoman_iff hE hU hP htake2 hck).2 (.inr ⟨h0, hst.2⟩)⟩
  have hchain := season_chain (ofs := ofs) hE hL hP hC hO hx ha hst.1 hplain (.inl (digits_char ⟨hn.some, hn.digits⟩))
  have hfirst : CharAt s (fun x => x ∉ seps) c := by
    obtain ⟨y, hy, h, _⟩ := numeral_first hE (List.mem_of_head? (by rw [← plain_head]; exact hplain2 []))
    exact ⟨y, hy, h⟩
  have hof : (E.ofCount ofs).matchAt s j = some (k, [(9, (c, k))]) := by
    have hmem : (y, ([] : Caps)) ∈ (E.words ofs).exec s j [] := mem_words.2 ⟨rfl, hy⟩
    refine matchAt_head (seq_first hmem (seq_head (dash_head hc ?_) (seq_head (grp_head (hplain2 _)) eps_head)) ?_)
    · rintro rfl z hz hs
      obtain ⟨y, hy, h⟩ := hfirst
      rw [hz, Option.some.injEq] at hy; subst hy
      exact h hs
    · intro k' c' g1 _
      obtain ⟨rfl, w', hw', hl', rfl⟩ := mem_words.1 g1
      obtain ⟨w, hw, hl, rfl⟩ := hy
      rcases literal_comparable hE (hO w' hw').2 (hO w hw).2 hl' hl with h | h
      · rw [hO2 w' hw' w hw h]; exact ⟨rfl, rfl⟩
      · rw [hO2 w hw w' hw' h]; exact ⟨rfl, rfl⟩
  generalize h0e : (⟨i, j, [(1, (a, j)), (3, (i, x))]⟩ : RxHit) = h0 at hchain
  have hcaps : h0.caps = [(1, (a, j)), (3, (i, x))] := by rw [← h0e]
  have hstop : h0.stop = j := by rw [← h0e]
  generalize h1e : (⟨j, k, [(9, (c, k))]⟩ : RxHit) = h1
  have hcaps1 : h1.caps = [(9, (c, k))] := by rw [← h1e]
  have hstop1 : h1.stop = k := by rw [← h1e]
  have heq : ∃ q, h0 :: chainTail s [⟨E.ofCount ofs, some 1⟩, ⟨E.nextSeason C, none⟩] j = [h0, h1] ++ q := by
    refine ⟨(E.nextSeason C).run s s.length k, ?_⟩
    simp only [chainTail, Option.getD_some, Option.getD_none, Re.run, hof, h1e, lastStop, hstop1, List.append_nil, List.cons_append, List.nil_append]
  obtain ⟨q, heq⟩ := heq
  have hone : ∀ t, t = [h0] ∨ t = [h0, h1] → wordedSeasons E s t = [(none, (n : Int))] := by
    rintro t (rfl | rfl) <;>
    simp [wordedSeasons, hcaps, hcaps1, List.lookup, hval.1]
  have hall : ∀ z ∈ [h0, h1], validSeasonHit E s z = true := by
    intro z hz
    simp only [List.mem_cons, List.not_mem_nil, or_false] at hz
    rcases hz with rfl | rfl
    · simp [validSeasonHit, hcaps, List.lookup, hval.2]
    · simp [validSeasonHit, hcaps1, List.lookup, hval2.2]
  have hbr : ∀ m, m < [h0, h1].length → brokenSeasons E C s ([h0, h1].take (m + 1)) = false := by
    intro m hm
    have h2 : [h0, h1].take (m + 1) = [h0] ∨ [h0, h1].take (m + 1) = [h0, h1] := by
      match m, hm with
      | 0, _ => exact .inl rfl
      | 1, _ => exact .inr rfl
    rw [brokenSeasons, hone _ h2]; rfl
  have hvs : validSeasons E C s [h0, h1] = true := by
    have e1 : i ≤ x := by obtain ⟨w, _, _, e⟩ := hx; omega
    have e2 : x ≤ a := by rcases ha with e | ⟨e, _⟩ <;> omega
    have hchild : h0.start = i := by rw [← h0e]
    rw [validSeasons, hchild, hone _ (.inr rfl), ordering_alone, lastStop, lastStop, hstop1, Bool.and_true]
    exact standing_iff.2 hst
  refine ⟨worded_reported hchain heq (by simp) hall hbr hvs (h := h0) (by simp) ?_, worded_reported hchain heq (by simp) hall hbr hvs (h := h1) (by simp) ?_⟩
  · simp [wordedNumbers, hcaps, List.lookup, hval.1]
  · simp [wordedNumbers, hcaps1, List.lookup, hval2.1]

end
end Guessit
