import Verif.Spec.EpisodeWords
import Verif.Props.Numbering
import Verif.Props.NumberingFound

/-! # C129: episodes written with words -/

namespace Guessit
open Spec Re

/-- `ordering_validator` accepts at most one season and one episode. -/
theorem ordering_one (r w d : Str → Bool) (gap : Int) (a b : Option (Option Str × Int)) : orderingValidator r w d gap a.toList b.toList = true := by
  cases a <;> cases b <;> simp [orderingValidator, isSorted, dedupInts, consecutiveFrom]

section
variable {E : RxEnv} {W : EpisodeWords} {s : Str}

theorem mem_anyWord {ws : List Str} {i j : Nat} {c c' : Caps} : (j, c') ∈ (E.words ws).exec s i c ↔ MarkAt E ws s i j ∧ c' = c := by
  rw [mem_words]
  constructor
  · rintro ⟨h4, w, h1, h2, h3⟩; exact ⟨⟨w, h1, h2, h3⟩, h4⟩
  · rintro ⟨⟨w, h1, h2, h3⟩, h4⟩; exact ⟨h4, w, h1, h2, h3⟩

theorem whole_of {i j : Nat} (h1 : i < j) (h2 : AllOf s (Digit E) i j) : ∃ e, j ≤ e ∧ WholeNumber E s i e := by
  obtain ⟨e, h3, h4, h5⟩ := all_digits h1 h2
  exact ⟨e, h3, by omega, h4, h5⟩

theorem Spec.WholeNumber.run {i j : Nat} (h : WholeNumber E s i j) : i < j ∧ AllOf s (Digit E) i j := ⟨h.some, h.digits⟩

/-- A word, at most one separator, then a digit: where the word ends and where the digit is, is settled. -/
theorem word_number_unique (hE : Usual E) {ws : List Str} (hw : ∀ w ∈ ws, Lettered w) {i x x' a a' : Nat} (h1 : MarkAt E ws s i x) (h2 : MaybeSep s x a)
    (h3 : CharAt s (Digit E) a) (g1 : MarkAt E ws s i x') (g2 : MaybeSep s x' a') (g3 : CharAt s (Digit E) a') : x' = x ∧ a' = a := by
  obtain rfl := mark_unique (lettered_avoids hE hw) h1 g1 (maybeSep_char h2 h3) (maybeSep_char g2 g3)
  refine ⟨rfl, ?_⟩
  rcases h2 with rfl | ⟨rfl, h2⟩ <;> rcases g2 with rfl | ⟨rfl, g2⟩
  · rfl
  · exact (h3.false g2 fun c a b => sep_not_digit hE b.1 a).elim
  · exact (g3.false h2 fun c a b => sep_not_digit hE b.1 a).elim
  · rfl

theorem mem_count {ws : List Str} {b d : Nat} {c c' : Caps} : (d, c') ∈ (E.countRe ws).exec s b c ↔
    ∃ a, JoinAt E ws s b a ∧ (a < d ∧ AllOf s (Digit E) a d) ∧ c' = (9, (a, d)) :: c := by
  simp only [RxEnv.countRe, Re.cat, mem_seq, mem_dash, mem_anyWord, mem_run, mem_eps]
  constructor
  · rintro ⟨x, _, ⟨h1, rfl⟩, y, _, ⟨h2, rfl⟩, a, _, ⟨h3, rfl⟩, _, _, ⟨h4, rfl⟩, rfl, rfl⟩
    exact ⟨a, ⟨x, y, h1, h2, h3⟩, h4, rfl⟩
  · rintro ⟨a, ⟨x, y, h1, h2, h3⟩, h4, rfl⟩
    exact ⟨x, c, ⟨h1, rfl⟩, y, c, ⟨h2, rfl⟩, a, c, ⟨h3, rfl⟩, d, _, ⟨h4, rfl⟩, rfl, rfl⟩

theorem join_le (hE : Usual E) {ws : List Str} (hw : ∀ w ∈ ws, Lettered w) {b d : Nat} (h : JoinAt E ws s b d) : b < d := by
  obtain ⟨x, y, h1, h2, h3⟩ := h
  have := maybeSep_le h1
  have := maybeSep_le h3
  have := (h2.first (lettered_avoids hE hw)).1
  omega

theorem count_nil {ws : List Str} {b : Nat} {c : Caps} (h : ∀ x y, ¬ CountAt E ws s b x y) : (E.countRe ws).exec s b c = [] := by
  rw [List.eq_nil_iff_forall_not_mem]
  rintro ⟨d, c'⟩ hm
  obtain ⟨a, h1, h2, _⟩ := mem_count.1 hm
  obtain ⟨e, _, h3⟩ := whole_of h2.1 h2.2
  exact h a e ⟨h1, h3⟩

theorem count_head (hE : Usual E) {ws : List Str} (hw : ∀ w ∈ ws, Lettered w) {b a d : Nat} {c : Caps} (h : CountAt E ws s b a d) :
    ((E.countRe ws).exec s b c).head? = some (d, (9, (a, d)) :: c) := by
  obtain ⟨⟨x, y, h1, h2, h3⟩, h4⟩ := h
  have hav := lettered_avoids hE hw
  have hdig := digits_char h4.run
  refine seq_head (dash_head h1 ?_) (seq_first (mem_anyWord.2 ⟨h2, rfl⟩)
    (seq_head (dash_head h3 ?_) (seq_head (grp_head (digits_head h4.some h4.digits h4.last)) eps_head)) ?_)
  · rintro rfl
    exact charAt_noSep ((h2.first hav).2 _ (Nat.le_refl _) (h2.first hav).1) fun c hc hs => hc (.inl hs)
  · rintro rfl
    exact charAt_noSep hdig fun c hd hc => sep_not_digit hE hc hd
  · intro k' c' g0 g2
    obtain ⟨g1, rfl⟩ := mem_anyWord.1 g0
    obtain ⟨⟨e, c2⟩, g2⟩ := List.exists_mem_of_ne_nil _ g2
    simp only [Re.cat, mem_seq, mem_dash, mem_run] at g2
    obtain ⟨a', _, ⟨g3, rfl⟩, e', _, ⟨g4, rfl⟩, _⟩ := g2
    exact ⟨(word_number_unique hE hw h2 h3 hdig g1 g3 (digits_char g4)).1, rfl⟩

theorem version_nil {b : Nat} {c : Caps} (h : ∀ y, ¬ VersionAt E s b y) : E.versionRe.exec s b c = [] := by
  rw [List.eq_nil_iff_forall_not_mem]
  rintro ⟨d, c'⟩ hm
  exact h d (mem_version.1 hm).1

/-- The groups of a match. -/
def wordedCaps (a b : Nat) (version count : Option (Nat × Nat)) : Caps :=
  (count.map fun x => (9, x)).toList ++ (version.map fun x => (8, x)).toList ++ [(2, (a, b))]

theorem tail_version {b v : Nat} {version : Option (Nat × Nat)} {c : Caps} (h : MaybeVersion E s b version v) :
    ((Re.opt E.versionRe).exec s b c).head? = some (v, (version.map fun x => (8, x)).toList ++ c) := by
  rcases h with ⟨rfl, rfl, h⟩ | ⟨rfl, h, hj⟩
  · rw [opt_nil (version_nil h)]; rfl
  · exact opt_head (version_head h hj) (by have := h.2.1; omega)

theorem tail_count (hE : Usual E) {ws : List Str} (hw : ∀ w ∈ ws, Lettered w) {v j : Nat} {count : Option (Nat × Nat)} {c : Caps} (h : MaybeCount E ws s v count j) :
    ((Re.opt (E.countRe ws)).exec s v c).head? = some (j, (count.map fun x => (9, x)).toList ++ c) := by
  rcases h with ⟨rfl, rfl, h⟩ | ⟨a, rfl, h⟩
  · rw [opt_nil (count_nil h)]; rfl
  · refine opt_head (count_head hE hw h) ?_
    have := join_le hE hw h.join
    have := h.number.some
    omega

/-- Where it is written, it is what is matched. -/
theorem worded_head (hE : Usual E) (hW : PlainWords W) {i a b j : Nat} {version count : Option (Nat × Nat)} (h : WordedAt E W s i a b version count j) :
    (wordedPattern E W).re.matchAt s i = some (j, wordedCaps a b version count) := by
  obtain ⟨⟨x, h1, h2⟩, h3, v, h4, h5⟩ := h
  have hdig := digits_char h3.run
  have htail := tail_count (c := (version.map fun x => (8, x)).toList ++ [(2, (a, b))]) hE hW.of h5
  rw [← List.append_assoc] at htail
  refine matchAt_head (seq_first (mem_anyWord.2 ⟨h1, rfl⟩) (seq_head (dash_head h2 ?_) (seq_head (grp_head (digits_head h3.some h3.digits h3.last))
    (seq_head (tail_version h4) (seq_head htail eps_head)))) ?_)
  · rintro rfl
    exact charAt_noSep hdig fun c hd hc => sep_not_digit hE hc hd
  · intro k' c' g0 g2
    obtain ⟨g1, rfl⟩ := mem_anyWord.1 g0
    obtain ⟨⟨e, c2⟩, g2⟩ := List.exists_mem_of_ne_nil _ g2
    simp only [Re.cat, mem_seq, mem_dash, mem_run] at g2
    obtain ⟨a', _, ⟨g3, rfl⟩, e', _, ⟨g4, rfl⟩, _⟩ := g2
    exact ⟨(word_number_unique hE hW.episode h1 h2 hdig g1 g3 (digits_char g4)).1, rfl⟩

theorem maybe_version (b : Nat) : ∃ version v, MaybeVersion E s b version v := by
  classical
  by_cases h : ∃ y, VersionAt E s b y
  · obtain ⟨y, h1, h2, h3⟩ := h
    obtain ⟨e, h4, h5⟩ := whole_of h2 h3
    exact ⟨_, e, .inr ⟨rfl, ⟨h1, h5.some, h5.digits⟩, h5.last⟩⟩
  · exact ⟨none, b, .inl ⟨rfl, rfl, fun y h' => h ⟨y, h'⟩⟩⟩

theorem maybe_count (ws : List Str) (v : Nat) : ∃ count j, MaybeCount E ws s v count j := by
  classical
  by_cases h : ∃ x y, CountAt E ws s v x y
  · obtain ⟨x, y, h⟩ := h
    exact ⟨_, y, .inr ⟨x, rfl, h⟩⟩
  · exact ⟨none, v, .inl ⟨rfl, rfl, fun x y h' => h ⟨x, y, h'⟩⟩⟩

/-- Every match is written so. -/
theorem worded_hit (hE : Usual E) (hW : PlainWords W) {i j : Nat} {c : Caps} (h : (wordedPattern E W).re.matchAt s i = some (j, c)) :
    ∃ a b version count, WordedAt E W s i a b version count j ∧ c = wordedCaps a b version count := by
  have hm : (j, c) ∈ (Re.cat [E.words W.episodeWords, dashRe, .grp 2 E.digits, .opt E.versionRe, .opt (E.countRe W.ofWords)]).exec s i [] := matchAt_mem h
  simp only [Re.cat, mem_seq, mem_anyWord, mem_dash, mem_run] at hm
  obtain ⟨x, _, ⟨h1, rfl⟩, a, _, ⟨h2, rfl⟩, b0, _, ⟨h3, rfl⟩, _⟩ := hm
  obtain ⟨b, _, h4⟩ := whole_of h3.1 h3.2
  obtain ⟨version, v, h5⟩ := maybe_version (E := E) (s := s) b
  obtain ⟨count, j', h6⟩ := maybe_count (E := E) (s := s) W.ofWords v
  have hw : WordedAt E W s i a b version count j' := ⟨⟨x, h1, h2⟩, h4, v, h5, h6⟩
  have := worded_head hE hW hw
  rw [h] at this
  cases this
  exact ⟨a, b, version, count, hw, rfl⟩

theorem maybeVersion_le {b v : Nat} {version : Option (Nat × Nat)} (h : MaybeVersion E s b version v) : b ≤ v := by
  rcases h with ⟨_, rfl, _⟩ | ⟨_, h, _⟩
  · exact Nat.le_refl _
  · have := h.2.1; omega

theorem maybeCount_le (hE : Usual E) {ws : List Str} (hw : ∀ w ∈ ws, Lettered w) {v j : Nat} {count : Option (Nat × Nat)} (h : MaybeCount E ws s v count j) : v ≤ j := by
  rcases h with ⟨_, rfl, _⟩ | ⟨c, _, h⟩
  · exact Nat.le_refl _
  · have := join_le hE hw h.join
    have := h.number.some
    omega

theorem worded_eats (hE : Usual E) (hW : PlainWords W) : (wordedPattern E W).re.Eats := by
  intro s i j c _ h
  obtain ⟨a, b, version, count, ⟨⟨x, h1, h2⟩, h3, v, h4, h5⟩, _⟩ := worded_hit hE hW h
  have := (h1.first (lettered_avoids hE hW.episode)).1
  have := maybeSep_le h2
  have := h3.some
  have := maybeVersion_le h4
  have := maybeCount_le hE hW.of h5
  omega

/-- Two words with different first letters do not begin at the same place. -/
theorem heads_apart (hE : Usual E) {w w' : Str} (hw : Lettered w) (hw' : Lettered w') (h : w.head? ≠ w'.head?) {i : Nat} (h1 : LiteralAt E s w i)
    (h2 : LiteralAt E s w' i) : False := by
  cases w with
  | nil => exact hw.1 rfl
  | cons l w =>
    cases w' with
    | nil => exact hw'.1 rfl
    | cons l' w' =>
      refine (Spec.LiteralAt.cons.1 h1).1.false (Spec.LiteralAt.cons.1 h2).1 fun c g1 g2 => h ?_
      rw [hE.apart l (hw.2 l (by simp)) l' (hw'.2 l' (by simp)) c g1 g2]
      rfl

/-- No earlier match reaches a word that stands after a separator. -/
theorem worded_clear (hE : Usual E) (hW : PlainWords W) {i x : Nat} (hx : MarkAt E W.episodeWords s i x) (hf : FreeBefore s i) {i' j' : Nat} {c' : Caps} (hlt : i' < i)
    (hm : (wordedPattern E W).re.matchAt s i' = some (j', c')) : j' ≤ i := by
  have hav := lettered_avoids hE hW.episode
  have hsep : CharAt s (· ∈ seps) (i - 1) := by
    rcases hf with h | h
    · omega
    · exact h
  have hlet : CharAt s (fun c => ¬ (c ∈ seps ∨ Digit E c)) i := (hx.first hav).2 i (Nat.le_refl _) (hx.first hav).1
  have hnd : ∀ {p q : Nat}, AllOf s (Digit E) p q → ¬ (p ≤ i ∧ i < q) := fun h ⟨h1, h2⟩ => (h i h1 h2).false hlet fun c a b => b (.inr a)
  have hnd' : ∀ {p q : Nat}, AllOf s (Digit E) p q → ¬ (p ≤ i - 1 ∧ i - 1 < q) := fun h ⟨h1, h2⟩ => (h (i - 1) h1 h2).false hsep fun c a b => sep_not_digit hE b a
  have hns : ∀ {p q : Nat}, MaybeSep s p q → ¬ (p ≤ i ∧ i < q) := by
    rintro p q h ⟨h1, h2⟩
    rcases h with h | ⟨h, hs⟩
    · omega
    · rw [show p = i by omega] at hs
      exact hs.false hlet fun c a b => b (.inl a.1)
  have hnm : ∀ {ws : List Str} {p q : Nat}, (∀ w ∈ ws, Lettered w) → MarkAt E ws s p q → ¬ (p ≤ i - 1 ∧ i - 1 < q) := by
    rintro ws p q hw h ⟨h1, h2⟩
    exact ((h.first (lettered_avoids hE hw)).2 (i - 1) h1 h2).false hsep fun c a b => a (.inl b)
  obtain ⟨a, b, version, count, ⟨⟨x', h1, h2⟩, h3, v, h4, h5⟩, _⟩ := worded_hit hE hW hm
  by_contra hcon
  have k1 := hnm hW.episode h1
  have k2 := hns h2
  have k3 := hnd h3.digits
  have l1 := maybeSep_le h2
  have hbv : ¬ (b ≤ i - 1 ∧ i - 1 < v) := by
    rcases h4 with ⟨_, rfl, _⟩ | ⟨_, ⟨g1, g2, g3⟩, _⟩
    · omega
    · rintro ⟨m1, m2⟩
      by_cases hb : b = i - 1
      · rw [hb] at g1
        exact g1.false hsep fun c a b => by rw [sep_not_letter hE (by decide) b] at a; cases a
      · exact hnd' g3 ⟨by omega, m2⟩
  have k4 := hnd' h3.digits
  have k5 := h3.some
  have hvi : v ≤ i := by omega
  rcases h5 with ⟨_, rfl, _⟩ | ⟨cc, _, ⟨p, q, g1, g2, g3⟩, g4⟩
  · omega
  · have n1 := hns g1
    have n2 := hnm hW.of g2
    have n3 := hns g3
    have n4 := hnd g4.digits
    have n5 := maybeSep_le g1
    have n6 := maybeSep_le g3
    have n7 := g2.first (lettered_avoids hE hW.of)
    have hp : i = p := by omega
    subst hp
    obtain ⟨w, m1, m2, _⟩ := hx
    obtain ⟨w', m3, m4, _⟩ := g2
    exact heads_apart hE (hW.episode w m1) (hW.of w' m3) (hW.apart w m1 w' m3) m2 m4

theorem worded_kids (hE : Usual E) (hW : PlainWords W) {i a b j : Nat} {version count : Option (Nat × Nat)} (h : WordedAt E W s i a b version count j) (m : RxMatch Int) :
    m ∈ (wordedPattern E W).kids s ⟨i, j, wordedCaps a b version count⟩ ↔ m = ⟨c!"episode", a, b, .ok (numberAt E s a b)⟩ ∨
      (∃ x y, version = some (x, y) ∧ m = ⟨c!"version", x, y, .ok (numberAt E s x y)⟩) ∨ (∃ x y, count = some (x, y) ∧ m = ⟨c!"count", x, y, .ok (numberAt E s x y)⟩) := by
  obtain ⟨_, h3, v, h4, h5⟩ := h
  have he := (groupNumber_eq hE h3.run).2
  rcases h4 with ⟨rfl, rfl, _⟩ | ⟨rfl, ⟨_, h4⟩, _⟩ <;> rcases h5 with ⟨rfl, rfl, _⟩ | ⟨cc, rfl, h5⟩
  · simp [RxPattern.kids, wordedPattern, wordedCaps, h3.some, he, List.lookup]
  · have hc := (groupNumber_eq hE h5.number.run).2
    simp [RxPattern.kids, wordedPattern, wordedCaps, h3.some, he, List.lookup, h5.number.some, hc]
  · have hv := (groupNumber_eq hE h4).2
    simp [RxPattern.kids, wordedPattern, wordedCaps, h3.some, he, List.lookup, h4.1, hv]
  · have hv := (groupNumber_eq hE h4).2
    have hc := (groupNumber_eq hE h5.number.run).2
    simp [RxPattern.kids, wordedPattern, wordedCaps, h3.some, he, List.lookup, h4.1, hv, h5.number.some, hc]

theorem worded_accepts {h : RxHit} : (wordedPattern E W).accepts s h = sepsSurround s h.start h.stop := by
  simp [RxPattern.accepts, wordedPattern, surrounded, RxPattern.parent]

/-- C129: an episode is reported exactly where a word for episodes and a number are written after a separator; the version and the count are those written
after it, if any; and what is written, with the version and the count, must end before a separator. -/
theorem C129_exact (hE : Usual E) (hW : PlainWords W) (m : RxMatch Int) : m ∈ (wordedPattern E W).found s ↔
    ∃ i a b version count j, WordedAt E W s i a b version count j ∧ Standing s i j ∧ (m = ⟨c!"episode", a, b, .ok (numberAt E s a b)⟩ ∨
      (∃ x y, version = some (x, y) ∧ m = ⟨c!"version", x, y, .ok (numberAt E s x y)⟩) ∨ (∃ x y, count = some (x, y) ∧ m = ⟨c!"count", x, y, .ok (numberAt E s x y)⟩)) := by
  rw [mem_found]
  have hch : (wordedPattern E W).children = true := rfl
  constructor
  · rintro ⟨⟨i, j, c⟩, hh, ha, hm⟩
    rw [hch, if_pos rfl] at hm
    rw [worded_accepts, standing_iff] at ha
    obtain ⟨h1, _⟩ := hits_sound hh
    obtain ⟨a, b, version, count, hw, rfl⟩ := worded_hit hE hW h1
    exact ⟨i, a, b, version, count, j, hw, ha, (worded_kids hE hW hw m).1 hm⟩
  · rintro ⟨i, a, b, version, count, j, hw, hs, hm⟩
    have hmt := worded_head hE hW hw
    refine ⟨⟨i, j, _⟩, hits_complete (worded_eats hE hW) hmt ?_ ?_, ?_, ?_⟩
    · obtain ⟨⟨x, h1, _⟩, _⟩ := hw
      obtain ⟨g1, g2⟩ := h1.first (lettered_avoids hE hW.episode)
      obtain ⟨c, g3, _⟩ := g2 i (Nat.le_refl _) g1
      have := (List.getElem?_eq_some_iff.1 g3).1
      omega
    · intro i' j' c' hlt hm'
      obtain ⟨⟨x, h1, _⟩, _⟩ := hw
      exact worded_clear hE hW h1 hs.1 hlt hm'
    · rw [worded_accepts, standing_iff]; exact hs
    · rw [hch, if_pos rfl]; exact (worded_kids hE hW hw m).2 hm

end
end Guessit
