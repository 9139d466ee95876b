import Verif.Props.SeasonWordsFound
import Verif.Props.EpisodeWords

/-! # C142: `Episode IV`, when the type is known to be an episode -/

namespace Guessit
open Spec Re

section
variable {E : RxEnv} {W : EpisodeWords} {s : Str}

theorem alts_cons_exec {r : Re} {rs : List Re} {i : Nat} {c : Caps} : (Re.alts (r :: rs)).exec s i c = r.exec s i c ++ (Re.alts rs).exec s i c := by
  cases rs with
  | nil => simp [Re.alts, exec]
  | cons r' rs => simp [Re.alts, exec]

/-- What follows a choice can be put in every alternative. -/
theorem alts_seq {rs : List Re} {r : Re} {i : Nat} {c : Caps} : (Re.seq (Re.alts rs) r).exec s i c = (Re.alts (rs.map fun a => Re.seq a r)).exec s i c := by
  induction rs with
  | nil => simp [Re.alts, exec]
  | cons a rs ih =>
    rw [List.map_cons, alts_cons_exec, ← ih]
    simp only [exec, alts_cons_exec, List.flatMap_append]

/-- The first word after which the rest is found. -/
theorem words_seq_head {ws pre post : List Str} {w : Str} {r : Re} {i : Nat} {c : Caps} {y : Nat × Caps} (he : ws = pre ++ w :: post) (hl : LiteralAt E s w i)
    (hh : (r.exec s (i + w.length) c).head? = some y) (hpre : ∀ w' ∈ pre, LiteralAt E s w' i → r.exec s (i + w'.length) c = []) :
    ((Re.seq (E.words ws) r).exec s i c).head? = some y := by
  rw [RxEnv.words, alts_seq, alts_head]
  subst he
  refine ⟨(pre.map E.word).map fun a => Re.seq a r, Re.seq (E.word w) r, (post.map E.word).map fun a => Re.seq a r, by simp, ?_, ?_⟩
  · obtain ⟨j, c2⟩ := y
    exact seq_head (word_head hl) hh
  · intro r' hr'
    simp only [List.map_map, List.mem_map, Function.comp] at hr'
    obtain ⟨w', hw', rfl⟩ := hr'
    by_cases h : LiteralAt E s w' i
    · simp [exec, word_exec_one h, hpre w' hw' h]
    · simp [exec, word_exec_nil.2 h]

theorem tail_head (hE : Usual E) {ws : List Str} (hw : ∀ w ∈ ws, Lettered w) {b v j : Nat} {version count : Option (Nat × Nat)} {c : Caps}
    (h1 : MaybeVersion E s b version v) (h2 : MaybeCount E ws s v count j) :
    ((Re.seq (.opt E.versionRe) (.seq (.opt (E.countRe ws)) .eps)).exec s b c).head? =
      some (j, (count.map fun x => (9, x)).toList ++ ((version.map fun x => (8, x)).toList ++ c)) :=
  seq_head (tail_version h1) (seq_head (tail_count hE hw h2) eps_head)

/-- What a match is. -/
theorem numeralled_inv (hE : Usual E) (hO : ∀ w ∈ W.ofWords, Lettered w) {i j : Nat} {c : Caps} (h : (numeralPattern E W).re.matchAt s i = some (j, c)) :
    ∃ x a b version v count, MarkAt E W.episodeWords s i x ∧ MaybeSep s x a ∧ a < b ∧ Takes E s a b ∧ MaybeVersion E s b version v ∧
      MaybeCount E W.ofWords s v count j ∧ c = wordedCaps a b version count := by
  have h0 : ((Re.seq (E.words W.episodeWords) (.seq dashRe (.seq (.grp 2 E.numeral) (.seq (.opt E.versionRe) (.seq (.opt (E.countRe W.ofWords)) .eps))))).exec s i []).head? =
    some (j, c) := h
  obtain ⟨x, c1, h1, h2⟩ := seq_head_inv h0
  obtain ⟨a, c2, h3, h4⟩ := seq_head_inv h2
  obtain ⟨g1, rfl⟩ := mem_anyWord.1 h1
  obtain ⟨g2, rfl⟩ := mem_dash.1 h3
  obtain ⟨k, c3, h6, _⟩ := seq_head_inv h4
  obtain ⟨c5, h8, _⟩ := mem_grp.1 h6
  obtain ⟨⟨b, c4⟩, h9⟩ := head_of_ne (List.ne_nil_of_mem h8)
  obtain ⟨rfl, hab, ht⟩ := plain_takes hE (by rw [plain_head]; exact h9)
  obtain ⟨version, v, h10⟩ := maybe_version (E := E) (s := s) b
  obtain ⟨count, j', h11⟩ := maybe_count (E := E) (s := s) W.ofWords v
  have := seq_head (grp_head (n := 2) h9) (tail_head hE hO h10 h11)
  rw [this, Option.some.injEq, Prod.mk.injEq] at h4
  obtain ⟨rfl, rfl⟩ := h4
  exact ⟨x, a, b, version, v, count, g1, g2, hab, ht, h10, h11, by simp [wordedCaps]⟩

/-- The matches of a hit. -/
theorem numeralled_kids (hE : Usual E) {a b v i j : Nat} {version count : Option (Nat × Nat)} (hab : a < b)
    (h4 : MaybeVersion E s b version v) (h5 : MaybeCount E W.ofWords s v count j) (m : RxMatch Int) :
    m ∈ (numeralPattern E W).kids s ⟨i, j, wordedCaps a b version count⟩ ↔ m = ⟨c!"episode", a, b, wordedValue E s (a, b)⟩ ∨
      (∃ x y, version = some (x, y) ∧ m = ⟨c!"version", x, y, .ok (numberAt E s x y)⟩) ∨ (∃ x y, count = some (x, y) ∧ m = ⟨c!"count", x, y, .ok (numberAt E s x y)⟩) := by
  have e1 : (c!"version" = c!"episode") = False := by simp
  have e2 : (c!"count" = c!"episode") = False := by simp
  rcases h4 with ⟨rfl, rfl, _⟩ | ⟨rfl, ⟨_, h4⟩, _⟩ <;> rcases h5 with ⟨rfl, rfl, _⟩ | ⟨cc, rfl, h5⟩
  · simp [RxPattern.kids, numeralPattern, wordedCaps, hab, List.lookup, wordedValue]
  · have hc := (groupNumber_eq hE h5.number.run).2
    simp [RxPattern.kids, numeralPattern, wordedCaps, hab, List.lookup, h5.number.some, hc, wordedValue]
  · have hv := (groupNumber_eq hE h4).2
    simp [RxPattern.kids, numeralPattern, wordedCaps, hab, List.lookup, h4.1, hv, wordedValue]
  · have hv := (groupNumber_eq hE h4).2
    have hc := (groupNumber_eq hE h5.number.run).2
    simp [RxPattern.kids, numeralPattern, wordedCaps, hab, List.lookup, h4.1, hv, h5.number.some, hc, wordedValue]

theorem numeralled_accepts (hE : Usual E) {a b v i j : Nat} {version count : Option (Nat × Nat)} (hab : a < b)
    (h4 : MaybeVersion E s b version v) (h5 : MaybeCount E W.ofWords s v count j) :
    (numeralPattern E W).accepts s ⟨i, j, wordedCaps a b version count⟩ = true ↔
      Standing s i j ∧ (intCoercable E.u ((s.take b).drop a) = true ∨ Standing s a b) := by
  simp only [RxPattern.accepts, Bool.and_eq_true, Bool.or_eq_true, List.all_eq_true, numeralled_kids hE hab h4 h5]
  rw [show ((numeralPattern E W).parentValid s ((numeralPattern E W).parent s ⟨i, j, wordedCaps a b version count⟩)) = sepsSurround s i j from rfl, standing_iff]
  have hv : validateRoman E s (a, b) = true ↔ (intCoercable E.u ((s.take b).drop a) = true ∨ Standing s a b) := by
    rw [validateRoman, Bool.or_eq_true, standing_iff]
  rw [← hv]
  have hch : ∀ m : RxMatch Int, (numeralPattern E W).childValid s m = (!(m.name == c!"episode") || validateRoman E s (m.start, m.stop)) := fun _ => rfl
  constructor
  · rintro ⟨h1, h2⟩
    refine ⟨by simpa [numeralPattern] using h1, ?_⟩
    have := h2
    simp [numeralPattern] at this
    exact this.1
  · rintro ⟨h1, h2⟩
    refine ⟨by simpa [numeralPattern] using h1, ?_⟩
    simp [numeralPattern]
    refine ⟨h2, ?_⟩
    rintro m (⟨x, y, _, rfl⟩ | ⟨x, y, _, rfl⟩)
    · simp
    · simp

/-- C142: what is reported is the numeral after a word for episodes, and the version and the count after it; all of it stands between separators, and so does a numeral that is
not made of digits. -/
theorem C142_sound (hE : Usual E) (hC : Cased E.u) (hP : PlainCase E s) (hO : ∀ w ∈ W.ofWords, Lettered w) {m : RxMatch Int} (hm : m ∈ (numeralPattern E W).found s) :
    ∃ i a b n version v count j, WordThen E W.episodeWords s i a ∧ NumeralAt E s a b n ∧ MaybeVersion E s b version v ∧ MaybeCount E W.ofWords s v count j ∧
      Standing s i j ∧ (m = ⟨c!"episode", a, b, .ok (n : Int)⟩ ∨ (∃ x y, version = some (x, y) ∧ m = ⟨c!"version", x, y, .ok (numberAt E s x y)⟩) ∨
        (∃ x y, count = some (x, y) ∧ m = ⟨c!"count", x, y, .ok (numberAt E s x y)⟩)) := by
  obtain ⟨⟨i, j, c⟩, hh, ha, hm⟩ := mem_found.1 hm
  have hch : (numeralPattern E W).children = true := rfl
  rw [hch, if_pos rfl] at hm
  obtain ⟨h1, _⟩ := hits_sound hh
  obtain ⟨x, a, b, version, v, count, g1, g2, hab, ht, h10, h11, rfl⟩ := numeralled_inv hE hO h1
  rw [numeralled_accepts hE hab h10 h11] at ha
  obtain ⟨n, k1, k2, k3⟩ := takes_reads hE hC hP ht hab
  rw [numeralled_kids hE hab h10 h11, k2] at hm
  rw [k3] at ha
  exact ⟨i, a, b, n, version, v, count, j, ⟨x, g1, g2⟩, ⟨k1, ha.2⟩, h10, h11, ha.1, hm⟩

/-- The words after which numerals are found. -/
def numeralWords : List Str := [c!"episode", c!"episodes", c!"eps", c!"ep", c!"capitulo", c!"capitulos"]

theorem episodeWords_lettered : ∀ w ∈ defaultEpisodeWords.episodeWords, Lettered w := by
  have : ∀ w ∈ defaultEpisodeWords.episodeWords, w ≠ [] ∧ ∀ c ∈ w, c ∈ c!"abcdefghijklmnopqrstuvwxyz" := by decide
  exact this

/-- A word of the list before another one that it begins is the same without the `s`. -/
theorem episode_order : ∀ w ∈ numeralWords, ∃ pre post, defaultEpisodeWords.episodeWords = pre ++ w :: post ∧
    ∀ w' ∈ pre, w' <+: w → w.length = w'.length + 1 ∧ w[w'.length]? = some 's' := by
  intro w hw
  have h : ∀ w ∈ numeralWords, ∃ k < 8, defaultEpisodeWords.episodeWords[k]? = some w ∧
    ∀ w' ∈ defaultEpisodeWords.episodeWords.take k, w' <+: w → w.length = w'.length + 1 ∧ w[w'.length]? = some 's' := by decide +kernel
  obtain ⟨k, _, h1, h2⟩ := h w hw
  refine ⟨_, defaultEpisodeWords.episodeWords.drop (k + 1), ?_, h2⟩
  obtain ⟨hk, h1⟩ := List.getElem?_eq_some_iff.1 h1
  rw [← h1, ← List.drop_eq_getElem_cons hk, List.take_append_drop]

/-- The first match of the pattern. -/
theorem numeralled_head (hE : Usual E) {i a b v j : Nat} {w : Str} {version count : Option (Nat × Nat)} (hw : w ∈ numeralWords) (hl : LiteralAt E s w i)
    (ha : MaybeSep s (i + w.length) a) (hn : ∀ c, (E.numeral.exec s a c).head? = some (b, c)) (hst : CharAt s (Digit E) a ∨ FreeBefore s a)
    (h1 : MaybeVersion E s b version v) (h2 : MaybeCount E defaultEpisodeWords.ofWords s v count j) (hO : ∀ w ∈ defaultEpisodeWords.ofWords, Lettered w) :
    (numeralPattern E defaultEpisodeWords).re.matchAt s i = some (j, wordedCaps a b version count) := by
  obtain ⟨pre, post, he, hpre⟩ := episode_order w hw
  have hmem : ∀ w' ∈ pre, w' ∈ defaultEpisodeWords.episodeWords := fun w' h => by rw [he]; simp [h]
  have hwm : w ∈ defaultEpisodeWords.episodeWords := by rw [he]; simp
  have hpos : ∀ w ∈ defaultEpisodeWords.episodeWords, 0 < w.length := fun w h => List.length_pos_iff.2 (episodeWords_lettered w h).1
  have hmark : MarkAt E defaultEpisodeWords.episodeWords s i (i + w.length) := ⟨w, hwm, hl, rfl⟩
  have hwp := hpos w hwm
  -- the character after the word is no letter
  have hafter : CharAt s (fun c => ∃ l ∈ c!"abcdefghijklmnopqrstuvwxyz", E.same l c = true) (i + w.length) → False := by
    rintro hc
    rcases ha with rfl | ⟨rfl, hsep⟩
    · rcases hst with h | h | h
      · exact hc.false h fun c ⟨l, y, z⟩ w => letter_not_digit hE y z w
      · omega
      · exact (mark_letters episodeWords_lettered hmark (k := i + w.length - 1) (by omega) (by omega)).false h fun c ⟨l, y, z⟩ w => by
          rw [sep_not_letter hE y w] at z; cases z
    · exact hc.false hsep fun c ⟨l, y, z⟩ w => by rw [sep_not_letter hE y w.1] at z; cases z
  have hfirst : CharAt s (fun x => x ∉ seps) a := by
    obtain ⟨y, hy, h, _⟩ := numeral_first hE (List.mem_of_head? (hn []))
    exact ⟨y, hy, h⟩
  have htail := tail_head (c := [(2, (a, b))]) hE hO h1 h2
  rw [← List.append_assoc] at htail
  refine matchAt_head (words_seq_head he hl (seq_head (dash_head ha ?_) (seq_head (grp_head (hn _)) htail)) ?_)
  · rintro rfl z hz hs
    obtain ⟨y, hy, h⟩ := hfirst
    rw [hz, Option.some.injEq] at hy; subst hy
    exact h hs
  · intro w' hw' hl'
    by_contra hne
    obtain ⟨y, hy⟩ := head_of_ne hne
    have hy' : ((Re.seq dashRe (.seq (.grp 2 E.numeral) (.seq (.opt E.versionRe) (.seq (.opt (E.countRe defaultEpisodeWords.ofWords)) .eps)))).exec s (i + w'.length) []).head? = some y := hy
    obtain ⟨a', c2, h3, h4⟩ := seq_head_inv hy'
    obtain ⟨h5, rfl⟩ := mem_dash.1 h3
    obtain ⟨k, c3, h6, _⟩ := seq_head_inv h4
    obtain ⟨c5, h8, _⟩ := mem_grp.1 h6
    obtain ⟨⟨b', c6⟩, h7⟩ := head_of_ne (List.ne_nil_of_mem h8)
    obtain ⟨_, hab, htake⟩ := plain_takes hE (by rw [plain_head]; exact h7)
    rcases literal_comparable hE (episodeWords_lettered w' (hmem w' hw')).2 (episodeWords_lettered w hwm).2 hl' hl with hp | hp
    · obtain ⟨e1, e2⟩ := hpre w' hw' hp
      have hchar : CharAt s (fun c => E.same 's' c = true) (i + w'.length) := hl _ _ e2
      obtain rfl : a' = i + w'.length := by
        rcases h5 with h | ⟨_, h⟩
        · exact h
        · exact (hchar.false h fun c z w => by rw [sep_not_letter hE (by decide) w.1] at z; cases z).elim
      obtain ⟨l', h9, h10⟩ := numeral_second hE htake (l := 's') (by decide) hchar
      refine hafter ?_
      rw [e1, ← Nat.add_assoc]
      obtain ⟨z, hz, hs⟩ := h10
      have hein : ∀ l' ∈ c!"ein", l' ∈ c!"abcdefghijklmnopqrstuvwxyz" := by decide
      exact ⟨z, hz, l', hein l' h9, hs⟩
    · by_cases hlen : w'.length = w.length
      · have := List.IsPrefix.eq_of_length hp hlen.symm
        subst this
        have hnd : defaultEpisodeWords.episodeWords.Nodup := by decide
        rw [he, List.nodup_append] at hnd
        exact hnd.2.2 w hw' w (by simp) rfl
      · exact hafter (mark_letters episodeWords_lettered ⟨w', hmem w' hw', hl', rfl⟩ (by omega) (by have := hp.length_le; omega))

/-- No numeral is written where a word for episodes that does not begin with `c` is. -/
theorem episode_no_numeral (hE : Usual E) {w : Str} {i b : Nat} (hw : w ∈ defaultEpisodeWords.episodeWords) (hh : w.head? = some 'e') (hl : LiteralAt E s w i)
    (ht : Takes E s i b) : False := by
  have hc : CharAt s (fun c => E.same 'e' c = true) i := hl 0 'e' (by rw [← List.head?_eq_getElem?]; exact hh)
  have he : 'e' ∈ c!"abcdefghijklmnopqrstuvwxyz" := by decide
  cases ht with
  | digits g1 _ g3 => exact hc.false (g3 i (by omega) g1) fun c x y => letter_not_digit hE he x y
  | roman n _ g2 _ _ =>
    have hn : 'e' ∉ c!"mcdlxvi" := by decide
    exact hc.false g2 fun c x ⟨l', y, z⟩ => hn (hE.apart 'e' he l' (sign_letter l' y) c x z ▸ y)
  | word w' _ g2 g3 =>
    have hz : ∀ w ∈ [c!"zero", c!"zéro"], w.head? = some 'z' := by decide
    rcases g3 with g3 | ⟨e, he', g3⟩
    · have := g2.2 0 'z' (by rw [← List.head?_eq_getElem?]; exact hz w' g3)
      exact hc.false this fun c x y => absurd (hE.apart 'e' he 'z' (by decide) c x y) (by decide)
    · have hall : ∀ e ∈ partWords, ∀ w' ∈ e.2, (∀ c ∈ w', c ∈ c!"abcdefghijklmnopqrstuvwxyz") ∧ ∀ w ∈ defaultEpisodeWords.episodeWords, ¬ w <+: w' ∧ ¬ w' <+: w := by
        decide +kernel
      obtain ⟨k1, k2⟩ := hall e he' w' g3
      rcases literal_comparable hE (episodeWords_lettered w hw).2 k1 hl g2.2 with h | h
      · exact (k2 w hw).1 h
      · exact (k2 w hw).2 h

theorem numeralled_eats (hE : Usual E) (hW : ∀ w ∈ W.episodeWords, Lettered w) (hO : ∀ w ∈ W.ofWords, Lettered w) : (numeralPattern E W).re.Eats := by
  intro s i j c _ h
  obtain ⟨x, a, b, version, v, count, h1, h2, h3, _, h4, h5, _⟩ := numeralled_inv hE hO h
  have := (h1.first (lettered_avoids hE hW)).1
  have := maybeSep_le h2
  have := maybeVersion_le h4
  have := maybeCount_le hE hO h5
  omega

/-- No earlier match reaches a word that stands after a separator. -/
theorem numeralled_clear (hE : Usual E) (hP : PlainCase E s) {i : Nat} {w : Str} (hw : w ∈ defaultEpisodeWords.episodeWords) (hl : LiteralAt E s w i) (hf : FreeBefore s i)
    (hc : w.head? = some 'e' ∨ ∀ i' x, MarkAt E defaultEpisodeWords.episodeWords s i' x → ¬ MaybeSep s x i) {i' j' : Nat} {c' : Caps} (hlt : i' < i)
    (hm : (numeralPattern E defaultEpisodeWords).re.matchAt s i' = some (j', c')) : j' ≤ i := by
  have hO : ∀ w ∈ defaultEpisodeWords.ofWords, Lettered w := by
    have : ∀ w ∈ defaultEpisodeWords.ofWords, w ≠ [] ∧ ∀ c ∈ w, c ∈ c!"abcdefghijklmnopqrstuvwxyz" := by decide
    exact this
  have hap : ∀ w ∈ defaultEpisodeWords.episodeWords, ∀ w' ∈ defaultEpisodeWords.ofWords, w.head? ≠ w'.head? := by decide
  have hx : MarkAt E defaultEpisodeWords.episodeWords s i (i + w.length) := ⟨w, hw, hl, rfl⟩
  have hav := lettered_avoids hE episodeWords_lettered
  have hsep : CharAt s (· ∈ seps) (i - 1) := by
    rcases hf with h | h
    · omega
    · exact h
  have hlet : CharAt s (fun c => ¬ (c ∈ seps ∨ Digit E c)) i := (hx.first hav).2 i (Nat.le_refl _) (hx.first hav).1
  have hnd : ∀ {p q : Nat}, AllOf s (Digit E) p q → ¬ (p ≤ i ∧ i < q) := fun h ⟨h1, h2⟩ => (h i h1 h2).false hlet fun c a b => b (.inr a)
  have hnd' : ∀ {p q : Nat}, AllOf s (Digit E) p q → ¬ (p ≤ i - 1 ∧ i - 1 < q) := fun h ⟨h1, h2⟩ => (h (i - 1) h1 h2).false hsep fun c a b => sep_not_digit hE b a
  have hns : ∀ {p q : Nat}, MaybeSep s p q → ¬ (p ≤ i ∧ i < q) := by
    rintro p q h ⟨h1, h2⟩
    rcases h with h | ⟨h, hs⟩
    · omega
    · rw [show p = i by omega] at hs
      exact hs.false hlet fun c a b => b (.inl a.1)
  have hnm : ∀ {ws : List Str} {p q : Nat}, (∀ w ∈ ws, Lettered w) → MarkAt E ws s p q → ¬ (p ≤ i - 1 ∧ i - 1 < q) := by
    rintro ws p q hw h ⟨h1, h2⟩
    exact ((h.first (lettered_avoids hE hw)).2 (i - 1) h1 h2).false hsep fun c a b => a (.inl b)
  obtain ⟨x', a, b, version, v, count, h1, h2, h3, ht, h4, h5, _⟩ := numeralled_inv hE hO hm
  by_contra hcon
  have k1 := hnm episodeWords_lettered h1
  have k2 := hns h2
  have k3 : ¬ (a ≤ i - 1 ∧ i - 1 < b) := fun ⟨m1, m2⟩ => (takes_nosep hE hP ht (i - 1) m1 m2).false hsep fun c u v => u v
  have l1 := maybeSep_le h2
  have ha : a ≠ i := by
    rintro rfl
    rcases hc with hc | hc
    · exact episode_no_numeral hE hw hc hl ht
    · exact hc _ _ h1 h2
  have hbv : ¬ (b ≤ i - 1 ∧ i - 1 < v) := by
    rcases h4 with ⟨_, rfl, _⟩ | ⟨_, ⟨g1, g2, g3⟩, _⟩
    · omega
    · rintro ⟨m1, m2⟩
      by_cases hb : b = i - 1
      · rw [hb] at g1
        exact g1.false hsep fun c a b => by rw [sep_not_letter hE (by decide) b] at a; cases a
      · exact hnd' g3 ⟨by omega, m2⟩
  have hvi : v ≤ i := by omega
  rcases h5 with ⟨_, rfl, _⟩ | ⟨cc, _, ⟨p, q, g1, g2, g3⟩, g4⟩
  · omega
  · have n1 := hns g1
    have n2 := hnm hO g2
    have n3 := hns g3
    have n4 := hnd g4.digits
    have n5 := maybeSep_le g1
    have n6 := maybeSep_le g3
    have n7 := g2.first (lettered_avoids hE hO)
    have hp : i = p := by omega
    subst hp
    obtain ⟨w', m3, m4, _⟩ := g2
    exact heads_apart hE (episodeWords_lettered w hw) (hO w' m3) (hap w hw w' m3) hl m4

/-- C142: a numeral after one of the words is reported, with the version and the count after it. -/
theorem C142_complete (hE : Usual E) (hC : Cased E.u) (hP : PlainCase E s) {w : Str} {i a b v j n : Nat} {version count : Option (Nat × Nat)}
    (hw : w ∈ [c!"episode", c!"episodes", c!"eps", c!"ep", c!"capitulo", c!"capitulos"]) (hl : LiteralAt E s w i) (ha : MaybeSep s (i + w.length) a)
    (hn : (Number E s a b n ∧ b ≤ a + 4 ∧ NoDigitAt E s b) ∨ (Standing s a b ∧ 1 ≤ n ∧ n ≤ 99 ∧ Worded E s a b n))
    (h1 : MaybeVersion E s b version v) (h2 : MaybeCount E defaultEpisodeWords.ofWords s v count j) (hst : Standing s i j)
    (hc : w ∈ [c!"capitulo", c!"capitulos"] → ∀ i' x, MarkAt E defaultEpisodeWords.episodeWords s i' x → ¬ MaybeSep s x i) :
    (⟨c!"episode", a, b, .ok (n : Int)⟩ : RxMatch Int) ∈ (numeralPattern E defaultEpisodeWords).found s ∧
    (∀ x y, version = some (x, y) → (⟨c!"version", x, y, .ok (numberAt E s x y)⟩ : RxMatch Int) ∈ (numeralPattern E defaultEpisodeWords).found s) ∧
    (∀ x y, count = some (x, y) → (⟨c!"count", x, y, .ok (numberAt E s x y)⟩ : RxMatch Int) ∈ (numeralPattern E defaultEpisodeWords).found s) := by
  have hO : ∀ w ∈ defaultEpisodeWords.ofWords, Lettered w := by
    have : ∀ w ∈ defaultEpisodeWords.ofWords, w ≠ [] ∧ ∀ c ∈ w, c ∈ c!"abcdefghijklmnopqrstuvwxyz" := by decide
    exact this
  have hsub : ∀ w ∈ [c!"episode", c!"episodes", c!"eps", c!"ep", c!"capitulo", c!"capitulos"], w ∈ defaultEpisodeWords.episodeWords ∧
      (w ∈ [c!"capitulo", c!"capitulos"] ∨ w.head? = some 'e') := by decide
  obtain ⟨hwm, hwe⟩ := hsub w hw
  have key : (∀ c, (E.numeral.exec s a c).head? = some (b, c)) ∧ a < b ∧ (CharAt s (Digit E) a ∨ FreeBefore s a) ∧ wordedValue E s (a, b) = .ok (n : Int) ∧
      (intCoercable E.u ((s.take b).drop a) = true ∨ Standing s a b) := by
    rcases hn with ⟨g1, g2, g3⟩ | ⟨g1, g2, g3, g4⟩
    · have hab := g1.some
      refine ⟨fun c => ?_, hab, .inl (g1.digits a (Nat.le_refl _) hab), ?_⟩
      · rw [RxEnv.numeral, alts_head]
        exact ⟨[], _, _, rfl, someDigits_head (by omega) g2 g1.digits (.inr g3), by simp⟩
      · refine ⟨?_, .inl ?_⟩
        · rw [digits_worded hE ⟨hab, g1.digits⟩, g1.value]
        · simp [intCoercable, pyInt_number hE hab g1.digits]
    · have hv := worded_value hE hC hP g2 g3 g4
      exact ⟨fun c => (worded_numeral hE g4 g2 g3 g1.2).1, (worded_numeral (c := []) hE g4 g2 g3 g1.2).2, .inr g1.1, hv.1, .inr g1⟩
  obtain ⟨k1, hab, k2, k3, k4⟩ := key
  have hmt := numeralled_head hE hw hl ha k1 k2 h1 h2 hO
  have hh : (⟨i, j, wordedCaps a b version count⟩ : RxHit) ∈ (numeralPattern E defaultEpisodeWords).re.hits s := by
    refine hits_complete (numeralled_eats hE episodeWords_lettered hO) hmt ?_ ?_
    · have hx : MarkAt E defaultEpisodeWords.episodeWords s i (i + w.length) := ⟨w, hwm, hl, rfl⟩
      obtain ⟨g1, g2⟩ := hx.first (lettered_avoids hE episodeWords_lettered)
      obtain ⟨c, g3, _⟩ := g2 i (Nat.le_refl _) g1
      have := (List.getElem?_eq_some_iff.1 g3).1
      omega
    · intro i' j' c' hlt hm'
      refine numeralled_clear hE hP hwm hl hst.1 ?_ hlt hm'
      rcases hwe with h | h
      · exact .inr (hc h)
      · exact .inl h
  have hacc := (numeralled_accepts hE hab h1 h2).2 ⟨hst, k4⟩
  have hch : (numeralPattern E defaultEpisodeWords).children = true := rfl
  have fin : ∀ m, m ∈ (numeralPattern E defaultEpisodeWords).kids s ⟨i, j, wordedCaps a b version count⟩ → m ∈ (numeralPattern E defaultEpisodeWords).found s := by
    intro m hm
    exact mem_found.2 ⟨_, hh, hacc, by rw [hch, if_pos rfl]; exact hm⟩
  refine ⟨fin _ ?_, fun x y h => fin _ ?_, fun x y h => fin _ ?_⟩
  · rw [numeralled_kids hE hab h1 h2, k3]; exact .inl rfl
  · rw [numeralled_kids hE hab h1 h2]; exact .inr (.inl ⟨x, y, h, rfl⟩)
  · rw [numeralled_kids hE hab h1 h2]; exact .inr (.inr ⟨x, y, h, rfl⟩)

end
end Guessit
