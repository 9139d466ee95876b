import Verif.Model.Strings
import Verif.Spec.Strings
import Verif.Props.AmountsExamples

/-! # C120: words, and C121: extensions -/

namespace Guessit
open Spec Re

theorem findAllFrom_sound (sub : Str) : ∀ (t : Str) (b skip : Nat), ∀ i ∈ findAllFrom sub b skip t, ∃ j, i = b + j ∧ j < t.length ∧ sub <+: t.drop j := by
  intro t
  induction t with
  | nil => intro b skip i hi; simp [findAllFrom] at hi
  | cons c rest ih =>
    intro b skip i hi
    have next : ∀ k, i ∈ findAllFrom sub (b + 1) k rest → ∃ j, i = b + j ∧ j < (c :: rest).length ∧ sub <+: (c :: rest).drop j := by
      intro k hk
      obtain ⟨j, h1, h2, h3⟩ := ih _ _ _ hk
      exact ⟨j + 1, by omega, by simp; omega, by simpa using h3⟩
    cases skip with
    | succ k => exact next _ (by simpa [findAllFrom] using hi)
    | zero =>
      rw [findAllFrom] at hi
      split at hi
      · rename_i hp
        rcases List.mem_cons.1 hi with rfl | hi
        · exact ⟨0, by omega, by simp, by simpa using List.isPrefixOf_iff_prefix.1 hp⟩
        · exact next _ hi
      · exact next _ hi

theorem findAllFrom_complete (sub : Str) (hne : sub ≠ []) : ∀ (t : Str) (b skip j : Nat), skip ≤ j → sub <+: t.drop j →
    (∀ j', j' < j → j < j' + sub.length → ¬ sub <+: t.drop j') → b + j ∈ findAllFrom sub b skip t := by
  intro t
  induction t with
  | nil => intro b skip j _ h _; simp at h; exact absurd h hne
  | cons c rest ih =>
    intro b skip j hs h hno
    have hpos : 0 < sub.length := List.length_pos_iff.2 hne
    cases skip with
    | succ k =>
      obtain ⟨j, rfl⟩ : ∃ j', j = j' + 1 := ⟨j - 1, by omega⟩
      rw [findAllFrom]
      have := ih (b + 1) k j (by omega) (by simpa using h) (fun j' h1 h2 h3 => hno (j' + 1) (by omega) (by omega) (by simpa using h3))
      rwa [show b + (j + 1) = b + 1 + j by omega]
    | zero =>
      rw [findAllFrom]
      cases j with
      | zero =>
        rw [if_pos (List.isPrefixOf_iff_prefix.2 (by simpa using h))]
        simp
      | succ j =>
        have next : ∀ k, k ≤ j → b + (j + 1) ∈ findAllFrom sub (b + 1) k rest := fun k hk => by
          have := ih (b + 1) k j hk (by simpa using h) (fun j' h1 h2 h3 => hno (j' + 1) (by omega) (by omega) (by simpa using h3))
          rwa [show b + (j + 1) = b + 1 + j by omega]
        split
        · rename_i hp
          refine List.mem_cons_of_mem _ (next _ ?_)
          by_contra hc
          exact hno 0 (by omega) (by omega) (by simpa using List.isPrefixOf_iff_prefix.1 hp)
        · exact next _ (by omega)

theorem mem_findAll {sub s : Str} (hne : sub ≠ []) {i : Nat} (hno : ∀ i', i' < i → i < i' + sub.length → ¬ sub <+: s.drop i') :
    i ∈ findAll sub s ↔ sub <+: s.drop i := by
  constructor
  · intro h
    obtain ⟨j, h1, _, h3⟩ := findAllFrom_sound sub s 0 0 i h
    rw [show i = j by omega]; exact h3
  · intro h
    have := findAllFrom_complete sub hne s 0 0 i (by omega) h hno
    simpa [findAll] using this

theorem findAll_prefix {sub s : Str} {i : Nat} (h : i ∈ findAll sub s) : sub <+: s.drop i := by
  obtain ⟨j, h1, _, h3⟩ := findAllFrom_sound sub s 0 0 i h
  rw [show i = j by omega]; exact h3

theorem prefix_chars {p t : Str} : p <+: t ↔ ∀ (k : Nat) (c : Char), p[k]? = some c → t[k]? = some c := by
  constructor
  · rintro ⟨r, rfl⟩ k c h
    rw [List.getElem?_append_left (List.getElem?_eq_some_iff.1 h).1]; exact h
  · intro h
    rw [List.prefix_iff_eq_take]
    apply List.ext_getElem?
    intro k
    rw [List.getElem?_take]
    by_cases hk : k < p.length
    · rw [if_pos hk, List.getElem?_eq_getElem hk]
      exact (h k _ (List.getElem?_eq_getElem hk)).symm
    · rw [if_neg hk, List.getElem?_eq_none (by omega)]

theorem written_iff {low : Char → Char} {s w : Str} {i : Nat} : w.map low <+: (s.map low).drop i ↔ Written low s w i := by
  rw [prefix_chars]
  constructor
  · intro h k l hk
    have := h k (low l) (by rw [List.getElem?_map, hk]; rfl)
    rw [List.getElem?_drop, List.getElem?_map] at this
    obtain ⟨c, h1, h2⟩ := Option.map_eq_some_iff.1 this
    exact ⟨c, h1, h2⟩
  · intro h k x hk
    rw [List.getElem?_map] at hk
    obtain ⟨l, h1, rfl⟩ := Option.map_eq_some_iff.1 hk
    obtain ⟨c, h2, h3⟩ := h k l h1
    rw [List.getElem?_drop, List.getElem?_map, h2]
    simp [h3]

theorem alone_of_solid {low : Char → Char} {w : Str} (h : Solid low w) : WordAlone low w := fun _ _ c _ hl hc he =>
  absurd he (h _ (List.mem_of_getElem? hl) c hc)

theorem alone_first {low : Char → Char} {s w : Str} (ha : WordAlone low w) {i : Nat} (hw : Written low s w i) (hb : FreeBefore s i) :
    ∀ i', i' < i → i < i' + w.length → ¬ Written low s w i' := by
  intro i' h1 h2 h'
  rcases hb with rfl | ⟨c, hc, hcs⟩
  · omega
  · have hk : i - 1 - i' < w.length := by omega
    obtain ⟨c', e1, e2⟩ := h' (i - 1 - i') w[i - 1 - i'] (List.getElem?_eq_getElem hk)
    rw [show i' + (i - 1 - i') = i - 1 by omega, hc] at e1
    cases e1
    obtain ⟨x, a, b, ha, hb, hne⟩ := ha (i - 1 - i') _ c (by omega) (List.getElem?_eq_getElem hk) hcs e2
    obtain ⟨c1, f1, f2⟩ := h' _ a ha
    obtain ⟨c2, g1, g2⟩ := hw _ b hb
    rw [show i' + (i - 1 - i' + 1 + x) = i + x by omega, g1] at f1
    cases f1
    exact hne (f2.symm.trans g2)

theorem written_text {low : Char → Char} {s w : Str} {i : Nat} (h : Written low s w i) : (textOf s i (i + w.length)).map low = w.map low := by
  apply List.ext_getElem?
  intro k
  rw [List.getElem?_map, List.getElem?_map, textOf, List.getElem?_drop, List.getElem?_take]
  by_cases hk : k < w.length
  · rw [if_pos (by omega), List.getElem?_eq_getElem hk]
    obtain ⟨c, h1, h2⟩ := h k w[k] (List.getElem?_eq_getElem hk)
    rw [h1]; simp [h2]
  · rw [if_neg (by omega), List.getElem?_eq_none (by omega)]

theorem mem_strings {V : Type} {P : StrPattern V} {u : Uni} {s : Str} {m : RxMatch V} : m ∈ P.found u s ↔
    P.valid s m = true ∧ ∃ w ∈ P.words, m.start ∈ findAll (u.lower w) (u.lower s) ∧ m.name = P.name ∧ m.stop = m.start + w.length ∧
      m.value = P.format P.name (textOf s m.start m.stop) := by
  obtain ⟨n, i, j, v⟩ := m
  simp only [StrPattern.found, List.mem_filter, List.mem_flatMap, StrPattern.at, List.mem_map, RxMatch.mk.injEq, textOf]
  constructor
  · rintro ⟨⟨w, hw, i', h1, h2, rfl, h3, h4⟩, hv⟩
    exact ⟨hv, w, hw, h1, h2.symm, h3.symm, by rw [← h4, ← h3]⟩
  · rintro ⟨hv, w, hw, h1, h2, h3, h4⟩
    exact ⟨⟨w, hw, i, h1, h2.symm, rfl, h3.symm, by rw [h4, h3]⟩, hv⟩

/-- C120: a word of a list is recognised exactly where it is written, in any case, between separators; its value is what the property makes
of the text. -/
theorem C120_exact {V : Type} (P : StrPattern V) (u : Uni) (low : Char → Char) (s : Str) (hs : u.lower s = s.map low)
    (hv : P.valid = surrounded) (hw : ∀ w ∈ P.words, w ≠ [] ∧ u.lower w = w.map low ∧ WordAlone low w) (m : RxMatch V) :
    m ∈ P.found u s ↔ m.name = P.name ∧ m.value = P.format P.name (textOf s m.start m.stop) ∧ Standing s m.start m.stop ∧
      ∃ w ∈ P.words, Written low s w m.start ∧ m.stop = m.start + w.length := by
  rw [mem_strings, hv, surrounded, standing_iff]
  constructor
  · rintro ⟨h1, w, h2, h3, h4, h5, h6⟩
    have := findAll_prefix h3
    rw [(hw w h2).2.1, hs, written_iff] at this
    exact ⟨h4, h6, h1, w, h2, this, h5⟩
  · rintro ⟨h4, h6, h1, w, h2, h3, h5⟩
    refine ⟨h1, w, h2, ?_, h4, h5, h6⟩
    rw [(hw w h2).2.1, hs]
    rw [mem_findAll (by simpa using (hw w h2).1) (by
      intro i' e1 e2
      rw [written_iff]
      exact alone_first (hw w h2).2.2 h3 h1.1 i' e1 (by simpa using e2)), written_iff]
    exact h3

/-! ## C121 -/

theorem alnum_same {E : RxEnv} (hE : Usual E) (hd : PlainDigits E) {w : Str} (hw : Alnum w) {l : Char} (hl : l ∈ w) {c : Char}
    (hc : c = '\n' ∨ c ∈ seps) : E.same l c = false := by
  have hasc : c.toNat < 128 := by
    rcases hc with rfl | hc
    · decide
    · exact sep_ascii c hc
  have hnot : ∀ l ∈ c!"abcdefghijklmnopqrstuvwxyz0123456789", c ≠ l ∧ c ≠ l.toUpper := by
    intro l hl
    have hall : ∀ c ∈ '\n' :: seps, ∀ l ∈ c!"abcdefghijklmnopqrstuvwxyz0123456789", c ≠ l ∧ c ≠ l.toUpper := by decide +kernel
    exact hall c (by simpa using hc) l hl
  have hl' := hw.2 l hl
  obtain ⟨n1, n2⟩ := hnot l hl'
  have : l ∈ c!"abcdefghijklmnopqrstuvwxyz" ∨ l ∈ c!"0123456789" := by
    rw [← List.mem_append]; exact hl'
  apply Bool.eq_false_iff.2
  intro ht
  rcases this with h | h
  · rcases (hE.same l h c hasc).1 ht with h | h
    · exact n1 h
    · exact n2 h
  · exact n1 ((hd l h c).1 ht)

theorem mem_ext {E : RxEnv} {ws : List Str} {s : Str} {i j : Nat} {c' : Caps} :
    (j, c') ∈ (extensionPattern E ws).re.exec s i [] ↔ ExtAt E s ws i j ∧ c' = [] := by
  show (j, c') ∈ (Re.seq (.lit '.') (.seq (E.words ws) (.seq .eol .eps))).exec s i [] ↔ _
  simp only [mem_seq, mem_words, mem_eol, mem_eps, Re.lit, mem_chr]
  constructor
  · rintro ⟨a, c1, ⟨⟨x, h1, h2⟩, rfl, rfl⟩, b, c2, ⟨rfl, w, hw, hl, rfl⟩, d, c3, ⟨h5, rfl, rfl⟩, rfl, rfl⟩
    have : x = '.' := by simpa using h2
    subst this
    exact ⟨⟨h1, h5, w, hw, hl, rfl⟩, rfl⟩
  · rintro ⟨⟨h1, h2, w, hw, hl, rfl⟩, rfl⟩
    exact ⟨i + 1, [], ⟨⟨'.', h1, by simp⟩, rfl, rfl⟩, _, [], ⟨rfl, w, hw, hl, rfl⟩, _, [], ⟨h2, rfl, rfl⟩, rfl, rfl⟩

theorem ext_chars {E : RxEnv} (hE : Usual E) (hd : PlainDigits E) {ws : List Str} (hw : ∀ w ∈ ws, Alnum w) {s : Str} {i j : Nat}
    (h : ExtAt E s ws i j) : i + 1 < j ∧ j ≤ s.length ∧ AllOf s (fun c => c ≠ '\n' ∧ c ∉ seps) (i + 1) j := by
  obtain ⟨h1, h2, w, hw', hl, rfl⟩ := h
  have hp : 0 < w.length := List.length_pos_iff.2 (hw w hw').1
  refine ⟨by omega, ?_, ?_⟩
  · rcases h2 with h | ⟨h, _⟩ <;> omega
  · intro k k1 k2
    have hk : k - (i + 1) < w.length := by omega
    obtain ⟨c, e1, e2⟩ := hl (k - (i + 1)) w[k - (i + 1)] (List.getElem?_eq_getElem hk)
    rw [show i + 1 + (k - (i + 1)) = k by omega] at e1
    refine ⟨c, e1, fun h => ?_, fun h => ?_⟩
    · rw [alnum_same hE hd (hw w hw') (List.getElem_mem hk) (.inl h)] at e2; cases e2
    · rw [alnum_same hE hd (hw w hw') (List.getElem_mem hk) (.inr h)] at e2; cases e2

/-- There is one place for an extension. -/
theorem ext_unique {E : RxEnv} (hE : Usual E) (hd : PlainDigits E) {ws ws' : List Str} (hw : ∀ w ∈ ws, Alnum w) (hw' : ∀ w ∈ ws', Alnum w) {s : Str}
    {i j i' j' : Nat} (h : ExtAt E s ws i j) (h' : ExtAt E s ws' i' j') : i = i' ∧ j = j' := by
  obtain ⟨a1, a2, a3⟩ := ext_chars hE hd hw h
  obtain ⟨b1, b2, b3⟩ := ext_chars hE hd hw' h'
  have hj : j = j' := by
    rcases h.2.1 with e | ⟨e, f⟩ <;> rcases h'.2.1 with e' | ⟨e', f'⟩
    · omega
    · obtain ⟨c, c1, c2, _⟩ := a3 j' (by omega) (by omega)
      rw [f'] at c1; cases c1; exact absurd rfl c2
    · obtain ⟨c, c1, c2, _⟩ := b3 j (by omega) (by omega)
      rw [f] at c1; cases c1; exact absurd rfl c2
    · omega
  subst hj
  refine ⟨?_, rfl⟩
  have hdot : '.' ∈ seps := by decide
  rcases Nat.lt_trichotomy i i' with hlt | he | hlt
  · obtain ⟨c, c1, _, c2⟩ := a3 i' (by omega) (by omega)
    rw [h'.1] at c1; cases c1; exact absurd hdot c2
  · exact he
  · obtain ⟨c, c1, _, c2⟩ := b3 i (by omega) (by omega)
    rw [h.1] at c1; cases c1; exact absurd hdot c2

/-- C121: an extension is recognised exactly at the end of the name (a line break may follow), after a dot; its value is the extension as it
is written. -/
theorem C121_extension (E : RxEnv) (hE : Usual E) (hd : PlainDigits E) (exts : List Str) (hw : ∀ w ∈ exts, Alnum w) (s : Str) (m : RxMatch Str) :
    m ∈ (extensionPattern E exts).found s ↔ m.name = c!"container" ∧ ExtAt E s exts m.start m.stop ∧ m.value = .ok (textOf s (m.start + 1) m.stop) := by
  have eats : (extensionPattern E exts).re.Eats := by
    intro s i j c _ h
    have := ext_chars hE hd hw (mem_ext.1 (matchAt_mem h)).1
    omega
  have hval : ∀ {i j}, ExtAt E s exts i j → stripChars seps ((s.take j).drop i) = textOf s (i + 1) j := by
    intro i j h
    obtain ⟨a1, a2, a3⟩ := ext_chars hE hd hw h
    have hmem := text_mem a3
    rw [text_split (x := i + 1) (by omega) (by omega) a2, text_char h.1]
    exact strip_lead (by intro c hc; rw [List.mem_singleton.1 hc]; decide) (text_ne a3 a1) (fun c hc => (hmem c (List.mem_of_head? hc)).2)
      (fun c hc => (hmem c (List.mem_of_getLast? hc)).2)
  rw [mem_found]
  obtain ⟨n, i, j, v⟩ := m
  simp only
  constructor
  · rintro ⟨⟨i', j', c⟩, hh, _, hm⟩
    obtain ⟨h1, _⟩ := hits_sound hh
    simp only at h1
    have h2 := (mem_ext.1 (matchAt_mem h1)).1
    have hm : (⟨n, i, j, v⟩ : RxMatch Str) = ⟨c!"container", i', j', .ok (stripChars seps ((s.take j').drop i'))⟩ := by
      simpa [extensionPattern, RxPattern.parent] using hm
    cases hm
    exact ⟨rfl, h2, by rw [hval h2]⟩
  · rintro ⟨rfl, h, rfl⟩
    obtain ⟨a1, a2, a3⟩ := ext_chars hE hd hw h
    refine ⟨⟨i, j, []⟩, hits_complete eats (matchAt_unique (mem_ext.2 ⟨h, rfl⟩) ?_) (by omega) ?_, ?_, ?_⟩
    · intro j' c' h'
      obtain ⟨h2, rfl⟩ := mem_ext.1 h'
      exact ⟨(ext_unique hE hd hw hw h h2).2.symm, rfl⟩
    · intro i' j' c' h1 h'
      have := ext_unique hE hd hw hw h (mem_ext.1 (matchAt_mem h')).1
      omega
    · simp [RxPattern.accepts, extensionPattern]
    · show _ ∈ [(extensionPattern E exts).parent s ⟨i, j, []⟩]
      simp only [RxPattern.parent, extensionPattern, List.mem_singleton, hval h]

theorem default_alnum : ∀ e ∈ extensionTable, ∀ w ∈ e.2, Alnum w := by
  unfold Alnum
  decide +kernel

theorem alnum_apart {E : RxEnv} (hE : Usual E) (hd : PlainDigits E) {l l' c : Char} (hl : l ∈ c!"abcdefghijklmnopqrstuvwxyz0123456789")
    (hl' : l' ∈ c!"abcdefghijklmnopqrstuvwxyz0123456789") (h : E.same l c = true) (h' : E.same l' c = true) : l = l' := by
  have split : ∀ l ∈ c!"abcdefghijklmnopqrstuvwxyz0123456789", l ∈ c!"abcdefghijklmnopqrstuvwxyz" ∨ l ∈ c!"0123456789" := by
    intro l hl; rw [← List.mem_append]; exact hl
  have nod : ∀ l ∈ c!"abcdefghijklmnopqrstuvwxyz", ∀ d ∈ c!"0123456789", E.same l d = false := by
    intro l hl d hd
    apply Bool.eq_false_iff.2
    intro h
    have hall : ∀ l ∈ c!"abcdefghijklmnopqrstuvwxyz", ∀ d ∈ c!"0123456789", d ≠ l ∧ d ≠ l.toUpper ∧ d.toNat < 128 := by decide +kernel
    obtain ⟨n1, n2, n3⟩ := hall l hl d hd
    rcases (hE.same l hl d n3).1 h with h | h
    · exact n1 h
    · exact n2 h
  rcases split l hl with a | a <;> rcases split l' hl' with a' | a'
  · exact hE.apart l a l' a' c h h'
  · have := (hd l' a' c).1 h'
    subst this
    rw [nod l a c a'] at h; cases h
  · have := (hd l a c).1 h
    subst this
    rw [nod l' a' c a] at h'; cases h'
  · exact ((hd l a c).1 h).symm.trans ((hd l' a' c).1 h')

theorem ext_word {E : RxEnv} (hE : Usual E) (hd : PlainDigits E) {s w w' : Str} {k : Nat} (hw : Alnum w) (hw' : Alnum w') (h : LiteralAt E s w k)
    (h' : LiteralAt E s w' k) (hlen : w.length = w'.length) : w = w' := by
  apply List.ext_getElem hlen
  intro n h1 h2
  obtain ⟨c, e1, e2⟩ := h n w[n] (List.getElem?_eq_getElem h1)
  obtain ⟨c', f1, f2⟩ := h' n w'[n] (List.getElem?_eq_getElem h2)
  rw [e1] at f1; cases f1
  exact alnum_apart hE hd (hw.2 _ (List.getElem_mem h1)) (hw'.2 _ (List.getElem_mem h2)) e2 f2

/-- C121: with the default configuration the extension is told by one list only: what is reported, and the tag of the list. -/
theorem C121_default (E : RxEnv) (hE : Usual E) (hd : PlainDigits E) (s : Str) (tag : Str) (m : RxMatch Str) :
    (tag, m) ∈ extensionsFound E defaultContainers s ↔ m.name = c!"container" ∧ m.value = .ok (textOf s (m.start + 1) m.stop) ∧
      ∃ exts, (tag, exts) ∈ extensionTable ∧ ExtAt E s exts m.start m.stop := by
  have key : ∀ e ∈ extensionTable, ∀ m, m ∈ (extensionPattern E e.2).found s ↔ m.name = c!"container" ∧ ExtAt E s e.2 m.start m.stop ∧
      m.value = .ok (textOf s (m.start + 1) m.stop) := fun e he m => C121_extension E hE hd e.2 (default_alnum e he) s m
  have flat : extensionsFound E defaultContainers s = extensionTable.flatMap fun e => ((extensionPattern E e.2).found s).map fun m => (e.1, m) := by
    simp [extensionsFound, extensionTable, defaultContainers]
  rw [flat, List.mem_flatMap]
  constructor
  · rintro ⟨⟨t, ws⟩, he, hm⟩
    obtain ⟨m', h1, h2⟩ := List.mem_map.1 hm
    cases h2
    obtain ⟨a, b, c⟩ := (key _ he m).1 h1
    exact ⟨a, c, ws, he, b⟩
  · rintro ⟨a, c, ws, he, b⟩
    exact ⟨(tag, ws), he, List.mem_map.2 ⟨m, (key _ he m).2 ⟨a, b, c⟩, rfl⟩⟩

/-- C121: a name has at most one extension, of one kind. -/
theorem C121_one (E : RxEnv) (hE : Usual E) (hd : PlainDigits E) (s : Str) (x y : Str × RxMatch Str) (hx : x ∈ extensionsFound E defaultContainers s)
    (hy : y ∈ extensionsFound E defaultContainers s) : x = y := by
  obtain ⟨tx, ⟨nx, ix, jx, vx⟩⟩ := x
  obtain ⟨ty, ⟨ny, iy, jy, vy⟩⟩ := y
  obtain ⟨a1, a2, wx, a3, a4⟩ := (C121_default E hE hd s _ _).1 hx
  obtain ⟨b1, b2, wy, b3, b4⟩ := (C121_default E hE hd s _ _).1 hy
  simp only at a1 a2 a4 b1 b2 b4
  obtain ⟨rfl, rfl⟩ := ext_unique hE hd (default_alnum _ a3) (default_alnum _ b3) a4 b4
  subst a1 a2 b1 b2
  obtain ⟨_, _, w, h1, h2, h3⟩ := a4
  obtain ⟨_, _, w', h1', h2', h3'⟩ := b4
  have := ext_word hE hd (default_alnum _ a3 w h1) (default_alnum _ b3 w' h1') h2 h2' (by omega)
  subst this
  have hall : ∀ e ∈ extensionTable, ∀ e' ∈ extensionTable, ∀ w ∈ e.2, w ∈ e'.2 → e.1 = e'.1 := by decide +kernel
  have := hall _ a3 _ b3 w h1 h1'
  simp only at this
  rw [this]

/-! ## C120: the words of containers -/

theorem named_words : ∀ e ∈ namedTable, ∀ w ∈ e.2, w ≠ [] ∧ ∀ c ∈ w, c.toNat < 128 ∧ c.toLower = c ∧ ∀ x ∈ seps, x.toLower ≠ c := by decide +kernel

/-- C120: the name of a container is recognised exactly where it is written, in any case, between separators; its value is that name in lower
case. -/
theorem C120_container (u : Uni) (low : Char → Char) (s : Str) (hl : Lowers u low s) (tag : Str) (m : RxMatch Str) :
    (tag, m) ∈ namedFound u defaultContainers s ↔ m.name = c!"container" ∧ Standing s m.start m.stop ∧
      ∃ ws, (tag, ws) ∈ namedTable ∧ ∃ w ∈ ws, Written low s w m.start ∧ m.stop = m.start + w.length ∧ m.value = .ok w := by
  have hword : ∀ e ∈ namedTable, ∀ w ∈ e.2, w.map low = w := by
    intro e he w hw
    conv_rhs => rw [← List.map_id w]
    apply List.map_congr_left
    intro c hc
    obtain ⟨h1, h2, _⟩ := (named_words e he w hw).2 c hc
    rw [hl.ascii c h1, h2]; rfl
  have key : ∀ e ∈ namedTable, ∀ m, m ∈ (namedPattern u e.2).found u s ↔ m.name = c!"container" ∧ Standing s m.start m.stop ∧
      ∃ w ∈ e.2, Written low s w m.start ∧ m.stop = m.start + w.length ∧ m.value = .ok w := by
    intro e he m
    have hval : ∀ {w}, w ∈ e.2 → Written low s w m.start → m.stop = m.start + w.length → u.lower (textOf s m.start m.stop) = w := by
      intro w h4 h5 h6
      rw [hl.text (textOf s m.start m.stop) (fun c hc => .inl (List.mem_of_mem_take (List.mem_of_mem_drop hc))), h6, written_text h5, hword e he w h4]
    rw [C120_exact (namedPattern u e.2) u low s (hl.text s (fun c hc => .inl hc)) rfl (fun w hw => ?_)]
    · constructor
      · rintro ⟨h1, h2, h3, w, h4, h5, h6⟩
        refine ⟨h1, h3, w, h4, h5, h6, ?_⟩
        rw [h2]
        show Except.ok (u.lower (textOf s m.start m.stop)) = _
        rw [hval h4 h5 h6]
      · rintro ⟨h1, h3, w, h4, h5, h6, h7⟩
        refine ⟨h1, ?_, h3, w, h4, h5, h6⟩
        rw [h7]
        show _ = Except.ok (u.lower (textOf s m.start m.stop))
        rw [hval h4 h5 h6]
    · have hnw := named_words e he w hw
      refine ⟨hnw.1, hl.text w (fun c hc => .inr (hnw.2 c hc).1), alone_of_solid ?_⟩
      intro l hlw c hc
      obtain ⟨g1, g2, g3⟩ := hnw.2 l hlw
      rw [hl.ascii c (sep_ascii c hc), hl.ascii l g1, g2]
      exact g3 c hc
  have flat : namedFound u defaultContainers s = namedTable.flatMap fun e => ((namedPattern u e.2).found u s).map fun m => (e.1, m) := by
    rw [namedFound, show defaultContainers.subtitles.filter (fun w => !(w == c!"sub" || w == c!"ass")) = [c!"srt", c!"idx", c!"ssa"] by decide]
    simp [namedTable, defaultContainers]
  rw [flat, List.mem_flatMap]
  constructor
  · rintro ⟨⟨t, ws⟩, he, hm⟩
    obtain ⟨m', h1, h2⟩ := List.mem_map.1 hm
    cases h2
    obtain ⟨a, b, c⟩ := (key _ he m).1 h1
    exact ⟨a, b, ws, he, c⟩
  · rintro ⟨a, b, ws, he, c⟩
    exact ⟨(tag, ws), he, List.mem_map.2 ⟨m, (key _ he m).2 ⟨a, b, c⟩, rfl⟩⟩

end Guessit
