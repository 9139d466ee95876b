import Verif.Model.Language
import Verif.Spec.Finders
import Verif.Props.Text
import Verif.Props.Expected

/-! # C47–C49, C56: countries and languages -/

namespace Guessit
open Spec

/-! ## C48 -/

def InMap (map : List (Str × List LMatch)) (k : Str) (m : LMatch) : Prop := ∃ e ∈ map, e.1 = k ∧ m ∈ e.2

theorem addTo_inMap (key : Str) (x : LMatch) (map : List (Str × List LMatch)) (k : Str) (m : LMatch) :
    InMap (addTo key x map) k m ↔ InMap map k m ∨ (k = key ∧ m = x) := by
  induction map with
  | nil => simp [addTo, InMap]; tauto
  | cons e map ih =>
    obtain ⟨k0, ms⟩ := e
    simp only [addTo]
    by_cases h : k0 = key
    · rw [if_pos h]
      simp only [InMap, List.mem_cons, exists_eq_or_imp, List.mem_append, List.not_mem_nil, or_false]
      subst h
      constructor
      · rintro (⟨h1, h2 | h2⟩ | h2)
        · exact Or.inl (Or.inl ⟨h1, h2⟩)
        · exact Or.inr ⟨h1.symm, h2⟩
        · exact Or.inl (Or.inr h2)
      · rintro ((⟨h1, h2⟩ | h2) | ⟨h1, h2⟩)
        · exact Or.inl ⟨h1, Or.inl h2⟩
        · exact Or.inr h2
        · exact Or.inl ⟨h1.symm, Or.inr h2⟩
    · rw [if_neg h]
      simp only [InMap, List.mem_cons, exists_eq_or_imp] at ih ⊢
      rw [ih, or_assoc]

theorem hasKey_iff (map : List (Str × List LMatch)) (k : Str) : hasKey map k = true ↔ ∃ e ∈ map, e.1 = k := by
  simp [hasKey]

theorem addTo_hasKey (key : Str) (x : LMatch) (map : List (Str × List LMatch)) (k : Str) :
    hasKey (addTo key x map) k = true ↔ hasKey map k = true ∨ k = key := by
  induction map with
  | nil => simp [addTo, hasKey]; exact eq_comm
  | cons e map ih =>
    obtain ⟨k0, ms⟩ := e
    simp only [addTo]
    by_cases h : k0 = key
    · rw [if_pos h]; subst h
      simp only [hasKey, List.any_cons, Bool.or_eq_true, decide_eq_true_eq]
      constructor
      · rintro (h1 | h1) <;> tauto
      · rintro ((h1 | h1) | h1)
        · exact Or.inl h1
        · exact Or.inr h1
        · exact Or.inl h1.symm
    · rw [if_neg h]
      simp only [hasKey, List.any_cons, Bool.or_eq_true] at ih ⊢
      rw [ih]; tauto

/-- The kinds of the matches `find` distinguishes. -/
def kUnd (b : Languages) (m : LMatch) : Prop := m.lang = b.und
def kMul (b : Languages) (m : LMatch) : Prop := m.lang ≠ b.und ∧ m.lang = b.mul
def kReg (b : Languages) (m : LMatch) : Prop := m.lang ≠ b.und ∧ m.lang ≠ b.mul

structure MapsOf (b : Languages) (l : List LMatch) (maps : LMaps) : Prop where
  reg : ∀ k m, InMap maps.regular k m ↔ m ∈ l ∧ kReg b m ∧ m.prop = k
  und : ∀ k m, InMap maps.undetermined k m ↔ m ∈ l ∧ kUnd b m ∧ m.prop = k
  mul : ∀ k m, InMap maps.multi k m ↔ m ∈ l ∧ kMul b m ∧ m.prop = k
  regKey : ∀ k, hasKey maps.regular k = true ↔ ∃ m ∈ l, kReg b m ∧ m.prop = k
  undKey : ∀ k, hasKey maps.undetermined k = true ↔ ∃ m ∈ l, kUnd b m ∧ m.prop = k

theorem mapsOf_step {b : Languages} {l : List LMatch} {maps : LMaps} (h : MapsOf b l maps) (x : LMatch) :
    MapsOf b (l ++ [x]) (addMatch b maps x) := by
  unfold addMatch
  by_cases h1 : x.lang = b.und
  · rw [if_pos h1]
    have nr : ¬ kReg b x := fun hk => hk.1 h1
    have nm : ¬ kMul b x := fun hk => hk.1 h1
    refine ⟨?_, ?_, ?_, ?_, ?_⟩
    · intro k m; dsimp only; rw [h.reg]; simp only [List.mem_append, List.mem_singleton]
      constructor
      · rintro ⟨g1, g2⟩; exact ⟨Or.inl g1, g2⟩
      · rintro ⟨g1 | rfl, g2⟩
        · exact ⟨g1, g2⟩
        · exact absurd g2.1 nr
    · intro k m; dsimp only; rw [addTo_inMap, h.und]; simp only [List.mem_append, List.mem_singleton]
      constructor
      · rintro (⟨g1, g2⟩ | ⟨rfl, rfl⟩)
        · exact ⟨Or.inl g1, g2⟩
        · exact ⟨Or.inr rfl, h1, rfl⟩
      · rintro ⟨g1 | rfl, g2, g3⟩
        · exact Or.inl ⟨g1, g2, g3⟩
        · exact Or.inr ⟨g3.symm, rfl⟩
    · intro k m; dsimp only; rw [h.mul]; simp only [List.mem_append, List.mem_singleton]
      constructor
      · rintro ⟨g1, g2⟩; exact ⟨Or.inl g1, g2⟩
      · rintro ⟨g1 | rfl, g2⟩
        · exact ⟨g1, g2⟩
        · exact absurd g2.1 nm
    · intro k; dsimp only; rw [h.regKey]; simp only [List.mem_append, List.mem_singleton]
      constructor
      · rintro ⟨m, g1, g2⟩; exact ⟨m, Or.inl g1, g2⟩
      · rintro ⟨m, g1 | rfl, g2⟩
        · exact ⟨m, g1, g2⟩
        · exact absurd g2.1 nr
    · intro k; dsimp only; rw [addTo_hasKey, h.undKey]; simp only [List.mem_append, List.mem_singleton]
      constructor
      · rintro (⟨m, g1, g2⟩ | rfl)
        · exact ⟨m, Or.inl g1, g2⟩
        · exact ⟨x, Or.inr rfl, h1, rfl⟩
      · rintro ⟨m, g1 | rfl, g2, g3⟩
        · exact Or.inl ⟨m, g1, g2, g3⟩
        · exact Or.inr g3.symm
  · rw [if_neg h1]
    have nu : ¬ kUnd b x := h1
    by_cases h2 : x.lang = b.mul
    · rw [if_pos h2]
      have nr : ¬ kReg b x := fun hk => hk.2 h2
      refine ⟨?_, ?_, ?_, ?_, ?_⟩
      · intro k m; dsimp only; rw [h.reg]; simp only [List.mem_append, List.mem_singleton]
        constructor
        · rintro ⟨g1, g2⟩; exact ⟨Or.inl g1, g2⟩
        · rintro ⟨g1 | rfl, g2⟩
          · exact ⟨g1, g2⟩
          · exact absurd g2.1 nr
      · intro k m; dsimp only; rw [h.und]; simp only [List.mem_append, List.mem_singleton]
        constructor
        · rintro ⟨g1, g2⟩; exact ⟨Or.inl g1, g2⟩
        · rintro ⟨g1 | rfl, g2⟩
          · exact ⟨g1, g2⟩
          · exact absurd g2.1 nu
      · intro k m; dsimp only; rw [addTo_inMap, h.mul]; simp only [List.mem_append, List.mem_singleton]
        constructor
        · rintro (⟨g1, g2⟩ | ⟨rfl, rfl⟩)
          · exact ⟨Or.inl g1, g2⟩
          · exact ⟨Or.inr rfl, ⟨h1, h2⟩, rfl⟩
        · rintro ⟨g1 | rfl, g2, g3⟩
          · exact Or.inl ⟨g1, g2, g3⟩
          · exact Or.inr ⟨g3.symm, rfl⟩
      · intro k; dsimp only; rw [h.regKey]; simp only [List.mem_append, List.mem_singleton]
        constructor
        · rintro ⟨m, g1, g2⟩; exact ⟨m, Or.inl g1, g2⟩
        · rintro ⟨m, g1 | rfl, g2⟩
          · exact ⟨m, g1, g2⟩
          · exact absurd g2.1 nr
      · intro k; dsimp only; rw [h.undKey]; simp only [List.mem_append, List.mem_singleton]
        constructor
        · rintro ⟨m, g1, g2⟩; exact ⟨m, Or.inl g1, g2⟩
        · rintro ⟨m, g1 | rfl, g2⟩
          · exact ⟨m, g1, g2⟩
          · exact absurd g2.1 nu
    · rw [if_neg h2]
      have nm : ¬ kMul b x := fun hk => h2 hk.2
      refine ⟨?_, ?_, ?_, ?_, ?_⟩
      · intro k m; dsimp only; rw [addTo_inMap, h.reg]; simp only [List.mem_append, List.mem_singleton]
        constructor
        · rintro (⟨g1, g2⟩ | ⟨rfl, rfl⟩)
          · exact ⟨Or.inl g1, g2⟩
          · exact ⟨Or.inr rfl, ⟨h1, h2⟩, rfl⟩
        · rintro ⟨g1 | rfl, g2, g3⟩
          · exact Or.inl ⟨g1, g2, g3⟩
          · exact Or.inr ⟨g3.symm, rfl⟩
      · intro k m; dsimp only; rw [h.und]; simp only [List.mem_append, List.mem_singleton]
        constructor
        · rintro ⟨g1, g2⟩; exact ⟨Or.inl g1, g2⟩
        · rintro ⟨g1 | rfl, g2⟩
          · exact ⟨g1, g2⟩
          · exact absurd g2.1 nu
      · intro k m; dsimp only; rw [h.mul]; simp only [List.mem_append, List.mem_singleton]
        constructor
        · rintro ⟨g1, g2⟩; exact ⟨Or.inl g1, g2⟩
        · rintro ⟨g1 | rfl, g2⟩
          · exact ⟨g1, g2⟩
          · exact absurd g2.1 nm
      · intro k; dsimp only; rw [addTo_hasKey, h.regKey]; simp only [List.mem_append, List.mem_singleton]
        constructor
        · rintro (⟨m, g1, g2⟩ | rfl)
          · exact ⟨m, Or.inl g1, g2⟩
          · exact ⟨x, Or.inr rfl, ⟨h1, h2⟩, rfl⟩
        · rintro ⟨m, g1 | rfl, g2, g3⟩
          · exact Or.inl ⟨m, g1, g2, g3⟩
          · exact Or.inr g3.symm
      · intro k; dsimp only; rw [h.undKey]; simp only [List.mem_append, List.mem_singleton]
        constructor
        · rintro ⟨m, g1, g2⟩; exact ⟨m, Or.inl g1, g2⟩
        · rintro ⟨m, g1 | rfl, g2⟩
          · exact ⟨m, g1, g2⟩
          · exact absurd g2.1 nu

theorem mapsOf_all (b : Languages) (l : List LMatch) : MapsOf b l (l.foldl (addMatch b) {}) := by
  have gen : ∀ (l l0 : List LMatch) (maps : LMaps), MapsOf b l0 maps → MapsOf b (l0 ++ l) (l.foldl (addMatch b) maps) := by
    intro l
    induction l with
    | nil => intro l0 maps h; simpa using h
    | cons x l ih =>
      intro l0 maps h
      have := ih (l0 ++ [x]) _ (mapsOf_step h x)
      simpa using this
  have h0 : MapsOf b [] {} := by
    refine ⟨?_, ?_, ?_, ?_, ?_⟩ <;> intros <;> simp [InMap, hasKey]
  simpa using gen l [] {} h0

theorem mem_flatMap_inMap (map : List (Str × List LMatch)) (p : Str → Bool) (m : LMatch) :
    (m ∈ map.flatMap fun e => if p e.1 = true then e.2 else []) ↔ ∃ k, InMap map k m ∧ p k = true := by
  simp only [List.mem_flatMap, InMap]
  constructor
  · rintro ⟨e, he, hm⟩
    by_cases hp : p e.1 = true
    · rw [if_pos hp] at hm; exact ⟨e.1, ⟨e, he, rfl, hm⟩, hp⟩
    · rw [if_neg hp] at hm; cases hm
  · rintro ⟨k, ⟨e, he, rfl, hm⟩, hp⟩
    exact ⟨e, he, by rw [if_pos hp]; exact hm⟩

/-- C48: exactly which candidates are reported.  A regular language always; an undetermined one iff no regular language
was found for the same property; the multiple-languages marker iff a regular language was found for the same property, or
no undetermined one was. -/
theorem C48_reported (u : Uni) (b : Languages) (f : LFinder) (input : Str) (x : LOut) :
    x ∈ findLanguages u b f input ↔ ∃ m ∈ languageMatches u b f input, x = toOut u b m ∧
      let regularFound := ∃ m' ∈ languageMatches u b f input, m'.prop = m.prop ∧ m'.lang ≠ b.und ∧ m'.lang ≠ b.mul
      let undFound := ∃ m' ∈ languageMatches u b f input, m'.prop = m.prop ∧ m'.lang = b.und
      ((m.lang ≠ b.und ∧ m.lang ≠ b.mul) ∨ (m.lang = b.und ∧ ¬ regularFound) ∨
       (m.lang ≠ b.und ∧ m.lang = b.mul ∧ (regularFound ∨ ¬ undFound))) := by
  have h := mapsOf_all b (languageMatches u b f input)
  simp only [findLanguages]
  generalize languageMatches u b f input = l at h
  generalize List.foldl (addMatch b) {} l = maps at h
  have hreg : ∀ k, hasKey maps.regular k = true ↔ ∃ m' ∈ l, m'.prop = k ∧ m'.lang ≠ b.und ∧ m'.lang ≠ b.mul := by
    intro k; rw [h.regKey]
    constructor <;> rintro ⟨m, g1, g2, g3⟩
    · exact ⟨m, g1, g3, g2⟩
    · exact ⟨m, g1, g3, g2⟩
  have hund : ∀ k, hasKey maps.undetermined k = true ↔ ∃ m' ∈ l, m'.prop = k ∧ m'.lang = b.und := by
    intro k; rw [h.undKey]
    constructor <;> rintro ⟨m, g1, g2, g3⟩
    · exact ⟨m, g1, g3, g2⟩
    · exact ⟨m, g1, g3, g2⟩
  have e1 : ∀ m, (m ∈ maps.multi.flatMap fun e => if (hasKey maps.regular e.1 || !hasKey maps.undetermined e.1) = true then e.2
      else []) ↔ ∃ k, InMap maps.multi k m ∧ (hasKey maps.regular k || !hasKey maps.undetermined k) = true :=
    mem_flatMap_inMap maps.multi (fun k => hasKey maps.regular k || !hasKey maps.undetermined k)
  have e2 : ∀ m, (m ∈ maps.undetermined.flatMap fun e => if (!hasKey maps.regular e.1) = true then e.2 else []) ↔
      ∃ k, InMap maps.undetermined k m ∧ (!hasKey maps.regular k) = true :=
    mem_flatMap_inMap maps.undetermined (fun k => !hasKey maps.regular k)
  have e3 : ∀ m, (m ∈ maps.regular.flatMap fun e => e.2) ↔ ∃ k, InMap maps.regular k m := by
    intro m
    simp only [List.mem_flatMap, InMap]
    constructor
    · rintro ⟨e, he, hm⟩; exact ⟨e.1, e, he, rfl, hm⟩
    · rintro ⟨k, e, he, _, hm⟩; exact ⟨e, he, hm⟩
  simp only [List.mem_map, List.mem_append, e1, e2, e3]
  simp only [h.reg, h.und, h.mul, Bool.or_eq_true, Bool.not_eq_true', ← Bool.not_eq_true, hreg, hund]
  constructor
  · rintro ⟨m, (⟨k, ⟨g1, ⟨g2, g3⟩, rfl⟩, g4⟩ | ⟨k, ⟨g1, g2, rfl⟩, g4⟩) | ⟨k, g1, g2, rfl⟩, rfl⟩
    · exact ⟨m, g1, rfl, Or.inr (Or.inr ⟨g2, g3, g4⟩)⟩
    · exact ⟨m, g1, rfl, Or.inr (Or.inl ⟨g2, g4⟩)⟩
    · exact ⟨m, g1, rfl, Or.inl g2⟩
  · rintro ⟨m, g1, rfl, g2 | ⟨g2, g3⟩ | ⟨g2, g3, g4⟩⟩
    · exact ⟨m, Or.inr ⟨m.prop, g1, g2, rfl⟩, rfl⟩
    · exact ⟨m, Or.inl (Or.inr ⟨m.prop, ⟨g1, g2, rfl⟩, g3⟩), rfl⟩
    · exact ⟨m, Or.inl (Or.inl ⟨m.prop, ⟨g1, ⟨g2, g3⟩, rfl⟩, g4⟩), rfl⟩

/-- C48: for one property, an undetermined language (reported as text, tagged weak) is never reported together with a
language, regular or multiple. -/
theorem C48_undetermined_alone (u : Uni) (b : Languages) (f : LFinder) (input : Str) (x y : LOut)
    (hx : x ∈ findLanguages u b f input) (hy : y ∈ findLanguages u b f input) (hn : x.name = y.name)
    (t : Str) (ht : x.value = .inr t) : ∃ t', y.value = .inr t' := by
  obtain ⟨m, hm, rfl, hc⟩ := (C48_reported u b f input x).1 hx
  obtain ⟨m', hm', rfl, hc'⟩ := (C48_reported u b f input y).1 hy
  have hund : m.lang = b.und := by
    by_contra h; simp [toOut, h] at ht
  have hprop : m.prop = m'.prop := by
    have e : ∀ m, (toOut u b m).name = m.prop := by intro m; unfold toOut; split <;> rfl
    rw [e, e] at hn; exact hn
  by_cases h' : m'.lang = b.und
  · exact ⟨u.lower m'.word.value, by simp [toOut, h']⟩
  · exfalso
    have hno : ¬ ∃ m' ∈ languageMatches u b f input, m'.prop = m.prop ∧ m'.lang ≠ b.und ∧ m'.lang ≠ b.mul := by
      rcases hc with hc | hc | hc
      · exact absurd hund hc.1
      · exact hc.2
      · exact absurd hund hc.1
    rcases hc' with hc' | hc' | ⟨_, _, hr | hu⟩
    · exact hno ⟨m', hm', hprop.symm, hc'⟩
    · exact h' hc'.1
    · obtain ⟨m2, g1, g2, g3⟩ := hr; exact hno ⟨m2, g1, by rw [g2, hprop], g3⟩
    · exact hu ⟨m, hm, hprop, hund⟩

/-! ## What a candidate looks like: C49, C56, and the property names -/

/-- A word object as the finder makes them from a base word. -/
def Base (input : Str) (w : LWord) : Prop := ∃ before, iterWords input = before ++ ((w.start, w.stop), w.value) :: w.next

theorem base_next {input : Str} {w n : LWord} (h : Base input w) (hn : w.nextWord = some n) : Base input n := by
  obtain ⟨before, h⟩ := h
  unfold LWord.nextWord at hn
  cases hw : w.next with
  | nil => rw [hw] at hn; cases hn
  | cons v rest =>
    rw [hw] at hn h; cases hn
    exact ⟨before ++ [((w.start, w.stop), w.value)], by simp [h]⟩

theorem base_word {input : Str} {w : LWord} (h : Base input w) : IsWholeWord input w.start w.stop := by
  obtain ⟨before, h⟩ := h
  exact ((C22_words_are_runs input w.start w.stop w.value).1 (by rw [h]; simp)).1

theorem base_span {input : Str} {w : LWord} (h : Base input w) : WordOrPair input w.start w.stop := Or.inl (base_word h)

theorem extended_span {input : Str} {w e : LWord} (h : Base input w) (he : w.extended input = some e) :
    WordOrPair input e.start e.stop := by
  unfold LWord.extended at he
  cases hn : w.nextWord with
  | none => rw [hn] at he; cases he
  | some n =>
    rw [hn] at he
    dsimp only at he
    split at he
    · rename_i hc
      cases he
      refine Or.inr ⟨w.stop, n.start, ?_⟩
      have : ∃ c, textOf input w.stop n.start = [c] ∧ (c = '-' ∨ c = ' ' ∨ c = '.') := by
        unfold textOf
        rcases hc with hc | hc | hc
        · exact ⟨'-', hc.1, by simp⟩
        · exact ⟨' ', hc, by simp⟩
        · exact ⟨'.', hc, by simp⟩
      obtain ⟨c, h1, h2⟩ := this
      exact ⟨c, base_word h, base_word (base_next h hn), h1, h2⟩
    · cases he

/-- What every candidate match satisfies. -/
structure Good (u : Uni) (b : Languages) (f : LFinder) (input : Str) (names : Str → Prop) (m : LMatch) : Prop where
  name : names m.prop
  span : WordOrPair input m.word.start m.word.stop
  lang : b.fromGuessit (u.lower m.word.value) = some m.lang
  allowed : (∃ n, b.name m.lang = some n ∧ u.lower n ∈ f.allowed) ∨ (∃ n, b.alpha2 m.lang = some n ∧ u.lower n ∈ f.allowed) ∨
    u.lower (b.alpha3 m.lang) ∈ f.allowed

theorem parse_good {u : Uni} {b : Languages} {f : LFinder} {w : Str} {l : Nat} (h : parseLanguage u b f w = some l) :
    b.fromGuessit w = some l ∧ ((∃ n, b.name l = some n ∧ u.lower n ∈ f.allowed) ∨
      (∃ n, b.alpha2 l = some n ∧ u.lower n ∈ f.allowed) ∨ u.lower (b.alpha3 l) ∈ f.allowed) := by
  unfold parseLanguage at h
  cases hg : b.fromGuessit w with
  | none => rw [hg] at h; cases h
  | some l' =>
    rw [hg] at h
    dsimp only at h
    split at h
    · rename_i hc
      cases h
      refine ⟨rfl, ?_⟩
      simp only [Bool.or_eq_true, Option.any_eq_true, List.contains_iff_mem] at hc
      rcases hc with (⟨n, h1, h2⟩ | ⟨n, h1, h2⟩) | hc
      · exact Or.inl ⟨n, h1, h2⟩
      · exact Or.inr (Or.inl ⟨n, h1, h2⟩)
      · exact Or.inr (Or.inr hc)
    · cases h

section
variable {u : Uni} {b : Languages} {f : LFinder} {input : Str} {names : Str → Prop}

theorem create_good {key : Str} {w : LWord} {m : LMatch} (hk : names key) (hs : WordOrPair input w.start w.stop)
    (h : createMatch u b f key w = some m) : Good u b f input names m := by
  unfold createMatch at h
  obtain ⟨l, hl, rfl⟩ := Option.map_eq_some_iff.1 h
  obtain ⟨h1, h2⟩ := parse_good hl
  exact ⟨hk, hs, h1, h2⟩

theorem findWord_good {key : Str} {w : LWord} {m : LMatch} (hk : names key) (hw : Base input w)
    (h : findWord u b f input key w = some m) : Good u b f input names m := by
  unfold findWord at h
  cases hx : (w.extended input).bind (createMatch u b f key) with
  | some m' =>
    rw [hx] at h; cases h
    obtain ⟨e, h1, h2⟩ := Option.bind_eq_some_iff.1 hx
    exact create_good hk (extended_span hw h1) h2
  | none => rw [hx] at h; exact create_good hk (base_span hw) h

theorem firstSome_some {α β : Type} {g : α → Option β} {l : List α} {y : β} (h : firstSome g l = some y) :
    ∃ a ∈ l, g a = some y := by
  induction l with
  | nil => cases h
  | cons a l ih =>
    simp only [firstSome] at h
    cases hg : g a with
    | some z => rw [hg] at h; cases h; exact ⟨a, by simp, hg⟩
    | none => rw [hg] at h; obtain ⟨x, hx, h'⟩ := ih h; exact ⟨x, by simp [hx], h'⟩

theorem affixMatch_good {isA : Str → Str → Bool} {st : Str → Str → Str} {word cur : LWord} {fb : Option LWord} {key part : Str}
    {m : LMatch} (hk : names key) (hc : WordOrPair input cur.start cur.stop) (hfb : ∀ w, fb = some w → Base input w)
    (h : affixMatch u b f input isA st word fb cur key part = some m) : Good u b f input names m := by
  unfold affixMatch at h
  dsimp only at h
  split at h
  · cases h
  · split at h
    · split at h
      · rename_i m' hm
        cases h
        cases fb with
        | none => cases hm
        | some w =>
          dsimp only at hm
          split at hm
          · exact findWord_good hk (hfb w rfl) hm
          · cases hm
      · split at h
        · cases h
        · exact create_good (w := ⟨cur.start, cur.stop, c!"und", []⟩) hk hc h
    · exact create_good (w := ⟨cur.start, cur.stop, _, []⟩) hk hc h

theorem findAffixed_good {affixes : List (Str × List Str)} {isA : Str → Str → Bool} {st : Str → Str → Str} {word : LWord}
    {fb : Option LWord} {m : LMatch} (hk : ∀ e ∈ affixes, names e.1) (hw : Base input word)
    (hfb : ∀ w, fb = some w → Base input w) (h : findAffixed u b f input affixes isA st word fb = some m) :
    Good u b f input names m := by
  unfold findAffixed at h
  obtain ⟨cur, h1, h2⟩ := firstSome_some h
  obtain ⟨e, h3, h4⟩ := firstSome_some h2
  obtain ⟨part, _, h6⟩ := firstSome_some h4
  refine affixMatch_good (hk e h3) ?_ hfb h6
  simp only [List.mem_append, Option.mem_toList, List.mem_singleton] at h1
  rcases h1 with h1 | rfl
  · exact extended_span hw h1
  · exact base_span hw

theorem candidate_good {w : LWord} (hp : ∀ e ∈ f.prefixes, names e.1) (hs : ∀ e ∈ f.suffixes, names e.1)
    (hl : names c!"language") (hw : Base input w) {m : LMatch} (h : m ∈ candidateMatches u b f input w) :
    Good u b f input names m := by
  unfold candidateMatches at h
  simp only [List.mem_append, Option.mem_toList] at h
  rcases h with (h | h) | h
  · exact findAffixed_good hp hw (fun n hn => base_next hw hn) h
  · obtain ⟨n, h1, h2⟩ := Option.bind_eq_some_iff.1 h
    exact findAffixed_good hs (base_next hw h1) (fun x hx => by cases hx; exact hw) h2
  · exact findWord_good hl hw h

theorem candidatesOf_base : ∀ (before ws : List ((Nat × Nat) × Str)), iterWords input = before ++ ws →
    ∀ w ∈ candidatesOf ws, Base input w := by
  intro before ws
  induction ws generalizing before with
  | nil => intro _ w hw; cases hw
  | cons x ws ih =>
    intro h w hw
    simp only [candidatesOf, List.mem_cons] at hw
    rcases hw with rfl | hw
    · exact ⟨before, h⟩
    · exact ih (before ++ [x]) (by simp [h]) w hw

theorem languageMatches_good (hp : ∀ e ∈ f.prefixes, names e.1) (hs : ∀ e ∈ f.suffixes, names e.1)
    (hl : names c!"language") {m : LMatch} (h : m ∈ languageMatches u b f input) : Good u b f input names m := by
  obtain ⟨w, h1, h2⟩ := List.mem_flatMap.1 h
  exact candidate_good hp hs hl (candidatesOf_base [] _ rfl w h1) h2
end

theorem out_good {u : Uni} {b : Languages} {f : LFinder} {input : Str} {names : Str → Prop} (hp : ∀ e ∈ f.prefixes, names e.1)
    (hs : ∀ e ∈ f.suffixes, names e.1) (hl : names c!"language") {x : LOut} (h : x ∈ findLanguages u b f input) :
    ∃ m, Good u b f input names m ∧ x = toOut u b m := by
  obtain ⟨m, hm, rfl, _⟩ := (C48_reported u b f input x).1 h
  exact ⟨m, languageMatches_good hp hs hl hm, rfl⟩

/-- C49: every reported language is allowed: its name or one of its codes is in the `allowed_languages` option, up to
case; an undetermined language is reported as the text that stands for it, and the undetermined language is allowed. -/
theorem C49_languages (u : Uni) (b : Languages) (allowedOption : List Str) (sd : Bool) (sp ss lp ls weak : List Str)
    (input : Str) (x : LOut) (hx : x ∈ findLanguages u b (mkFinder u allowedOption sd sp ss lp ls weak) input) :
    ∃ l, ((x.value = .inl l ∧ l ≠ b.und) ∨ (l = b.und ∧ ∃ t, x.value = .inr t ∧ b.fromGuessit t = some b.und)) ∧
      ∃ a ∈ allowedOption, (∃ n, b.name l = some n ∧ u.lower n = u.lower a) ∨ (∃ n, b.alpha2 l = some n ∧ u.lower n = u.lower a) ∨
        u.lower (b.alpha3 l) = u.lower a := by
  obtain ⟨m, hg, rfl⟩ := out_good (names := fun _ => True) (fun _ _ => trivial) (fun _ _ => trivial) trivial hx
  refine ⟨m.lang, ?_, ?_⟩
  · by_cases h : m.lang = b.und
    · exact Or.inr ⟨h, u.lower m.word.value, by simp [toOut, h], by rw [← h]; exact hg.lang⟩
    · exact Or.inl ⟨by simp [toOut, h], h⟩
  · have := hg.allowed
    simp only [mkFinder, List.mem_map] at this
    rcases this with ⟨n, h1, a, h2, h3⟩ | ⟨n, h1, a, h2, h3⟩ | ⟨a, h2, h3⟩
    · exact ⟨a, h2, Or.inl ⟨n, h1, h3.symm⟩⟩
    · exact ⟨a, h2, Or.inr (Or.inl ⟨n, h1, h3.symm⟩)⟩
    · exact ⟨a, h2, Or.inr (Or.inr h3.symm)⟩

/-- C56: every language span is a whole word of the input, or two successive words joined by one hyphen, space or dot. -/
theorem C56_whole_words (u : Uni) (b : Languages) (f : LFinder) (input : Str) (x : LOut) (hx : x ∈ findLanguages u b f input) :
    WordOrPair input x.start x.stop := by
  obtain ⟨m, hg, rfl⟩ := out_good (names := fun _ => True) (fun _ _ => trivial) (fun _ _ => trivial) trivial hx
  have := hg.span
  unfold toOut; split <;> exact this

/-- C56: the only properties the finder reports are `language` and, unless it is disabled, `subtitle_language`. -/
theorem C56_names (u : Uni) (b : Languages) (allowedOption : List Str) (sd : Bool) (sp ss lp ls weak : List Str)
    (input : Str) (x : LOut) (hx : x ∈ findLanguages u b (mkFinder u allowedOption sd sp ss lp ls weak) input) :
    x.name = c!"language" ∨ (x.name = c!"subtitle_language" ∧ sd = false) := by
  obtain ⟨m, hg, rfl⟩ := out_good (names := fun n => n = c!"language" ∨ (n = c!"subtitle_language" ∧ sd = false))
    (by cases sd <;> simp [mkFinder]) (by cases sd <;> simp [mkFinder]) (Or.inl rfl) hx
  have := hg.name
  unfold toOut; split <;> exact this

/-! ## Countries: C47, C49 -/

/-- `lower` on characters: idempotent, and it neither creates nor removes separators. -/
structure NiceLower (u : Uni) (lc : Char → Char) : Prop extends Charwise u lc where
  idem : ∀ c, lc (lc c) = lc c
  seps : ∀ c, lc c ∈ seps ↔ c ∈ Guessit.seps

theorem dropWhile_id {p : Char → Bool} {s : Str} (h : ∀ c, s.head? = some c → p c = false) : s.dropWhile p = s := by
  cases s with
  | nil => rfl
  | cons c s => rw [List.dropWhile_cons, h c rfl]; rfl

theorem strip_id {u : Uni} {s : Str} (h : ∀ c, s.head? = some c → u.space c = false)
    (h' : ∀ c, s.getLast? = some c → u.space c = false) : u.strip s = s := by
  unfold Uni.strip
  rw [dropWhile_id h, dropWhile_id (by rw [List.head?_reverse]; exact h'), List.reverse_reverse]

theorem isWord_map {lc : Char → Char} (h : ∀ c, lc c ∈ seps ↔ c ∈ seps) (s : Str) (a b : Nat) :
    IsWholeWord (s.map lc) a b ↔ IsWholeWord s a b := by
  constructor
  · rintro ⟨h1, h2, h3, h4, h5⟩
    refine ⟨h1, by simpa using h2, ?_, ?_, ?_⟩
    · intro i c g1 g2 g3
      have := h3 i (lc c) g1 g2 (by simp [g3])
      rwa [h] at this
    · intro c g1 g2
      have := h4 (lc c) g1 (by simp [g2])
      rwa [h] at this
    · intro c g2
      have := h5 (lc c) (by simp [g2])
      rwa [h] at this
  · rintro ⟨h1, h2, h3, h4, h5⟩
    refine ⟨h1, by simpa using h2, ?_, ?_, ?_⟩
    · intro i c g1 g2 g3
      rw [List.getElem?_map] at g3
      obtain ⟨d, hd, rfl⟩ := Option.map_eq_some_iff.1 g3
      rw [h]; exact h3 i d g1 g2 hd
    · intro c g1 g2
      rw [List.getElem?_map] at g2
      obtain ⟨d, hd, rfl⟩ := Option.map_eq_some_iff.1 g2
      rw [h]; exact h4 d g1 hd
    · intro c g2
      rw [List.getElem?_map] at g2
      obtain ⟨d, hd, rfl⟩ := Option.map_eq_some_iff.1 g2
      rw [h]; exact h5 d hd

/-- C47: for an input that neither begins nor ends with white space, the reported countries are exactly the words of the
input that are no common words and name an allowed country, and the spans are those of the words. -/
theorem C47_exact_partial (u : Uni) (lc : Char → Char) (hu : NiceLower u lc) (b : Countries) (allowed common : List Str) (input : Str)
    (hl : ∀ c, input.head? = some c → u.space c = false) (hr : ∀ c, input.getLast? = some c → u.space c = false)
    (i j : Nat) (c : Nat) :
    (i, j, c) ∈ findCountries u b allowed common input ↔
      IsWholeWord input i j ∧ b.fromGuessit (u.lower (textOf input i j)) = some c ∧ u.lower (textOf input i j) ∉ common ∧
        ∃ a ∈ allowed, u.lower (b.name c) = u.lower a ∨ u.lower (b.alpha2 c) = u.lower a := by
  unfold findCountries
  rw [strip_id hl hr]
  have hlow : ∀ s, u.lower s = s.map lc := hu.lower
  have hidem : ∀ s, u.lower (u.lower s) = u.lower s := by
    intro s; rw [hlow, hlow, List.map_map]; apply List.map_congr_left; intro c _; exact hu.idem c
  have htext : textOf (u.lower input) i j = u.lower (textOf input i j) := by
    rw [hlow, hlow]; simp [textOf, List.map_drop, List.map_take]
  have hall : ((allowed.map u.lower).contains (u.lower (b.name c)) || (allowed.map u.lower).contains (u.lower (b.alpha2 c))) = true ↔
      ∃ a ∈ allowed, u.lower (b.name c) = u.lower a ∨ u.lower (b.alpha2 c) = u.lower a := by
    simp only [Bool.or_eq_true, List.contains_iff_mem, List.mem_map]
    constructor
    · rintro (⟨a, h1, h2⟩ | ⟨a, h1, h2⟩)
      · exact ⟨a, h1, Or.inl h2.symm⟩
      · exact ⟨a, h1, Or.inr h2.symm⟩
    · rintro ⟨a, h1, h2 | h2⟩
      · exact Or.inl ⟨a, h1, h2.symm⟩
      · exact Or.inr ⟨a, h1, h2.symm⟩
  rw [List.mem_filterMap]
  constructor
  · rintro ⟨⟨⟨i', j'⟩, w⟩, hw, h⟩
    obtain ⟨h1, rfl⟩ := (C22_words_are_runs _ _ _ _).1 hw
    dsimp only at h
    split at h
    · cases h
    · rename_i hcw
      split at h
      · cases h
      · rename_i c' hc'
        split at h
        · rename_i hal
          cases h
          rw [htext] at hcw hc'
          rw [hidem] at hcw
          have h1' : IsWholeWord input i j := (isWord_map hu.seps input i j).1 (by rw [← hlow]; exact h1)
          exact ⟨h1', hc', by simpa using hcw, hall.1 hal⟩
        · cases h
  · rintro ⟨h1, h2, h3, h4⟩
    refine ⟨((i, j), textOf (u.lower input) i j), (C22_words_are_runs _ _ _ _).2
      ⟨by rw [hlow]; exact (isWord_map hu.seps input i j).2 h1, rfl⟩, ?_⟩
    dsimp only
    rw [htext, hidem, if_neg (by simpa using h3), h2]
    dsimp only
    rw [if_pos (hall.2 h4)]

/-- C47 is false in general: white space at the beginning of the input is removed before the words are located, so the
span is shifted. -/
theorem C47_counterexample_leading_space :
    ∃ (u : Uni) (lc : Char → Char) (b : Countries), NiceLower u lc ∧
      findCountries u b [c!"us"] [] c!" us" = [(0, 2, 7)] ∧ textOf c!" us" 0 2 = c!" u" := by
  refine ⟨⟨fun _ => none, fun c => c == ' ', id, id⟩, id,
    ⟨fun s => if s = c!"us" then some 7 else none, fun _ => c!"united states", fun _ => c!"us"⟩,
    ⟨⟨by simp, rfl⟩, by simp, by simp⟩, ?_, ?_⟩
  · decide +kernel
  · decide

/-- C49: every reported country is allowed, up to case. -/
theorem C49_countries (u : Uni) (b : Countries) (allowed common : List Str) (input : Str) (i j c : Nat)
    (h : (i, j, c) ∈ findCountries u b allowed common input) :
    ∃ a ∈ allowed, u.lower (b.name c) = u.lower a ∨ u.lower (b.alpha2 c) = u.lower a := by
  obtain ⟨w, hw, h⟩ := List.mem_filterMap.1 h
  split at h
  · cases h
  · split at h
    · cases h
    · split at h
      · rename_i hal
        cases h
        simp only [Bool.or_eq_true, List.contains_iff_mem, List.mem_map] at hal
        rcases hal with ⟨a, h1, h2⟩ | ⟨a, h1, h2⟩
        · exact ⟨a, h1, Or.inl h2.symm⟩
        · exact ⟨a, h1, Or.inr h2.symm⟩
      · cases h

/-! A concrete case. -/

def sampleLanguages : Languages :=
  { fromGuessit := fun s => if s = c!"fr" then some 1 else if s = c!"und" then some 0 else if s = c!"multi" then some 9 else none
    name := fun _ => none, alpha2 := fun _ => none
    alpha3 := fun n => if n = 1 then c!"fra" else if n = 9 then c!"mul" else c!"und", und := 0, mul := 9 }

def sampleFinder : LFinder :=
  mkFinder ⟨fun _ => none, fun _ => false, id, id⟩ [c!"fra", c!"und", c!"mul"] false [c!"st"] [c!"sub"] [c!"true"] [c!"audio"] []

def sampleUni : Uni := ⟨fun _ => none, fun _ => false, id, id⟩

example : findLanguages sampleUni sampleLanguages sampleFinder c!"x.frsub.multi" =
    [⟨8, 13, c!"language", .inl 9, []⟩, ⟨2, 7, c!"subtitle_language", .inl 1, []⟩] := by decide +kernel
example : findLanguages sampleUni sampleLanguages sampleFinder c!"x.sub.y" =
    [⟨2, 5, c!"subtitle_language", .inr c!"und", [c!"weak-language"]⟩] := by decide +kernel

end Guessit
