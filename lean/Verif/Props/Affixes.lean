import Verif.Props.Language

/-! # C61: how the words around a language are read -/

namespace Guessit
open Spec

namespace Spec

/-- The text of a unit: a word as it stands, two joined words with a space for a dot. -/
inductive UnitText (s : Str) : Nat → Nat → Str → Prop
  | word {a b : Nat} : IsWholeWord s a b → UnitText s a b (textOf s a b)
  | pair {a m n b : Nat} {c : Char} : IsWholeWord s a m → IsWholeWord s n b → textOf s m n = [c] → (c = '-' ∨ c = ' ' ∨ c = '.') →
      UnitText s a b ((textOf s a b).map fun x => if x = '.' then ' ' else x)

/-- How a language can be read at `[a, b)` of the text, and under which property name:
* the unit itself names the language;
* the unit is an affix followed (prefix) or preceded (suffix) by the name of the language;
* the unit is next to a word which is an affix: exactly one character separates the two words;
* the unit is just an affix, not a weak one: the language is undetermined. -/
inductive LangReading (lower : Str → Str) (lang : Str → Option Nat) (prefixes suffixes : List (Str × List Str)) (weak : List Str)
    (s : Str) : Str → Nat → Nat → Nat → Prop
  | itself {a b t l} : UnitText s a b t → lang (lower t) = some l → LangReading lower lang prefixes suffixes weak s c!"language" a b l
  | prefixed {name parts part a b t rest l} : (name, parts) ∈ prefixes → part ∈ parts → UnitText s a b t → lower t = part ++ rest →
      rest ≠ [] → lang (lower rest) = some l → LangReading lower lang prefixes suffixes weak s name a b l
  | suffixed {name parts part a b t rest l} : (name, parts) ∈ suffixes → part ∈ parts → UnitText s a b t → lower t = rest ++ part →
      rest ≠ [] → lang (lower rest) = some l → LangReading lower lang prefixes suffixes weak s name a b l
  | after {name parts part a m d e t b t' l} : (name, parts) ∈ prefixes → part ∈ parts → IsWholeWord s a m →
      IsWholeWord s (m + 1) d → UnitText s a e t → lower t = part → UnitText s (m + 1) b t' → lang (lower t') = some l →
      LangReading lower lang prefixes suffixes weak s name (m + 1) b l
  | before {name parts part a m d e t b t' l} : (name, parts) ∈ suffixes → part ∈ parts → IsWholeWord s a m →
      IsWholeWord s (m + 1) d → UnitText s (m + 1) e t → lower t = part → UnitText s a b t' → lang (lower t') = some l →
      LangReading lower lang prefixes suffixes weak s name a b l
  | affix {name parts part a b t l} : (name, parts) ∈ prefixes ++ suffixes → part ∈ parts → part ∉ weak → UnitText s a b t →
      lower t = part → lang (lower c!"und") = some l → LangReading lower lang prefixes suffixes weak s name a b l

end Spec

theorem base_value {input : Str} {w : LWord} (h : Base input w) : w.value = textOf input w.start w.stop := by
  obtain ⟨before, h⟩ := h
  exact ((C22_words_are_runs input w.start w.stop w.value).1 (by rw [h]; simp)).2

theorem base_unit {input : Str} {w : LWord} (h : Base input w) : UnitText input w.start w.stop w.value := by
  rw [base_value h]; exact .word (base_word h)

theorem base_order {input : Str} {w n : LWord} (h : Base input w) (hn : w.nextWord = some n) : w.stop < n.start := by
  obtain ⟨before, h⟩ := h
  unfold LWord.nextWord at hn
  have ho := C22_words_in_order input
  cases hw : w.next with
  | nil => rw [hw] at hn; cases hn
  | cons v rest =>
    rw [hw] at hn h; cases hn
    rw [h, List.pairwise_append] at ho
    exact (List.pairwise_cons.1 ho.2.1).1 v (by simp)

theorem base_nonempty {input : Str} {w : LWord} (h : Base input w) : w.start < w.stop := (base_word h).1

theorem extended_unit {input : Str} {w e : LWord} (h : Base input w) (he : w.extended input = some e) :
    UnitText input e.start e.stop e.value ∧ e.start = w.start := by
  unfold LWord.extended at he
  cases hn : w.nextWord with
  | none => rw [hn] at he; cases he
  | some n =>
    rw [hn] at he
    dsimp only at he
    split at he
    · rename_i hc
      cases he
      have : ∃ c, textOf input w.stop n.start = [c] ∧ (c = '-' ∨ c = ' ' ∨ c = '.') := by
        unfold textOf
        rcases hc with hc | hc | hc
        · exact ⟨'-', hc.1, by simp⟩
        · exact ⟨' ', hc, by simp⟩
        · exact ⟨'.', hc, by simp⟩
      obtain ⟨c, h1, h2⟩ := this
      have hu := UnitText.pair (s := input) (base_word h) (base_word (base_next h hn)) h1 h2
      exact ⟨hu, rfl⟩
    · cases he

/-- The units the finder considers for a word. -/
theorem unit_of {input : Str} {word cur : LWord} (hw : Base input word) (h : cur ∈ (word.extended input).toList ++ [word]) :
    UnitText input cur.start cur.stop cur.value ∧ cur.start = word.start := by
  simp only [List.mem_append, Option.mem_toList, List.mem_singleton] at h
  rcases h with h | rfl
  · exact extended_unit hw h
  · exact ⟨base_unit hw, rfl⟩

section
variable {u : Uni} {b : Languages} {f : LFinder} {input : Str}

theorem create_lang {key : Str} {w : LWord} {m : LMatch} (h : createMatch u b f key w = some m) :
    m.prop = key ∧ m.word = w ∧ b.fromGuessit (u.lower w.value) = some m.lang := by
  unfold createMatch at h
  obtain ⟨l, hl, rfl⟩ := Option.map_eq_some_iff.1 h
  exact ⟨rfl, rfl, (parse_good hl).1⟩

theorem findWord_unit {key : Str} {w : LWord} {m : LMatch} (hw : Base input w) (h : findWord u b f input key w = some m) :
    m.prop = key ∧ m.word.start = w.start ∧ ∃ t, UnitText input m.word.start m.word.stop t ∧
      b.fromGuessit (u.lower t) = some m.lang := by
  unfold findWord at h
  cases hx : (w.extended input).bind (createMatch u b f key) with
  | some m' =>
    rw [hx] at h; cases h
    obtain ⟨e, h1, h2⟩ := Option.bind_eq_some_iff.1 hx
    obtain ⟨g1, rfl, g3⟩ := create_lang h2
    obtain ⟨k1, k2⟩ := extended_unit hw h1
    exact ⟨g1, k2, _, k1, g3⟩
  | none =>
    rw [hx] at h
    obtain ⟨g1, rfl, g3⟩ := create_lang h
    exact ⟨g1, rfl, _, base_unit hw, g3⟩

/-- The result for one affix. -/
theorem affixMatch_cases {isA : Str → Str → Bool} {st : Str → Str → Str} {word cur : LWord} {fb : Option LWord} {key part : Str}
    {m : LMatch} (h : affixMatch u b f input isA st word fb cur key part = some m) :
    isA (u.lower cur.value) part = true ∧
    ((st (u.lower cur.value) part ≠ [] ∧ m.prop = key ∧ m.word.start = cur.start ∧ m.word.stop = cur.stop ∧
        b.fromGuessit (u.lower (st (u.lower cur.value) part)) = some m.lang) ∨
     (st (u.lower cur.value) part = [] ∧ ∃ w, fb = some w ∧ (near w.start word.stop = true ∨ near word.start w.stop = true) ∧
        findWord u b f input key w = some m) ∨
     (st (u.lower cur.value) part = [] ∧ part ∉ f.weak ∧ m.prop = key ∧ m.word.start = cur.start ∧ m.word.stop = cur.stop ∧
        b.fromGuessit (u.lower c!"und") = some m.lang)) := by
  unfold affixMatch at h
  dsimp only at h
  split at h
  · cases h
  · rename_i hA
    refine ⟨by simpa using hA, ?_⟩
    split at h
    · rename_i hv
      split at h
      · rename_i m' hm
        cases h
        cases fb with
        | none => cases hm
        | some w =>
          dsimp only at hm
          split at hm
          · rename_i hn
            simp only [Bool.or_eq_true] at hn
            exact Or.inr (Or.inl ⟨hv, w, rfl, hn, hm⟩)
          · cases hm
      · split at h
        · cases h
        · rename_i hw
          obtain ⟨g1, g2, g3⟩ := create_lang h
          exact Or.inr (Or.inr ⟨hv, by simpa using hw, g1, by rw [g2], by rw [g2], g3⟩)
    · rename_i hv
      obtain ⟨g1, g2, g3⟩ := create_lang h
      exact Or.inl ⟨hv, g1, by rw [g2], by rw [g2], g3⟩

theorem findAffixed_cases {affixes : List (Str × List Str)} {isA : Str → Str → Bool} {st : Str → Str → Str} {word : LWord}
    {fb : Option LWord} {m : LMatch} (hw : Base input word) (h : findAffixed u b f input affixes isA st word fb = some m) :
    ∃ cur name parts part, UnitText input cur.start cur.stop cur.value ∧ cur.start = word.start ∧ (name, parts) ∈ affixes ∧
      part ∈ parts ∧ affixMatch u b f input isA st word fb cur name part = some m := by
  unfold findAffixed at h
  obtain ⟨cur, h1, h2⟩ := firstSome_some h
  obtain ⟨e, h3, h4⟩ := firstSome_some h2
  obtain ⟨part, h5, h6⟩ := firstSome_some h4
  obtain ⟨k1, k2⟩ := unit_of hw h1
  exact ⟨cur, e.1, e.2, part, k1, k2, h3, h5, h6⟩

theorem near_next {a b c d : Nat} (h : near c b = true ∨ near a d = true) (h1 : b < c) (h2 : a < b) (h3 : c < d) : c = b + 1 := by
  unfold near at h
  simp only [Bool.and_eq_true, decide_eq_true_eq] at h
  omega

/-- C61: every language the finder reports can be read off the text in one of the documented ways; in particular an affix on
its own applies only to the word exactly one character away, and the language named by a word with an affix is what remains
of that word. -/
theorem C61_readings (u : Uni) (b : Languages) (f : LFinder) (input : Str) (m : LMatch) (h : m ∈ languageMatches u b f input) :
    LangReading u.lower b.fromGuessit f.prefixes f.suffixes f.weak input m.prop m.word.start m.word.stop m.lang := by
  obtain ⟨w, h1, h2⟩ := List.mem_flatMap.1 h
  have hw : Base input w := candidatesOf_base [] _ rfl w h1
  unfold candidateMatches at h2
  simp only [List.mem_append, Option.mem_toList] at h2
  rcases h2 with (h2 | h2) | h2
  · obtain ⟨cur, name, parts, part, k1, k2, k3, k4, k5⟩ := findAffixed_cases hw h2
    obtain ⟨hA, hc⟩ := affixMatch_cases k5
    obtain ⟨rest, hrest⟩ := List.isPrefixOf_iff_prefix.1 hA
    have hst : List.drop part.length (u.lower cur.value) = rest := by rw [← hrest]; simp
    rw [hst] at hc
    rcases hc with ⟨g1, rfl, g3, g4, g5⟩ | ⟨g1, n, g2, g3, g4⟩ | ⟨g1, g2, rfl, g4, g5, g6⟩
    · rw [g3, g4]
      exact .prefixed k3 k4 k1 hrest.symm g1 g5
    · have hn := base_next hw g2
      have hpos : n.start = w.stop + 1 := near_next g3 (base_order hw g2) (base_nonempty hw) (base_nonempty hn)
      obtain ⟨rfl, e2, t, e3, e4⟩ := findWord_unit hn g4
      rw [e2] at e3 ⊢
      rw [hpos] at e3 ⊢
      rw [k2] at k1
      rw [g1, List.append_nil] at hrest
      exact .after k3 k4 (base_word hw) (hpos ▸ base_word hn) k1 hrest.symm e3 e4
    · rw [g4, g5]
      rw [g1, List.append_nil] at hrest
      exact .affix (List.mem_append_left _ k3) k4 g2 k1 hrest.symm g6
  · obtain ⟨n, hn', h2⟩ := Option.bind_eq_some_iff.1 h2
    have hn := base_next hw hn'
    obtain ⟨cur, name, parts, part, k1, k2, k3, k4, k5⟩ := findAffixed_cases hn h2
    obtain ⟨hA, hc⟩ := affixMatch_cases k5
    obtain ⟨rest, hrest⟩ := List.isSuffixOf_iff_suffix.1 hA
    have hst : List.take ((u.lower cur.value).length - part.length) (u.lower cur.value) = rest := by rw [← hrest]; simp
    rw [hst] at hc
    rcases hc with ⟨g1, rfl, g3, g4, g5⟩ | ⟨g1, x, g2, g3, g4⟩ | ⟨g1, g2, rfl, g4, g5, g6⟩
    · rw [g3, g4]
      exact .suffixed k3 k4 k1 hrest.symm g1 g5
    · cases g2
      have hpos : n.start = w.stop + 1 := near_next g3.symm (base_order hw hn') (base_nonempty hw) (base_nonempty hn)
      obtain ⟨rfl, e2, t, e3, e4⟩ := findWord_unit hw g4
      rw [e2] at e3 ⊢
      rw [k2, hpos] at k1
      rw [g1, List.nil_append] at hrest
      exact .before k3 k4 (base_word hw) (hpos ▸ base_word hn) k1 hrest.symm e3 e4
    · rw [g4, g5]
      rw [g1, List.nil_append] at hrest
      exact .affix (List.mem_append_right _ k3) k4 g2 k1 hrest.symm g6
  · obtain ⟨e1, _, t, e3, e4⟩ := findWord_unit hw h2
    rw [e1]
    exact .itself e3 e4

end

/-- C61, on what is reported. -/
theorem C61_reported (u : Uni) (b : Languages) (f : LFinder) (input : Str) (x : LOut) (h : x ∈ findLanguages u b f input) :
    ∃ l, LangReading u.lower b.fromGuessit f.prefixes f.suffixes f.weak input x.name x.start x.stop l ∧
      (x.value = .inl l ∨ l = b.und) := by
  obtain ⟨m, hm, rfl, _⟩ := (C48_reported u b f input x).1 h
  refine ⟨m.lang, ?_, ?_⟩
  · have := C61_readings u b f input m hm
    unfold toOut
    split <;> exact this
  · by_cases hu : m.lang = b.und
    · exact Or.inr hu
    · exact Or.inl (by simp [toOut, hu])

/-- Witness: `sub.fr` with the prefix `sub` is the subtitle language 1 of the word `fr`, one character away. -/
example :
    let u : Uni := ⟨fun _ => none, fun _ => false, id, id⟩
    let b : Languages := ⟨fun s => if s = c!"fr" then some 1 else none, fun _ => some c!"french", fun _ => none, fun _ => c!"fra", 0, 9⟩
    let f : LFinder := ⟨[c!"french"], [], [(c!"subtitle_language", [c!"sub"])], []⟩
    (findLanguages u b f c!"x sub.fr").map (fun o => (o.name, o.start, o.stop)) =
      [(c!"subtitle_language", 6, 8), (c!"language", 6, 8)] := by decide +kernel

end Guessit
