import Verif.Props.Phrases

/-! # Tables of words and phrases: what is found -/

namespace Guessit
open Spec Re

/-- How a symbol is written in a vocabulary. -/
def Sym.code : Sym → Char
  | .lit c => c
  | .dash => ' '
  | .any => '*'
  | .digit => '#'

/-- The same place. -/
def samePlace : Check → Place → Bool
  | .apart, .apart => true
  | .none, .anywhere => true
  | .after, .before => true
  | _, _ => false

/-- The vocabulary lists the ways to write the expressions. -/
def phrasesAgree : List Str → List (List Str) → Bool
  | [], [] => true
  | t :: ts, ps :: pss => (match parsePhrase t with
    | some p => p.spellings.map (·.map Sym.code) == ps && regular p.spellings && longestFirst p.spellings
    | none => false) && phrasesAgree ts pss
  | _, _ => false

/-- An entry of a table and one of a vocabulary say the same. -/
def agrees (e : PhraseEntry) (v : Listed) : Bool :=
  e.values == v.values && e.strings == v.words && samePlace e.check v.place && phrasesAgree e.regexes v.phrases && v.words.all fun w => !w.isEmpty && w.all fun c => decide (c.toNat < 128)

/-- A table and a vocabulary say the same. -/
def agreeAll : List PhraseEntry → List Listed → Bool
  | [], [] => true
  | e :: es, v :: vs => agrees e v && agreeAll es vs
  | _, _ => false

/-- The words are no part of each other's way. -/
def aloneWord (place : Place) (w : Str) : Bool := (List.range w.length).all fun k => k == 0 || (place == .apart && !((w[k - 1]?).any fun c => seps.contains c)) ||
  (List.zip (w.drop k) w).any fun x => x.1.toLower != x.2.toLower

/-- No two ways to write may overlap. -/
def separate (L : List (List Sym)) : Bool :=
  (L.all fun v => (List.range v.length).all fun k => k == 0 || L.all fun w => !meetAll (v.drop k) w) &&
  L.all fun v => L.all fun w => !(decide (v.length < w.length) && meetAll v w)

/-- Nothing of an entry is in the way of anything else of it. -/
def clearEntry (e : PhraseEntry) (v : Listed) : Bool := v.words.all (aloneWord v.place) && e.regexes.all fun t => match parsePhrase t with
  | some p => if v.place == .apart then discrete p.spellings else separate p.spellings
  | none => false

section
variable {E : RxEnv} {s : Str}

theorem stands_code (hE : Usual E) {x : Sym} (hx : x.plain = true) {c : Char} : Stands E x.code c ↔ x.is E c = true := by
  cases x with
  | lit a =>
    have : ∀ l ∈ c!"abcdefghijklmnopqrstuvwxyz0123456789'&", l ≠ ' ' ∧ l ≠ '#' ∧ l ≠ '*' := by decide
    obtain ⟨h1, h2, h3⟩ := this a (List.contains_iff_mem.1 hx)
    simp [Stands, Sym.code, Sym.is, h1, h2, h3]
  | dash => rw [dash_is, Sym.code, Stands, if_pos rfl, ← C134_separators]
  | any => simp [Stands, Sym.code, Sym.is]
  | digit => simp [Stands, Sym.code, Sym.is, Digit]

theorem phrase_at (hE : Usual E) {w : List Sym} (hw : ∀ x ∈ w, x.plain = true) {i : Nat} : PhraseAt E s (w.map Sym.code) i ↔ symsAt E s w i = true := by
  rw [symsAt_iff, PhraseAt]
  constructor
  · intro h k x hk
    obtain ⟨c, h1, h2⟩ := h k x.code (by rw [List.getElem?_map, hk]; rfl)
    exact ⟨c, h1, (stands_code hE (hw x (List.mem_of_getElem? hk))).1 h2⟩
  · intro h k l hk
    rw [List.getElem?_map, Option.map_eq_some_iff] at hk
    obtain ⟨x, h1, rfl⟩ := hk
    obtain ⟨c, h2, h3⟩ := h k x h1
    exact ⟨c, h2, (stands_code hE (hw x (List.mem_of_getElem? h1))).2 h3⟩

theorem freeAfter_iff {j : Nat} : charsAfter seps s j = true ↔ FreeAfter s j := by
  unfold charsAfter FreeAfter CharAt
  by_cases h : j ≥ s.length
  · simp [h]
  · rw [if_neg h, any_contains]; simp only [show ¬ s.length ≤ j from h, false_or]

theorem place_ok {V : Type} {k : Check} {p : Place} (h : samePlace k p = true) {m : RxMatch V} : k.ok s m = true ↔ p.Holds s m.start m.stop := by
  cases k <;> cases p <;> simp only [samePlace, Bool.false_eq_true] at h <;> simp only [Check.ok, Place.Holds, surrounded, standing_iff]
  exact freeAfter_iff

theorem mem_phrase {e : PhraseEntry} {name : Str} {p : Phrase} {m : RxMatch (List Str)} : m ∈ (e.pattern E name p).found s ↔
    ∃ h ∈ (p.re E).hits s, e.check.ok s m = true ∧ m = ⟨name, h.start, h.stop, .ok e.values⟩ := by
  rw [mem_found]
  constructor
  · rintro ⟨h, h1, h2, h3⟩
    rw [show (e.pattern E name p).children = false from rfl, if_neg (by simp), List.mem_singleton] at h3
    rw [show (e.pattern E name p).parent s h = ⟨name, h.start, h.stop, .ok e.values⟩ from rfl] at h3
    refine ⟨h, h1, ?_, h3⟩
    rw [h3]
    have : ((false && !false || e.check.ok s (⟨name, h.start, h.stop, .ok e.values⟩ : RxMatch (List Str))) && ((!false && !false) || ((e.pattern E name p).kids s h).all ((e.pattern E name p).childValid s))) = true := h2
    simpa using this
  · rintro ⟨h, h1, h2, rfl⟩
    refine ⟨h, h1, ?_, by simp [PhraseEntry.pattern, RxPattern.parent]⟩
    have : ((false && !false || e.check.ok s (⟨name, h.start, h.stop, .ok e.values⟩ : RxMatch (List Str))) && ((!false && !false) || ((e.pattern E name p).kids s h).all ((e.pattern E name p).childValid s))) = true := by
      simp [h2]
    exact this

theorem agree_phrases {ts : List Str} : ∀ {pss : List (List Str)}, phrasesAgree ts pss = true →
    (∀ t ∈ ts, ∃ p, parsePhrase t = some p ∧ p.spellings.map (·.map Sym.code) ∈ pss ∧ regular p.spellings = true ∧ longestFirst p.spellings = true) ∧
    ∀ ps ∈ pss, ∃ t ∈ ts, ∃ p, parsePhrase t = some p ∧ p.spellings.map (·.map Sym.code) = ps ∧ regular p.spellings = true ∧ longestFirst p.spellings = true := by
  induction ts with
  | nil =>
    intro pss h
    cases pss with
    | nil => simp
    | cons => simp [phrasesAgree] at h
  | cons t ts ih =>
    intro pss h
    cases pss with
    | nil => simp [phrasesAgree] at h
    | cons ps pss =>
      rw [phrasesAgree, Bool.and_eq_true] at h
      obtain ⟨h1, h2⟩ := h
      obtain ⟨g1, g2⟩ := ih h2
      cases hp : parsePhrase t with
      | none => rw [hp] at h1; cases h1
      | some p =>
        rw [hp] at h1
        simp only [Bool.and_eq_true, beq_iff_eq] at h1
        obtain ⟨⟨h3, h4⟩, h5⟩ := h1
        constructor
        · intro t' ht'
          rcases List.mem_cons.1 ht' with rfl | ht'
          · exact ⟨p, hp, by rw [h3]; exact List.mem_cons_self .., h4, h5⟩
          · obtain ⟨p', k1, k2, k3⟩ := g1 t' ht'
            exact ⟨p', k1, List.mem_cons_of_mem _ k2, k3⟩
        · intro ps' hps'
          rcases List.mem_cons.1 hps' with rfl | hps'
          · exact ⟨t, List.mem_cons_self .., p, hp, h3, h4, h5⟩
          · obtain ⟨t', k1, k2⟩ := g2 ps' hps'
            exact ⟨t', List.mem_cons_of_mem _ k1, k2⟩

theorem agree_entries {es : List PhraseEntry} : ∀ {vs : List Listed}, agreeAll es vs = true → (∀ e ∈ es, ∃ v ∈ vs, agrees e v = true) ∧ ∀ v ∈ vs, ∃ e ∈ es, agrees e v = true := by
  induction es with
  | nil =>
    intro vs h
    cases vs with
    | nil => simp
    | cons => simp [agreeAll] at h
  | cons e es ih =>
    intro vs h
    cases vs with
    | nil => simp [agreeAll] at h
    | cons v vs =>
      rw [agreeAll, Bool.and_eq_true] at h
      obtain ⟨g1, g2⟩ := ih h.2
      constructor
      · intro e' he'
        rcases List.mem_cons.1 he' with rfl | he'
        · exact ⟨v, List.mem_cons_self .., h.1⟩
        · obtain ⟨v', k1, k2⟩ := g1 e' he'
          exact ⟨v', List.mem_cons_of_mem _ k1, k2⟩
      · intro v' hv'
        rcases List.mem_cons.1 hv' with rfl | hv'
        · exact ⟨e, List.mem_cons_self .., h.1⟩
        · obtain ⟨e', k1, k2⟩ := g2 v' hv'
          exact ⟨e', List.mem_cons_of_mem _ k1, k2⟩

theorem agrees_fields {e : PhraseEntry} {v : Listed} (h : agrees e v = true) : e.values = v.values ∧ e.strings = v.words ∧ samePlace e.check v.place = true ∧
    phrasesAgree e.regexes v.phrases = true ∧ ∀ w ∈ v.words, w ≠ [] ∧ ∀ c ∈ w, c.toNat < 128 := by
  simp only [agrees, Bool.and_eq_true, beq_iff_eq, List.all_eq_true, Bool.not_eq_true', List.isEmpty_eq_false_iff, decide_eq_true_eq] at h
  exact ⟨h.1.1.1.1, h.1.1.1.2, h.1.1.2, h.1.2, h.2⟩

variable {low : Char → Char}

theorem mem_table {name : Str} {es : List PhraseEntry} {m : RxMatch (List Str)} : m ∈ tableFound E name es s ↔
    ∃ e ∈ es, m ∈ e.words E.u name s ∨ ∃ t ∈ e.regexes, ∃ p, parsePhrase t = some p ∧ m ∈ (e.pattern E name p).found s := by
  simp only [tableFound, List.mem_flatMap, List.mem_append, PhraseEntry.phrases]
  refine exists_congr fun e => and_congr_right fun _ => or_congr_right (exists_congr fun t => and_congr_right fun _ => ?_)
  cases parsePhrase t with
  | none => simp
  | some p => simp

/-- Everything that is found is written, and stands where it must. -/
theorem table_sound (hE : Usual E) (hl : Lowers E.u low s) {name : Str} {es : List PhraseEntry} {vs : List Listed} (ha : agreeAll es vs = true)
    {m : RxMatch (List Str)} (hm : m ∈ tableFound E name es s) :
    m.name = name ∧ ∃ v ∈ vs, m.value = .ok v.values ∧ v.place.Holds s m.start m.stop ∧ v.At E low s m.start m.stop := by
  obtain ⟨e, he, hm⟩ := mem_table.1 hm
  obtain ⟨v, hv, hag⟩ := (agree_entries ha).1 e he
  obtain ⟨f1, f2, f3, f4, f5⟩ := agrees_fields hag
  rcases hm with hm | ⟨t, ht, p, hp, hm⟩
  · obtain ⟨h1, w, h2, h3, h4, h5, h6⟩ := mem_strings.1 hm
    refine ⟨h4, v, hv, by rw [h6, ← f1], (place_ok f3).1 h1, .inl ⟨w, f2 ▸ h2, ?_, h5⟩⟩
    have hw := (f5 w (f2 ▸ h2)).2
    have := findAll_prefix h3
    rw [hl.text w fun c hc => .inr (hw c hc), hl.text s fun c hc => .inl hc] at this
    exact written_iff.1 this
  · obtain ⟨h, h1, h2, rfl⟩ := mem_phrase.1 hm
    obtain ⟨p', g1, g2, g3, g4⟩ := (agree_phrases f4).1 t ht
    rw [hp] at g1; cases g1
    obtain ⟨w, k1, k2, k3⟩ := phrase_hit h1
    refine ⟨rfl, v, hv, by rw [f1], (place_ok f3).1 h2, .inr ⟨_, g2, w.map Sym.code, List.mem_map_of_mem k1, (phrase_at hE (regular_plain g3 k1).2).2 k2, ?_⟩⟩
    simpa using k3

/-- A word that is written is found, if the word does not also begin a little before. -/
theorem table_word (hl : Lowers E.u low s) {name : Str} {es : List PhraseEntry} {vs : List Listed} (ha : agreeAll es vs = true) {v : Listed} (hv : v ∈ vs)
    {w : Str} (hw : w ∈ v.words) {i : Nat} (h1 : Written low s w i) (h2 : v.place.Holds s i (i + w.length))
    (h3 : ∀ a, a < i → i < a + w.length → ¬ Written low s w a) : (⟨name, i, i + w.length, .ok v.values⟩ : RxMatch (List Str)) ∈ tableFound E name es s := by
  obtain ⟨e, he, hag⟩ := (agree_entries ha).2 v hv
  obtain ⟨f1, f2, f3, f4, f5⟩ := agrees_fields hag
  refine mem_table.2 ⟨e, he, .inl (mem_strings.2 ⟨(place_ok f3).2 h2, w, f2 ▸ hw, ?_, rfl, rfl, by rw [← f1]⟩)⟩
  have hs := hl.text s fun c hc => .inl hc
  have hlw := hl.text w fun c hc => .inr ((f5 w hw).2 c hc)
  rw [hlw, hs]
  refine (mem_findAll (by simpa using (f5 w hw).1) fun a g1 g2 g3 => ?_).2 (written_iff.2 h1)
  exact h3 a g1 (by simpa using g2) (written_iff.1 g3)

/-- A phrase that is written is found, if no longer one of the same expression begins there and none begins before and goes on. -/
theorem table_phrase (hE : Usual E) (hT : Themselves E) {name : Str} {es : List PhraseEntry} {vs : List Listed} (ha : agreeAll es vs = true) {v : Listed} (hv : v ∈ vs)
    {ps : List Str} (hps : ps ∈ v.phrases) {w : Str} (hw : w ∈ ps) {i : Nat} (h1 : PhraseAt E s w i) (h2 : v.place.Holds s i (i + w.length))
    (h3 : ∀ x ∈ ps, PhraseAt E s x i → x.length ≤ w.length) (h4 : ∀ x ∈ ps, ∀ a, a < i → PhraseAt E s x a → a + x.length ≤ i) :
    (⟨name, i, i + w.length, .ok v.values⟩ : RxMatch (List Str)) ∈ tableFound E name es s := by
  obtain ⟨e, he, hag⟩ := (agree_entries ha).2 v hv
  obtain ⟨f1, f2, f3, f4, f5⟩ := agrees_fields hag
  obtain ⟨t, ht, p, hp, rfl, hr, hlo⟩ := (agree_phrases f4).2 ps hps
  obtain ⟨w, hw', rfl⟩ := List.mem_map.1 hw
  have hh := phrase_hits hE hT hr hlo hw' ((phrase_at hE (regular_plain hr hw').2).1 h1)
    (fun x hx hs => by simpa using h3 _ (List.mem_map_of_mem hx) ((phrase_at hE (regular_plain hr hx).2).2 hs))
    (fun x hx a ha hs => by simpa using h4 _ (List.mem_map_of_mem hx) a ha ((phrase_at hE (regular_plain hr hx).2).2 hs))
  refine mem_table.2 ⟨e, he, .inr ⟨t, ht, p, hp, mem_phrase.2 ⟨_, hh, (place_ok f3).2 h2, ?_⟩⟩⟩
  simp [f1]

theorem lower_twice : ∀ c ∈ seps, c.toLower = c := by decide
theorem sep_low : ∀ c ∈ seps, c.toNat < 128 := by decide

theorem separate_clear (hE : Usual E) (hT : Themselves E) {L : List (List Sym)} (hr : regular L = true) (hd : separate L = true) {w : List Sym} {i : Nat} (hw : w ∈ L)
    (hs : symsAt E s w i = true) : (∀ v ∈ L, symsAt E s v i = true → v.length ≤ w.length) ∧ ∀ v ∈ L, ∀ a, a < i → symsAt E s v a = true → a + v.length ≤ i := by
  rw [separate, Bool.and_eq_true] at hd
  constructor
  · intro v hv hsv
    by_contra hc
    have h1 := List.all_eq_true.1 (List.all_eq_true.1 hd.2 w hw) v hv
    have hm := meetAll_of hE hT (regular_plain hr hw).2 (regular_plain hr hv).2 hs hsv
    simp only [hm, Bool.and_true, Bool.not_eq_true', decide_eq_false_iff_not] at h1
    omega
  · intro v hv a ha hsv
    by_contra hc
    have hk : i - a < v.length := by omega
    have h1 := List.all_eq_true.1 (List.all_eq_true.1 hd.1 v hv) (i - a) (List.mem_range.2 hk)
    have hdr : symsAt E s (v.drop (i - a)) i = true := by
      have := symsAt_drop (k := i - a) hsv
      rwa [show a + (i - a) = i by omega] at this
    have hm := meetAll_of hE hT (fun x hx => (regular_plain hr hv).2 x (List.mem_of_mem_drop hx)) (regular_plain hr hw).2 hdr hs
    simp only [Bool.or_eq_true, beq_iff_eq, List.all_eq_true, Bool.not_eq_true'] at h1
    rcases h1 with h1 | h1
    · omega
    · rw [h1 w hw] at hm; cases hm

theorem aloneWord_clear (hl : Lowers E.u low s) {place : Place} {w : Str} (hw : ∀ c ∈ w, c.toNat < 128) (ha : aloneWord place w = true) {i : Nat} (h1 : Written low s w i)
    (h2 : place.Holds s i (i + w.length)) : ∀ a, a < i → i < a + w.length → ¬ Written low s w a := by
  intro a g1 g2 g3
  have hk : i - a < w.length := by omega
  have := List.all_eq_true.1 ha (i - a) (List.mem_range.2 hk)
  simp only [Bool.or_eq_true, beq_iff_eq, Bool.and_eq_true, Bool.not_eq_true'] at this
  rcases this with (h0 | ⟨h0, h3⟩) | h3
  · omega
  · subst h0
    have hk' : i - a - 1 < w.length := by omega
    obtain ⟨c, e1, e2⟩ := g3 (i - a - 1) _ (List.getElem?_eq_getElem hk')
    rcases h2.1 with rfl | ⟨c', e3, e4⟩
    · omega
    · rw [show a + (i - a - 1) = i - 1 by omega, e3] at e1
      obtain rfl : c' = c := Option.some.inj e1
      have hx := hw _ (List.getElem_mem hk')
      rw [hl.ascii _ (sep_low c' e4), hl.ascii _ hx, lower_twice c' e4] at e2
      rw [List.getElem?_eq_getElem hk'] at h3
      simp only [Option.any_some] at h3
      -- the character of the word is the separator itself
      have hch : ∀ d ∈ seps, ∀ n, n < 128 → ∀ x : Char, x.toNat = n → x.toLower = d → x = d := by
        intro d hd n hn x hx hxd
        by_cases hu : x.isUpper = true
        · exfalso
          have : x.toLower.isLower = true := by
            have hall : ∀ n < 128, ∀ h : n.isValidChar, (Char.ofNatAux n h).isUpper = true → (Char.ofNatAux n h).toLower.isLower = true := by decide
            have hv : n.isValidChar := by rw [← hx]; exact x.valid
            have := hall n hn hv
            have he : Char.ofNatAux n hv = x := by
              subst hx; rfl
            rw [he] at this
            exact this hu
          rw [hxd] at this
          have hns : ∀ d ∈ seps, d.isLower = false := by decide
          rw [hns d hd] at this; cases this
        · rw [Char.toLower] at hxd
          split at hxd
          · rename_i h; exact absurd (by simpa [Char.isUpper] using h) hu
          · exact hxd
      have := hch c' e4 _ hx w[i - a - 1] rfl e2.symm
      rw [this] at h3
      rw [List.contains_iff_mem.2 e4] at h3; cases h3
  · obtain ⟨⟨x, y⟩, e1, e2⟩ := List.any_eq_true.1 h3
    obtain ⟨k, hk1, hk2⟩ := List.mem_iff_getElem.1 e1
    rw [List.getElem_zip] at hk2
    rw [List.length_zip, List.length_drop] at hk1
    simp only [Prod.mk.injEq, List.getElem_drop] at hk2
    obtain ⟨c, f1, f2⟩ := g3 (i - a + k) x (by rw [List.getElem?_eq_getElem (by omega), hk2.1])
    obtain ⟨c', f3, f4⟩ := h1 k y (by rw [List.getElem?_eq_getElem (by omega), hk2.2])
    rw [show a + (i - a + k) = i + k by omega, f3] at f1
    cases f1
    have hx := hw x (by rw [← hk2.1]; exact List.getElem_mem _)
    have hy := hw y (by rw [← hk2.2]; exact List.getElem_mem _)
    rw [f2, hl.ascii x hx, hl.ascii y hy] at f4
    simp [f4] at e2

/-- When nothing of an entry is in the way of anything else of it, all that is written of it is found. -/
theorem table_clear (hE : Usual E) (hT : Themselves E) (hl : Lowers E.u low s) {name : Str} {es : List PhraseEntry} {vs : List Listed} (ha : agreeAll es vs = true)
    {e : PhraseEntry} {v : Listed} (he : e ∈ es) (hv : v ∈ vs) (hag : agrees e v = true) (hc : clearEntry e v = true) {i j : Nat} (h1 : v.At E low s i j) (h2 : v.place.Holds s i j) :
    (⟨name, i, j, .ok v.values⟩ : RxMatch (List Str)) ∈ tableFound E name es s := by
  obtain ⟨f1, f2, f3, f4, f5⟩ := agrees_fields hag
  simp only [clearEntry, Bool.and_eq_true, List.all_eq_true] at hc
  rcases h1 with ⟨w, hw, h1, rfl⟩ | ⟨ps, hps, w, hw, h1, rfl⟩
  · exact table_word hl ha hv hw h1 h2 (aloneWord_clear hl (f5 w hw).2 (hc.1 w hw) h1 h2)
  · obtain ⟨t, ht, p, hp, rfl, hr, hlo⟩ := (agree_phrases f4).2 ps hps
    obtain ⟨w, hw', rfl⟩ := List.mem_map.1 hw
    have hat := (phrase_at hE (regular_plain hr hw').2).1 h1
    have hcl := hc.2 t ht
    rw [hp] at hcl
    simp only at hcl
    have key : (∀ v ∈ p.spellings, symsAt E s v i = true → v.length ≤ w.length) ∧ ∀ v ∈ p.spellings, ∀ a, a < i → symsAt E s v a = true → a + v.length ≤ i := by
      by_cases hap : v.place = .apart
      · rw [if_pos (by simp [hap])] at hcl
        rw [hap] at h2
        exact discrete_clear hE hT hr hcl hw' hat (by have h := h2; simp only [Place.Holds, List.length_map] at h; exact h)
      · rw [if_neg (by simp [hap])] at hcl
        exact separate_clear hE hT hr hcl hw' hat
    refine table_phrase hE hT ha hv hps hw h1 h2 ?_ ?_
    · intro x hx hxs
      obtain ⟨y, hy, rfl⟩ := List.mem_map.1 hx
      simpa using key.1 y hy ((phrase_at hE (regular_plain hr hy).2).1 hxs)
    · intro x hx a ha hxs
      obtain ⟨y, hy, rfl⟩ := List.mem_map.1 hx
      simpa using key.2 y hy a ha ((phrase_at hE (regular_plain hr hy).2).1 hxs)

end
end Guessit
