import Verif.Spec.Converters
import Verif.Props.Numeral
import Mathlib.Data.List.Induction

/-!
# C101: synonyms of languages and countries
-/

namespace Guessit

open Spec

theorem assignAll_eq {α : Type} (u : Uni) (v : α) : ∀ (ss : List Str) (d : Assigned α),
    assignAll u d v ss = (ss.map fun s => (u.lower s, v)).reverse ++ d
  | [], d => rfl
  | s :: ss, d => by
    rw [assignAll, assignAll_eq u v ss]
    simp

theorem countryExceptions_eq (u : Uni) (syn : List (Str × List Str)) :
    countryExceptions u syn = ((synonymPairs syn).map fun p => (u.lower p.1, p.2)).reverse := by
  have : ∀ (syn : List (Str × List Str)) (d : Assigned Str), syn.foldl (fun d e => assignAll u d e.1 e.2) d =
      ((synonymPairs syn).map fun p => (u.lower p.1, p.2)).reverse ++ d := by
    intro syn
    induction syn with
    | nil => intro d; rfl
    | cons e syn ih =>
      intro d
      rw [List.foldl_cons, ih, assignAll_eq]
      have : synonymPairs (e :: syn) = e.2.map (fun s => (s, e.1)) ++ synonymPairs syn := rfl
      rw [this]
      simp [List.map_append, List.reverse_append, List.append_assoc, Function.comp_def]
  unfold countryExceptions
  rw [this, List.append_nil]

theorem lookup_last {u : Uni} {n a : Str} (l : List (Str × Str)) :
    List.lookup n (l.map fun p => (u.lower p.1, p.2)).reverse = some a ↔
      ∃ before text after, l = before ++ (text, a) :: after ∧ u.lower text = n ∧ ∀ p ∈ after, u.lower p.1 ≠ n := by
  induction l using List.reverseRecOn with
  | nil => simp
  | append_singleton l x ih =>
    rw [List.map_append, List.reverse_append]
    simp only [List.map_cons, List.map_nil, List.reverse_cons, List.reverse_nil, List.nil_append, List.cons_append, List.lookup_cons]
    by_cases hx : u.lower x.1 = n
    · have : (n == u.lower x.1) = true := by simp [hx]
      rw [this]
      simp only [Option.some.injEq]
      constructor
      · rintro rfl
        exact ⟨l, x.1, [], rfl, hx, by simp⟩
      · rintro ⟨before, text, after, h1, h2, h3⟩
        rcases List.eq_nil_or_concat after with rfl | ⟨after', y, rfl⟩
        · have := List.append_inj_right' h1 rfl
          cases this; rfl
        · have h4 : l ++ [x] = (before ++ (text, a) :: after') ++ [y] := by rw [h1]; simp
          have := List.append_inj_right' h4 rfl
          cases this
          exact absurd hx (h3 x (by simp))
    · have : (n == u.lower x.1) = false := by simpa using fun h => hx h.symm
      rw [this]
      simp only
      rw [ih]
      constructor
      · rintro ⟨before, text, after, rfl, h2, h3⟩
        refine ⟨before, text, after ++ [x], by simp, h2, ?_⟩
        intro p hp
        rcases List.mem_append.1 hp with hp | hp
        · exact h3 p hp
        · simp only [List.mem_singleton] at hp; subst hp; exact hx
      · rintro ⟨before, text, after, h1, h2, h3⟩
        rcases List.eq_nil_or_concat after with rfl | ⟨after', y, rfl⟩
        · have := List.append_inj_right' h1 rfl
          cases this; exact absurd h2 hx
        · have h4 : l ++ [x] = (before ++ (text, a) :: after') ++ [y] := by rw [h1]; simp
          have h5 := List.append_inj_left' h4 rfl
          exact ⟨before, text, after', h5, h2, fun p hp => h3 p (by simp [hp])⟩

theorem lookup_last_none {u : Uni} {n : Str} (l : List (Str × Str)) :
    List.lookup n (l.map fun p => (u.lower p.1, p.2)).reverse = none ↔ ¬ ∃ p ∈ l, u.lower p.1 = n := by
  constructor
  · rintro h ⟨p, hp, hn⟩
    have : n ∈ ((l.map fun p => (u.lower p.1, p.2)).reverse).map Prod.fst := by
      simp only [List.map_reverse, List.mem_reverse, List.mem_map]
      exact ⟨(u.lower p.1, p.2), ⟨p, hp, rfl⟩, hn⟩
    rw [List.lookup_eq_none_iff] at h
    obtain ⟨x, hx, rfl⟩ := List.mem_map.1 this
    simpa using h x hx
  · intro h
    rw [List.lookup_eq_none_iff]
    intro x hx
    simp only [List.mem_reverse, List.mem_map] at hx
    obtain ⟨p, hp, rfl⟩ := hx
    simpa using fun hn => h ⟨p, hp, hn.symm⟩

theorem exception_iff (u : Uni) (syn : List (Str × List Str)) (name code : Str) :
    List.lookup (u.lower name) (countryExceptions u syn) = some code ↔ SynonymFor u syn name code := by
  rw [countryExceptions_eq, lookup_last]
  rfl

theorem exception_none (u : Uni) (syn : List (Str × List Str)) (name : Str) :
    List.lookup (u.lower name) (countryExceptions u syn) = none ↔ ¬ IsSynonym u syn name := by
  rw [countryExceptions_eq, lookup_last_none]
  rfl

theorem synonym_is {u : Uni} {syn : List (Str × List Str)} {name code : Str} (h : SynonymFor u syn name code) :
    IsSynonym u syn name := by
  obtain ⟨before, text, after, h1, h2, _⟩ := h
  exact ⟨(text, code), by rw [h1]; simp, h2⟩

/-- **C101.** The country a name is converted to. -/
theorem C101_country (u : Uni) (b : Babel) (syn : List (Str × List Str)) (name code : Str) :
    reverseCountry u b syn name = some code ↔ CountryIs u b syn name code := by
  unfold reverseCountry CountryIs
  cases e : List.lookup (u.lower name) (countryExceptions u syn) with
  | some a =>
    have h1 := (exception_iff u syn name a).1 e
    have h2 : IsSynonym u syn name := synonym_is h1
    simp only [Option.some.injEq]
    constructor
    · rintro rfl; exact .inl h1
    · rintro (h | ⟨h, _⟩)
      · have := (exception_iff u syn name code).2 h
        rw [e] at this
        exact Option.some.inj this
      · exact absurd h2 h
  | none =>
    have h1 := (exception_none u syn name).1 e
    have h2 : ¬ SynonymFor u syn name code := fun h => by
      have := (exception_iff u syn name code).2 h
      rw [e] at this; cases this
    simp only [h1, h2, false_or, not_false_eq_true, true_and]
    cases b.country (u.upper name) with
    | some a => simp
    | none => simp

/-- **C101.** The conversion of a country raises exactly when babelfish knows no country for the name and it is no synonym. -/
theorem C101_country_raises (u : Uni) (b : Babel) (syn : List (Str × List Str)) (name : Str) :
    reverseCountry u b syn name = none ↔
      ¬ IsSynonym u syn name ∧ b.country (u.upper name) = none ∧ b.countryName name = none := by
  unfold reverseCountry
  cases e : List.lookup (u.lower name) (countryExceptions u syn) with
  | some a =>
    simp only [reduceCtorEq, false_iff]
    rintro ⟨h, _⟩
    rw [(exception_none u syn name).2 h] at e
    cases e
  | none =>
    have h1 := (exception_none u syn name).1 e
    simp only [h1, not_false_eq_true, true_and]
    cases b.country (u.upper name) with
    | some a => simp
    | none => simp

/-- **C101.** A country converted to text and back is the same country, if its text is its code and no synonym of another
country is that text; for `GB`, whose text is `UK`, if `UK` is a synonym of `GB` only. -/
theorem C101_roundtrip (u : Uni) (b : Babel) (syn : List (Str × List Str)) (a t : Str) (h : convertCountry b a = some t)
    (hb : a ≠ c!"GB" → b.countryText a = some a ∧ b.country (u.upper a) = some a)
    (hs : ∀ p ∈ synonymPairs syn, u.lower p.1 = u.lower t → p.2 = a)
    (hg : a = c!"GB" → IsSynonym u syn c!"UK") : reverseCountry u b syn t = some a := by
  rw [C101_country]
  have syno : IsSynonym u syn t → SynonymFor u syn t a := by
    intro hi
    cases e : List.lookup (u.lower t) (countryExceptions u syn) with
    | none => exact absurd hi ((exception_none u syn t).1 e)
    | some c =>
      have hf := (exception_iff u syn t c).1 e
      obtain ⟨before, text, after, h1, h2, _⟩ := hf
      have : c = a := hs (text, c) (by rw [h1]; simp) h2
      subst this
      exact (exception_iff u syn t c).1 e
  by_cases hi : IsSynonym u syn t
  · exact .inl (syno hi)
  · refine .inr ⟨hi, .inl ?_⟩
    unfold convertCountry at h
    split at h
    · rename_i ha
      cases h
      exact absurd (hg ha) hi
    · rename_i ha
      obtain ⟨h1, h2⟩ := hb ha
      rw [h1] at h
      cases h
      exact h2

/-! ## Languages -/

theorem splitCode_iff (code : Str) (c : LangCode) : splitCode code = some c ↔ CodeReads code c := by
  obtain ⟨a3, cc, sc⟩ := c
  unfold splitCode CodeReads
  have hsplit := List.takeWhile_append_dropWhile (p := fun x : Char => decide (x ≠ '_')) (l := code)
  have hfree : '_' ∉ code.takeWhile (fun x => decide (x ≠ '_')) := by
    intro hm
    have := List.all_eq_true.1 (List.all_takeWhile (p := fun x : Char => decide (x ≠ '_')) (l := code)) _ hm
    simp at this
  cases e : code.dropWhile (fun x => decide (x ≠ '_')) with
  | nil =>
    rw [e, List.append_nil] at hsplit
    rw [hsplit] at hfree
    simp only [Option.some.injEq, LangCode.mk.injEq]
    constructor
    · rintro ⟨rfl, rfl, rfl⟩
      exact ⟨rfl, .inl ⟨rfl, rfl, hfree⟩⟩
    · rintro ⟨rfl, ⟨rfl, rfl, _⟩ | ⟨x, rfl, h, _⟩⟩
      · exact ⟨rfl, rfl, rfl⟩
      · exact absurd (by rw [h]; simp) hfree
  | cons y rest =>
    have hy : y = '_' := by
      have := List.head?_dropWhile_not (fun x : Char => decide (x ≠ '_')) code
      rw [e] at this
      simpa using this
    subst hy
    rw [e] at hsplit
    have uniq : ∀ {p q r : Str}, '_' ∉ p → '_' ∉ q → p ++ '_' :: r = code → code = q ++ '_' :: rest → p = q ∧ r = rest := by
      intro p q r hp hq h1 h2
      rw [h2] at h1
      clear h2 hsplit e hfree
      induction p generalizing q with
      | nil =>
        cases q with
        | nil => simp at h1; exact ⟨rfl, h1⟩
        | cons z q => simp at h1; exact absurd (by rw [← h1.1]; simp) hq
      | cons z p ih =>
        cases q with
        | nil => simp at h1; exact absurd (by rw [h1.1]; simp) hp
        | cons w q =>
          simp only [List.cons_append, List.cons.injEq] at h1
          simp only [List.mem_cons, not_or] at hp hq
          obtain ⟨i1, i2⟩ := ih hp.2 hq.2 h1.2
          exact ⟨by rw [h1.1, i1], i2⟩
    by_cases hr : '_' ∈ rest
    · simp only [hr, if_true, reduceCtorEq, false_iff]
      rintro ⟨_, ⟨_, _, h⟩ | ⟨x, rfl, h, h1, h2⟩⟩
      · exact h (by rw [← hsplit]; simp)
      · have := (uniq h1 hfree h.symm hsplit.symm).2
        rw [← this] at hr
        exact h2 hr
    · simp only [hr, if_false, Option.some.injEq, LangCode.mk.injEq]
      constructor
      · rintro ⟨rfl, rfl, rfl⟩
        exact ⟨rfl, .inr ⟨rest, rfl, hsplit.symm, hfree, hr⟩⟩
      · rintro ⟨rfl, ⟨_, _, h⟩ | ⟨x, rfl, h, h1, h2⟩⟩
        · exact absurd (by rw [← hsplit]; simp) h
        · have := uniq h1 hfree h.symm hsplit.symm
          exact ⟨this.1.symm, by rw [this.2], rfl⟩

theorem lookup_append' {α : Type} (n : Str) : ∀ (a b : Assigned α), List.lookup n (a ++ b) = (List.lookup n a <|> List.lookup n b)
  | [], b => by simp
  | x :: a, b => by
    rw [List.cons_append, List.lookup_cons, List.lookup_cons]
    split
    · rfl
    · exact lookup_append' n a b

theorem lookup_const {α : Type} (n : Str) (v : α) : ∀ l : List Str, List.lookup n (l.map fun s => (s, v)) = if n ∈ l then some v else none
  | [] => rfl
  | x :: l => by
    rw [List.map_cons, List.lookup_cons, lookup_const n v l]
    by_cases h : n = x
    · simp [h]
    · have : (n == x) = false := by simpa using h
      simp [this, h]

theorem languageExceptions_lookup (u : Uni) (n : Str) : ∀ (syn : List (Str × List Str)) (d d' : Assigned LangCode),
    languageExceptions u d syn = some d' → List.lookup n d' =
      match List.lookup n (countryExceptions u syn) with
      | some code => splitCode code
      | none => List.lookup n d
  | [], d, d', h => by cases h; rfl
  | e :: rest, d, d', h => by
    rw [languageExceptions] at h
    cases hc : splitCode e.1 with
    | none => rw [hc] at h; cases h
    | some c =>
      rw [hc] at h
      simp only at h
      rw [languageExceptions_lookup u n rest _ _ h]
      have : countryExceptions u (e :: rest) = countryExceptions u rest ++ (e.2.map fun s => (u.lower s, e.1)).reverse := by
        rw [countryExceptions_eq, countryExceptions_eq]
        have : synonymPairs (e :: rest) = e.2.map (fun s => (s, e.1)) ++ synonymPairs rest := rfl
        rw [this]
        simp [List.map_append, List.reverse_append, Function.comp_def]
      rw [this, lookup_append']
      cases hl : List.lookup n (countryExceptions u rest) with
      | some code => rfl
      | none =>
        have hor : ∀ x : Option Str, ((none : Option Str) <|> x) = x := fun _ => rfl
        simp only [hor]
        rw [assignAll_eq, lookup_append']
        have k1 : (e.2.map fun s => (u.lower s, e.1)).reverse = (e.2.map u.lower).reverse.map fun s => (s, e.1) := by
          simp [List.map_reverse, Function.comp_def]
        have k2 : (e.2.map fun s => (u.lower s, c)).reverse = (e.2.map u.lower).reverse.map fun s => (s, c) := by
          simp [List.map_reverse, Function.comp_def]
        rw [k1, k2, lookup_const, lookup_const]
        split
        · simp [hc]
        · simp

theorem languageExceptions_none (u : Uni) : ∀ (syn : List (Str × List Str)) (d : Assigned LangCode),
    languageExceptions u d syn = none ↔ ∃ e ∈ syn, splitCode e.1 = none
  | [], d => by simp [languageExceptions]
  | e :: rest, d => by
    rw [languageExceptions]
    cases hc : splitCode e.1 with
    | none => simp [hc]
    | some c =>
      simp only
      rw [languageExceptions_none u rest]
      simp [hc]

/-- **C101.** The synonyms of languages are accepted exactly when every code has at most one underscore. -/
theorem C101_codes (u : Uni) (syn : List (Str × List Str)) :
    (∃ d, languageExceptions u [] syn = some d) ↔ ∀ e ∈ syn, ∃ c, CodeReads e.1 c := by
  constructor
  · rintro ⟨d, h⟩ e he
    cases hc : splitCode e.1 with
    | none => rw [(languageExceptions_none u syn []).2 ⟨e, he, hc⟩] at h; cases h
    | some c => exact ⟨c, (splitCode_iff _ _).1 hc⟩
  · intro h
    cases hd : languageExceptions u [] syn with
    | some d => exact ⟨d, rfl⟩
    | none =>
      obtain ⟨e, he, hc⟩ := (languageExceptions_none u syn []).1 hd
      obtain ⟨c, hcc⟩ := h e he
      rw [(splitCode_iff _ _).2 hcc] at hc; cases hc

theorem firstReader_iff (n : Str) (c : LangCode) : ∀ rs : List (Str → Option LangCode),
    firstReader n rs = some c ↔ ∃ before r after, rs = before ++ r :: after ∧ r n = some c ∧ ∀ q ∈ before, q n = none
  | [] => by simp [firstReader]
  | r :: rs => by
    unfold firstReader
    cases e : r n with
    | some x =>
      simp only [Option.some.injEq]
      constructor
      · rintro rfl; exact ⟨[], r, rs, rfl, e, by simp⟩
      · rintro ⟨before, q, after, h1, h2, h3⟩
        cases before with
        | nil => cases h1; rw [e] at h2; exact Option.some.inj h2
        | cons z zs => cases h1; have := h3 r (by simp); rw [e] at this; cases this
    | none =>
      simp only
      rw [firstReader_iff n c rs]
      constructor
      · rintro ⟨before, q, after, rfl, h2, h3⟩
        refine ⟨r :: before, q, after, rfl, h2, ?_⟩
        intro z hz
        rcases List.mem_cons.1 hz with rfl | hz
        · exact e
        · exact h3 z hz
      · rintro ⟨before, q, after, h1, h2, h3⟩
        cases before with
        | nil => cases h1; rw [e] at h2; cases h2
        | cons z zs => cases h1; exact ⟨zs, q, after, rfl, h2, fun x hx => h3 x (by simp [hx])⟩

/-- **C101.** The language a name is converted to. -/
theorem C101_language (u : Uni) (b : Babel) (syn : List (Str × List Str)) (d : Assigned LangCode)
    (hd : languageExceptions u [] syn = some d) (name : Str) (c : LangCode) :
    reverseLanguage u b d name = some c ↔ LanguageIs u b syn name c := by
  unfold reverseLanguage LanguageIs
  rw [languageExceptions_lookup u _ syn [] d hd]
  cases e : List.lookup (u.lower name) (countryExceptions u syn) with
  | some a =>
    have h1 := (exception_iff u syn name a).1 e
    have h2 : IsSynonym u syn name := synonym_is h1
    have h3 : ∃ x, splitCode a = some x := by
      obtain ⟨before, text, after, hp, _, _⟩ := h1
      have hm : (text, a) ∈ synonymPairs syn := by rw [hp]; simp
      obtain ⟨en, he, hm⟩ := List.mem_flatMap.1 hm
      obtain ⟨s, _, hs⟩ := List.mem_map.1 hm
      cases hs
      obtain ⟨x, hx⟩ := (C101_codes u syn).1 ⟨d, hd⟩ en he
      exact ⟨x, (splitCode_iff _ _).2 hx⟩
    obtain ⟨x, hx⟩ := h3
    simp only [hx, Option.some.injEq]
    constructor
    · rintro rfl
      exact .inl ⟨a, h1, (splitCode_iff _ _).1 hx⟩
    · rintro (⟨code, h, hr⟩ | ⟨h, _⟩)
      · have := (exception_iff u syn name code).2 h
        rw [e] at this
        cases this
        rw [(splitCode_iff _ _).2 hr] at hx
        exact (Option.some.inj hx).symm
      · exact absurd h2 h
  | none =>
    have h1 := (exception_none u syn name).1 e
    simp only [List.lookup_nil, h1, not_false_eq_true, true_and, firstReader_iff]
    constructor
    · exact fun h => .inr h
    · rintro (⟨code, h, _⟩ | h)
      · have := (exception_iff u syn name code).2 h
        rw [e] at this; cases this
      · exact h

/-- **C101.** The case in which a language is written does not matter. -/
theorem C101_language_case (u : Uni) (b : Babel) (d : Assigned LangCode) (x y : Str) (h : u.lower x = u.lower y) :
    reverseLanguage u b d x = reverseLanguage u b d y := by
  unfold reverseLanguage
  rw [h]

/-- **C101.** The synonyms among the codes of the converter are the texts listed, in lower case. -/
theorem C101_synonym_codes (u : Uni) (syn : List (Str × List Str)) (n : Str) :
    n ∈ synonymCodes (countryExceptions u syn) ↔ ∃ p ∈ synonymPairs syn, n = u.lower p.1 := by
  unfold synonymCodes
  rw [countryExceptions_eq]
  simp only [List.map_reverse, List.map_map, List.mem_reverse, List.mem_map, Function.comp_def]
  constructor
  · rintro ⟨p, hp, rfl⟩; exact ⟨p, hp, rfl⟩
  · rintro ⟨p, hp, rfl⟩; exact ⟨p, hp, rfl⟩

/-! ## Concrete cases -/

/-- Some synonyms of countries of the default configuration. -/
def demoCountries : List (Str × List Str) := [(c!"GB", [c!"UK"]), (c!"BR", [c!"brazilian", c!"bra"]), (c!"CA", [c!"quebec", c!"qc"])]

/-- Some synonyms of languages of the default configuration. -/
def demoLanguages : List (Str × List Str) := [(c!"ell", [c!"gr", c!"greek"]), (c!"por_BR", [c!"po", c!"pb", c!"br"])]

/-- babelfish reduced to France, and to two readers of languages. -/
def demoBabel : Babel where
  country := fun s => if s = c!"FR" then some c!"FR" else none
  countryText := some
  countryName := fun s => if s = c!"France" then some c!"FR" else none
  languages := [fun s => if s = c!"fra" then some ⟨c!"fra", none, none⟩ else none,
    fun s => if s = c!"fr" then some ⟨c!"fra", none, none⟩ else none]

example : reverseCountry asciiUni demoBabel demoCountries c!"uk" = some c!"GB" ∧
    reverseCountry asciiUni demoBabel demoCountries c!"fr" = some c!"FR" ∧
    reverseCountry asciiUni demoBabel demoCountries c!"France" = some c!"FR" ∧
    reverseCountry asciiUni demoBabel demoCountries c!"FRANCE" = none := by decide +kernel

example : (languageExceptions asciiUni [] demoLanguages).map (fun d => reverseLanguage asciiUni demoBabel d c!"PB") =
      some (some ⟨c!"por", some c!"BR", none⟩) ∧
    (languageExceptions asciiUni [] demoLanguages).map (fun d => reverseLanguage asciiUni demoBabel d c!"FR") =
      some (some ⟨c!"fra", none, none⟩) := by decide +kernel

/-- The hypotheses of `C101_roundtrip` hold for `GB` with these synonyms. -/
example : reverseCountry asciiUni demoBabel demoCountries c!"UK" = some c!"GB" :=
  C101_roundtrip asciiUni demoBabel demoCountries c!"GB" c!"UK" (by decide) (fun h => absurd rfl h)
    (by decide +kernel) (fun _ => ⟨(c!"UK", c!"GB"), by decide +kernel, rfl⟩)

/-- Without `UK` among the synonyms `GB` does not survive the way to text and back. -/
example : convertCountry demoBabel c!"GB" = some c!"UK" ∧ reverseCountry asciiUni demoBabel [] c!"UK" = none := by decide +kernel

/-- A code with two underscores stops the construction of the converter: an instance of `C101_codes`. -/
example : languageExceptions asciiUni [] (demoLanguages ++ [(c!"zho_CN_Hans", [c!"chs"])]) = none := by decide +kernel

end Guessit
