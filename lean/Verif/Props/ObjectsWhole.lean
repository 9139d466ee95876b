import Verif.Props.ProgramObjects
import Verif.Props.ValuesWhole
import Verif.Props.GuessRuns
import Verif.Props.Date

/-! # Dates, countries and languages of the dictionary (C160) -/

namespace Guessit
open Spec

/-- What the dictionary holds under the names of dates, countries and languages. -/
def Spec.ObjectIn (O : Outside) (g : Dict) (s : Str) (lower : Str → Str) (obj : Nat → PyVal) (n : Str) (x : PyVal) : Prop :=
  (n = c!"date" ∧ ∃ D, DateOf O g s D ∧ x = obj (O.codes.date D)) ∨
  (n = c!"country" ∧ ∃ c, CountryOf O g s c ∧ x = obj (O.codes.country c)) ∨
  ((n = c!"language" ∨ n = c!"subtitle_language") ∧ ∃ l, LanguageAllowed O g l ∧
    ((l ≠ O.langs.und ∧ x = obj (O.codes.language l)) ∨
     (l = O.langs.und ∧ ∃ t w, O.langs.fromGuessit t = some l ∧ x = .str w ∧ (w = t ∨ MeantAs s lower cleanup [t] w))))

/-- C160: a date, a country or a language in the dictionary was read from the name, and the options allow it. -/
theorem C160_guess (O : Outside) (hu : Sane O.rx.u) (he : O.langs.fromGuessit [] = none) (base : RuleEnv) (hl : ∀ t, base.uni.lower t = [] ↔ t = [])
    (obj : Nat → PyVal) (hobj : ∀ k l, obj k ≠ .list l) (sh : Str → Except PyErr (List Str)) (pa : List Str → Except PyErr Dict)
    (int : Dict → Except PyErr PyVal) (env : Env) (st : Api Unit) (text : Str) (o : OptArg) (d opts : Dict)
    (ho : optionsInForce (guessitSys O base obj sh pa int) env st o = .ok opts)
    (h : (st.guessit (guessitSys O base obj sh pa int) env (.str text) o).2 = .value (.dict d)) :
    ∀ n ∈ [c!"date", c!"country", c!"language", c!"subtitle_language"], ∀ v, d.get? (.str n) = some v → ∀ x, Leaf x v →
      ObjectIn O opts text base.uni.lower obj n x := by
  intro n hn v hv x hx
  obtain ⟨text', s, ht, hs, hall⟩ := guess_values rfl ho h
  cases ht
  have hin : n ≠ c!"input_string" := by
    have : ∀ n ∈ readNames, n ≠ c!"input_string" := by decide +kernel
    exact this n hn
  obtain ⟨m, hm, hmn, hxm⟩ := hall n v x hin hv hx
  have hmean := C160_program O hu he base hl opts text s hs m hm n hn hmn
  have hsi : s.input = text := by
    obtain ⟨gs, hg, h⟩ := program_starts hs
    exact (run_input (program_natural hl hg) h).1
  rw [hsi] at hxm
  have hleaf : ∀ c, m.value text = c → x = pyOf obj c := by
    intro c hc
    rw [hc] at hxm
    refine leaf_flat ?_ hxm
    intro l
    cases c with
    | str t => exact fun hh => by cases hh
    | int t => exact fun hh => by cases hh
    | obj k => exact hobj k l
  rcases hmean with hp | ⟨w, t, hw, hp, hm⟩
  · rcases hp with ⟨h1, D, h2, h3⟩ | ⟨h1, c, h2, h3⟩ | ⟨h1, l, h2, ⟨h3, h4⟩ | ⟨h3, t, h4, h5⟩⟩
    · exact Or.inl ⟨h1, D, h2, hleaf _ h3⟩
    · exact Or.inr (Or.inl ⟨h1, c, h2, hleaf _ h3⟩)
    · exact Or.inr (Or.inr ⟨h1, l, h2, Or.inl ⟨h3, hleaf _ h4⟩⟩)
    · exact Or.inr (Or.inr ⟨h1, l, h2, Or.inr ⟨h3, t, t, h4, hleaf _ h5, Or.inl rfl⟩⟩)
  · rcases hp with ⟨_, D, _, h3⟩ | ⟨_, c, _, h3⟩ | ⟨h1, l, h2, ⟨_, h4⟩ | ⟨h3, t', h4, h5⟩⟩
    · cases h3
    · cases h3
    · cases h4
    · cases h5
      exact Or.inr (Or.inr ⟨h1, l, h2, Or.inr ⟨h3, t, w, h4, hleaf _ hw, Or.inr hm⟩⟩)

/-! ## Examples -/

set_option maxRecDepth 100000

/-- Two languages, one country and a few dates. -/
def readOutside : Outside := { asciiOutside with
  langs := ⟨fun t => if t = c!"french" then some 2 else if t = c!"und" then some 0 else none, fun l => if l = 2 then some c!"French" else some c!"undetermined",
    fun l => if l = 2 then some c!"fr" else none, fun l => if l = 2 then c!"fra" else c!"und", 0, 1⟩
  countries := ⟨fun t => if t = c!"us" then some 3 else none, fun _ => c!"UNITED STATES", fun _ => c!"US"⟩
  parse := toyParser }

def readObj (k : Nat) : PyVal := .str (if k = 2 then c!"22 April 2002" else if k = 5 then c!"fr" else if k = 7 then c!"US" else [])

def readSys : Sys Unit := guessitSys readOutside asciiBase readObj (fun _ => .ok []) (fun _ => .ok []) (fun _ => .ok .none)

/-- The options of the calls below. -/
def readOptions : OptArg := .dict [(.str c!"allowed_languages", .list [.str c!"fr", .str c!"und"]), (.str c!"allowed_countries", .list [.str c!"us"])]

/-- A date, a country and a language. -/
theorem read_call : plainItems ((Api.init : Api Unit).guessit readSys toyEnv (.str c!"A.2002-04-22.US.French.mkv") readOptions).2 = some [
    (c!"title", some (.inl c!"A")), (c!"date", some (.inl c!"22 April 2002")), (c!"country", some (.inl c!"US")), (c!"language", some (.inl c!"fr")),
    (c!"container", some (.inl c!"mkv")), (c!"mimetype", some (.inl c!"video/x-matroska")), (c!"type", some (.inl c!"episode"))] := by
  decide +kernel

/-- A language of subtitles. -/
theorem subtitles_call : plainItems ((Api.init : Api Unit).guessit readSys toyEnv (.str c!"A.2001.French.Subtitles.US.mkv") readOptions).2 = some [
    (c!"title", some (.inl c!"A")), (c!"year", some (.inr 2001)), (c!"subtitle_language", some (.inl c!"fr")), (c!"country", some (.inl c!"US")),
    (c!"container", some (.inl c!"mkv")), (c!"mimetype", some (.inl c!"video/x-matroska")), (c!"type", some (.inl c!"movie"))] := by
  decide +kernel

theorem readOutside_sane : Sane readOutside.rx.u := asciiUni_sane

theorem readObj_flat : ∀ k l, readObj k ≠ .list l := fun _ _ h => by cases h

example : ∃ d opts : Dict, optionsInForce readSys toyEnv Api.init readOptions = .ok opts ∧
    ((Api.init : Api Unit).guessit readSys toyEnv (.str c!"A.2002-04-22.US.French.mkv") readOptions).2 = .value (.dict d) ∧
    ∀ n ∈ [c!"date", c!"country", c!"language", c!"subtitle_language"], ∀ v, d.get? (.str n) = some v → ∀ x, Leaf x v →
      ObjectIn readOutside opts c!"A.2002-04-22.US.French.mkv" asciiBase.uni.lower readObj n x := by
  obtain ⟨d, hd⟩ := items_dict read_call
  exact ⟨d, _, rfl, hd, C160_guess readOutside readOutside_sane rfl asciiBase asciiBase_lower readObj readObj_flat _ _ _ _ _ _ _ d _ rfl hd⟩

/-- The specification says no: the United States are not a country of the name when they are not allowed. -/
example (s : Str) (c : Nat) : ¬ CountryOf readOutside [(.str c!"allowed_countries", .list [.str c!"fr"])] s c := by
  rintro ⟨⟨a, ⟨l, hl, ha⟩, h⟩, _⟩
  cases hl
  simp only [List.mem_singleton, PyVal.str.injEq] at ha
  subst ha
  have : ¬ (c!"united states" = c!"fr" ∨ c!"us" = c!"fr") := by decide
  exact this h

end Guessit
