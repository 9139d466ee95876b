import Verif.Props.ProgramSeasons
import Verif.Props.CountsWhole
import Verif.Props.SeasonWordsExamples

/-! # Seasons and years of the dictionary (C165) -/

namespace Guessit
open Spec

/-- C165: a season or a year in the dictionary is an integer between two numbers that are written in the name; a year is from 1920 to 2029. -/
theorem C165_guess (O : Outside) (base : RuleEnv) (hl : ∀ t, base.uni.lower t = [] ↔ t = [])
    (obj : Nat → PyVal) (sh : Str → Except PyErr (List Str)) (pa : List Str → Except PyErr Dict)
    (int : Dict → Except PyErr PyVal) (env : Env) (st : Api Unit) (text : Str) (hs : Spec.Numbered O text) (hL : Literal O.rx) (o : OptArg) (d opts : Dict)
    (ho : optionsInForce (guessitSys O base obj sh pa int) env st o = .ok opts)
    (h : (st.guessit (guessitSys O base obj sh pa int) env (.str text) o).2 = .value (.dict d)) :
    ∀ n ∈ [c!"season", c!"year"], ∀ v, d.get? (.str n) = some v → ∀ x, Leaf x v → ∃ k, SeasonOrYear O.rx text n k ∧ x = .int k := by
  intro n hn v hv x hx
  obtain ⟨text', s, ht, hr, hall⟩ := guess_values rfl ho h
  cases ht
  obtain ⟨m, hm, hmn, hxm⟩ := hall n v x (by
    have : ∀ n ∈ [c!"season", c!"year"], n ≠ c!"input_string" := by decide
    exact this n hn) hv hx
  obtain ⟨k, hk, hmv⟩ := C165_program O base hl opts text hs hL s hr m hm n (by
    have : ∀ n ∈ [c!"season", c!"year"], n ∈ datedNames := by decide
    exact this n hn) hmn
  have hsi : s.input = text := by
    obtain ⟨gs, hg, h⟩ := program_starts hr
    exact (run_input (program_natural hl hg) h).1
  rw [hsi, hmv] at hxm
  exact ⟨k, hk, leaf_flat (by intro l hl; cases hl) hxm⟩

/-! ## An example -/

set_option maxRecDepth 100000

/-- A year, a season, an episode. -/
theorem dated_call : plainItems ((Api.init : Api Unit).guessit weighedSys toyEnv (.str c!"Show.2015.S03E07.mkv") .none).2 = some [
    (c!"title", some (.inl c!"Show")), (c!"year", some (.inr 2015)), (c!"season", some (.inr 3)), (c!"episode", some (.inr 7)),
    (c!"container", some (.inl c!"mkv")), (c!"mimetype", some (.inl c!"video/x-matroska")), (c!"type", some (.inl c!"episode"))] := by
  decide +kernel

theorem weighed_dated : Spec.Numbered weighedOutside c!"Show.2015.S03E07.mkv" where
  usual := latin_usual
  cased := latinUni_cased
  plain := by
    show PlainCase (latinRx 'ſ') _
    unfold PlainCase
    decide +kernel

example : ∃ d opts : Dict, optionsInForce weighedSys toyEnv Api.init .none = .ok opts ∧
    ((Api.init : Api Unit).guessit weighedSys toyEnv (.str c!"Show.2015.S03E07.mkv") .none).2 = .value (.dict d) ∧
    ∀ n ∈ [c!"season", c!"year"], ∀ v, d.get? (.str n) = some v → ∀ x, Leaf x v →
      ∃ k, SeasonOrYear weighedOutside.rx c!"Show.2015.S03E07.mkv" n k ∧ x = .int k := by
  obtain ⟨d, hd⟩ := items_dict dated_call
  exact ⟨d, _, rfl, hd, C165_guess weighedOutside asciiBase asciiBase_lower textObj _ _ _ _ _ _ weighed_dated latin_literal _ d _ rfl hd⟩

end Guessit
