import Verif.Props.ProgramCounts
import Verif.Props.QuantitiesWhole

/-! # Counts of the dictionary (C164) -/

namespace Guessit
open Spec

/-- C164: a count of episodes or seasons in the dictionary is an integer, and in the name it follows `of` or `sur`. -/
theorem C164_guess (O : Outside) (base : RuleEnv) (hl : ∀ t, base.uni.lower t = [] ↔ t = [])
    (obj : Nat → PyVal) (sh : Str → Except PyErr (List Str)) (pa : List Str → Except PyErr Dict)
    (int : Dict → Except PyErr PyVal) (env : Env) (st : Api Unit) (text : Str) (hs : Spec.Numbered O text) (o : OptArg) (d opts : Dict)
    (ho : optionsInForce (guessitSys O base obj sh pa int) env st o = .ok opts)
    (h : (st.guessit (guessitSys O base obj sh pa int) env (.str text) o).2 = .value (.dict d)) :
    ∀ n ∈ [c!"episode_count", c!"season_count", c!"count"], ∀ v, d.get? (.str n) = some v → ∀ x, Leaf x v → ∃ k, CountWritten O.rx text k ∧ x = .int k := by
  intro n hn v hv x hx
  obtain ⟨text', s, ht, hr, hall⟩ := guess_values rfl ho h
  cases ht
  obtain ⟨m, hm, hmn, hxm⟩ := hall n v x (by
    have : ∀ n ∈ [c!"episode_count", c!"season_count", c!"count"], n ≠ c!"input_string" := by decide
    exact this n hn) hv hx
  obtain ⟨k, hk, hmv⟩ := C164_program O base hl opts text hs s hr m hm n (by
    have : ∀ n ∈ [c!"episode_count", c!"season_count", c!"count"], n ∈ countNames := by decide
    exact this n hn) hmn
  have hsi : s.input = text := by
    obtain ⟨gs, hg, h⟩ := program_starts hr
    exact (run_input (program_natural hl hg) h).1
  rw [hsi, hmv] at hxm
  exact ⟨k, hk, leaf_flat (by intro l hl; cases hl) hxm⟩

/-! ## An example -/

set_option maxRecDepth 100000

/-- An episode and how many there are. -/
theorem tallied_call : plainItems ((Api.init : Api Unit).guessit weighedSys toyEnv (.str c!"Show.Episode.3of10.mkv") .none).2 = some [
    (c!"title", some (.inl c!"Show")), (c!"episode", some (.inr 3)), (c!"episode_count", some (.inr 10)),
    (c!"container", some (.inl c!"mkv")), (c!"mimetype", some (.inl c!"video/x-matroska")), (c!"type", some (.inl c!"episode"))] := by
  decide +kernel

theorem weighed_tallied : Spec.Numbered weighedOutside c!"Show.Episode.3of10.mkv" where
  usual := latin_usual
  cased := latinUni_cased
  plain := by
    show PlainCase (latinRx 'ſ') _
    unfold PlainCase
    decide +kernel

example : ∃ d opts : Dict, optionsInForce weighedSys toyEnv Api.init .none = .ok opts ∧
    ((Api.init : Api Unit).guessit weighedSys toyEnv (.str c!"Show.Episode.3of10.mkv") .none).2 = .value (.dict d) ∧
    ∀ n ∈ [c!"episode_count", c!"season_count", c!"count"], ∀ v, d.get? (.str n) = some v → ∀ x, Leaf x v →
      ∃ k, CountWritten weighedOutside.rx c!"Show.Episode.3of10.mkv" k ∧ x = .int k := by
  obtain ⟨d, hd⟩ := items_dict tallied_call
  exact ⟨d, _, rfl, hd, C164_guess weighedOutside asciiBase asciiBase_lower textObj _ _ _ _ _ _ weighed_tallied _ d _ rfl hd⟩

end Guessit
