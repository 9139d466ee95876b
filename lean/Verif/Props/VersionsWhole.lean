import Verif.Props.ProgramVersions
import Verif.Props.QuantitiesWhole

/-! # Versions of the dictionary (C163) -/

namespace Guessit
open Spec

/-- C163: a version in the dictionary is an integer, and in the name its digits follow a `v`. -/
theorem C163_guess (O : Outside) (base : RuleEnv) (hl : ∀ t, base.uni.lower t = [] ↔ t = [])
    (obj : Nat → PyVal) (sh : Str → Except PyErr (List Str)) (pa : List Str → Except PyErr Dict)
    (int : Dict → Except PyErr PyVal) (env : Env) (st : Api Unit) (text : Str) (hE : Usual O.rx) (o : OptArg) (d opts : Dict)
    (ho : optionsInForce (guessitSys O base obj sh pa int) env st o = .ok opts)
    (h : (st.guessit (guessitSys O base obj sh pa int) env (.str text) o).2 = .value (.dict d)) :
    ∀ v, d.get? (.str c!"version") = some v → ∀ x, Leaf x v → ∃ k, VersionWritten O.rx text k ∧ x = .int k := by
  intro v hv x hx
  obtain ⟨text', s, ht, hr, hall⟩ := guess_values rfl ho h
  cases ht
  obtain ⟨m, hm, hmn, hxm⟩ := hall c!"version" v x (by decide) hv hx
  obtain ⟨k, hk, hmv⟩ := C163_program O base hl opts text hE s hr m hm hmn
  have hsi : s.input = text := by
    obtain ⟨gs, hg, h⟩ := program_starts hr
    exact (run_input (program_natural hl hg) h).1
  rw [hsi, hmv] at hxm
  exact ⟨k, hk, leaf_flat (by intro l hl; cases hl) hxm⟩

/-! ## An example -/

set_option maxRecDepth 100000

/-- The second version of an episode. -/
theorem versioned_call : plainItems ((Api.init : Api Unit).guessit weighedSys toyEnv (.str c!"Show.e03v2.mkv") .none).2 = some [
    (c!"title", some (.inl c!"Show")), (c!"episode", some (.inr 3)), (c!"version", some (.inr 2)),
    (c!"container", some (.inl c!"mkv")), (c!"mimetype", some (.inl c!"video/x-matroska")), (c!"type", some (.inl c!"episode"))] := by
  decide +kernel

example : ∃ d opts : Dict, optionsInForce weighedSys toyEnv Api.init .none = .ok opts ∧
    ((Api.init : Api Unit).guessit weighedSys toyEnv (.str c!"Show.e03v2.mkv") .none).2 = .value (.dict d) ∧
    ∀ v, d.get? (.str c!"version") = some v → ∀ x, Leaf x v → ∃ k, VersionWritten weighedOutside.rx c!"Show.e03v2.mkv" k ∧ x = .int k := by
  obtain ⟨d, hd⟩ := items_dict versioned_call
  exact ⟨d, _, rfl, hd, C163_guess weighedOutside asciiBase asciiBase_lower textObj _ _ _ _ _ _ latin_usual _ d _ rfl hd⟩

end Guessit
