import Verif.Props.ProgramNumbers
import Verif.Props.QuantitiesWhole

/-! # Numbers of the dictionary (C162) -/

namespace Guessit
open Spec

/-- C162: a week, a part, a disc, a count of discs, a bonus or a film number in the dictionary is an integer, and that number is written in the name. -/
theorem C162_guess (O : Outside) (base : RuleEnv) (hl : ∀ t, base.uni.lower t = [] ↔ t = [])
    (obj : Nat → PyVal) (sh : Str → Except PyErr (List Str)) (pa : List Str → Except PyErr Dict)
    (int : Dict → Except PyErr PyVal) (env : Env) (st : Api Unit) (text : Str) (hs : Spec.Numbered O text) (o : OptArg) (d opts : Dict)
    (ho : optionsInForce (guessitSys O base obj sh pa int) env st o = .ok opts)
    (h : (st.guessit (guessitSys O base obj sh pa int) env (.str text) o).2 = .value (.dict d)) :
    ∀ n ∈ [c!"week", c!"part", c!"cd", c!"cd_count", c!"bonus", c!"film"], ∀ v, d.get? (.str n) = some v → ∀ x, Leaf x v →
      ∃ k, NumberWritten O.rx text n k ∧ x = .int k := by
  intro n hn v hv x hx
  obtain ⟨text', s, ht, hr, hall⟩ := guess_values rfl ho h
  cases ht
  have hin : n ≠ c!"input_string" := by
    have : ∀ n ∈ countedNames, n ≠ c!"input_string" := by decide +kernel
    exact this n hn
  obtain ⟨m, hm, hmn, hxm⟩ := hall n v x hin hv hx
  obtain ⟨k, hk, hmv⟩ := C162_program O base hl opts text hs s hr m hm n hn hmn
  have hsi : s.input = text := by
    obtain ⟨gs, hg, h⟩ := program_starts hr
    exact (run_input (program_natural hl hg) h).1
  rw [hsi, hmv] at hxm
  exact ⟨k, hk, leaf_flat (by intro l hl; cases hl) hxm⟩

/-! ## An example -/

set_option maxRecDepth 100000

/-- A disc, the count of discs and a part in words. -/
theorem numbered_call : plainItems ((Api.init : Api Unit).guessit weighedSys toyEnv (.str c!"A.2001.Part.Two.CD1of3.mkv") .none).2 = some [
    (c!"title", some (.inl c!"A")), (c!"year", some (.inr 2001)), (c!"part", some (.inr 2)), (c!"cd", some (.inr 1)), (c!"cd_count", some (.inr 3)),
    (c!"container", some (.inl c!"mkv")), (c!"mimetype", some (.inl c!"video/x-matroska")), (c!"type", some (.inl c!"movie"))] := by
  decide +kernel

theorem weighed_numbered : Spec.Numbered weighedOutside c!"A.2001.Part.Two.CD1of3.mkv" where
  usual := latin_usual
  cased := latinUni_cased
  plain := by
    show PlainCase (latinRx 'ſ') _
    unfold PlainCase
    decide +kernel

example : ∃ d opts : Dict, optionsInForce weighedSys toyEnv Api.init .none = .ok opts ∧
    ((Api.init : Api Unit).guessit weighedSys toyEnv (.str c!"A.2001.Part.Two.CD1of3.mkv") .none).2 = .value (.dict d) ∧
    ∀ n ∈ [c!"week", c!"part", c!"cd", c!"cd_count", c!"bonus", c!"film"], ∀ v, d.get? (.str n) = some v → ∀ x, Leaf x v →
      ∃ k, NumberWritten weighedOutside.rx c!"A.2001.Part.Two.CD1of3.mkv" n k ∧ x = .int k := by
  obtain ⟨d, hd⟩ := items_dict numbered_call
  exact ⟨d, _, rfl, hd, C162_guess weighedOutside asciiBase asciiBase_lower textObj _ _ _ _ _ _ weighed_numbered _ d _ rfl hd⟩

end Guessit
