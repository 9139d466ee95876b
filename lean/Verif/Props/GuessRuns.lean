import Verif.Props.Guess
import Verif.Props.GuessExamples

/-! # Calls that meet the hypotheses of C153 to C157 -/

namespace Guessit
open Spec

set_option maxRecDepth 100000

theorem items_dict {x : Outcome} {l : List (Str × Option (Str ⊕ Int))} (h : plainItems x = some l) : ∃ d, x = .value (.dict d) := by
  unfold plainItems at h
  cases hd : dictOf x with
  | none => rw [hd] at h; cases h
  | some d => exact ⟨d, dictOf_some hd⟩

theorem asciiBase_lower : ∀ t, asciiBase.uni.lower t = [] ↔ t = [] := asciiEnv_natural.lower

/-- `guessit('A.2001.mkv')`: a title, a year, a container and a type. -/
theorem movie_call : plainItems ((Api.init : Api Unit).guessit asciiSys toyEnv (.str c!"A.2001.mkv") .none).2 = some [(c!"title", some (.inl c!"A")),
    (c!"year", some (.inr 2001)), (c!"container", some (.inl c!"mkv")), (c!"mimetype", some (.inl c!"video/x-matroska")), (c!"type", some (.inl c!"movie"))] := by
  decide +kernel

/-- C153, C155 and C156 speak of that call. -/
example : ∃ d opts : Dict, optionsInForce asciiSys toyEnv Api.init .none = .ok opts ∧ isDisabled opts c!"type" = false ∧ isDisabled opts c!"mimetype" = false ∧
    ((Api.init : Api Unit).guessit asciiSys toyEnv (.str c!"A.2001.mkv") .none).2 = .value (.dict d) ∧
    ∀ k v, d.get? k = some v → ∃ n, k = .str n ∧ (n ∈ documented ++ undocumented ∨ n = c!"input_string" ∨ n = c!"another" ∧ isDisabled opts c!"other" = true) := by
  obtain ⟨d, hd⟩ := items_dict movie_call
  exact ⟨d, _, rfl, rfl, rfl, hd, C153_keys asciiOutside asciiBase asciiBase_lower _ _ _ _ _ _ _ _ d _ rfl hd⟩

/-- `guessit('A.2001.mkv', {'excludes': ['container']})`: no container; the extension becomes a title. -/
theorem excluded_call : plainItems ((Api.init : Api Unit).guessit asciiSys toyEnv (.str c!"A.2001.mkv") (.dict [(.str c!"excludes", .list [.str c!"container"])])).2 =
    some [(c!"title", some (.inl c!"A")), (c!"year", some (.inr 2001)), (c!"alternative_title", some (.inl c!"mkv")),
      (c!"mimetype", some (.inl c!"video/x-matroska")), (c!"type", some (.inl c!"movie"))] := by
  decide +kernel

/-- C154 speaks of that call. -/
example : ∃ d : Dict, ((Api.init : Api Unit).guessit asciiSys toyEnv (.str c!"A.2001.mkv") (.dict [(.str c!"excludes", .list [.str c!"container"])])).2 =
    .value (.dict d) ∧ ¬ Has d c!"container" := by
  obtain ⟨d, hd⟩ := items_dict excluded_call
  exact ⟨d, hd, C154_excluded_partial asciiOutside asciiBase asciiBase_lower _ _ _ _ _ _ _ _ d _ rfl hd [c!"container"] [] c!"container" (Or.inr rfl)
    (Or.inl ⟨rfl, rfl⟩) (Or.inl (List.mem_singleton.2 rfl)) (by decide)⟩

/-- `guessit('2001.e2')`: a year, an episode, and so a season. -/
theorem episode_call : plainItems ((Api.init : Api Unit).guessit asciiSys toyEnv (.str c!"2001.e2") .none).2 = some [(c!"year", some (.inr 2001)),
    (c!"season", some (.inr 2001)), (c!"episode", some (.inr 2)), (c!"mimetype", some (.inl c!"video/x-matroska")), (c!"type", some (.inl c!"episode"))] := by
  decide +kernel

end Guessit
