import Verif.Props.ProgramQuoted
import Verif.Props.ValuesWhole
import Verif.Props.GuessRuns

/-! # Texts taken from the name, in the dictionary (C159) -/

namespace Guessit
open Spec

/-- C159: what a title, a release group, a website, a checksum or an identifier holds, alone or in a list, is a text taken from the name. -/
theorem C159_guess (O : Outside) (base : RuleEnv) (hl : ∀ t, base.uni.lower t = [] ↔ t = []) (obj : Nat → PyVal)
    (sh : Str → Except PyErr (List Str)) (pa : List Str → Except PyErr Dict)
    (int : Dict → Except PyErr PyVal) (env : Env) (st : Api Unit) (text : Str) (o : OptArg) (d opts : Dict)
    (ho : optionsInForce (guessitSys O base obj sh pa int) env st o = .ok opts)
    (h : (st.guessit (guessitSys O base obj sh pa int) env (.str text) o).2 = .value (.dict d)) :
    ∀ n ∈ freeNames, ∀ v, d.get? (.str n) = some v → ∀ x, Leaf x v → ∃ w, x = .str w ∧ TakenFrom text base.uni.lower w := by
  intro n hn v hv x hx
  obtain ⟨text', s, ht, hs, hall⟩ := guess_values rfl ho h
  cases ht
  have hin : n ≠ c!"input_string" := by
    have : ∀ n ∈ freeNames, n ≠ c!"input_string" := by decide +kernel
    exact this n hn
  obtain ⟨m, hm, hmn, hxm⟩ := hall n v x hin hv hx
  obtain ⟨w, hw, hmean⟩ := C159_program O base hl opts text s hs m hm n hn hmn
  have hsi : s.input = text := by
    obtain ⟨gs, hg, h⟩ := program_starts hs
    exact (run_input (program_natural hl hg) h).1
  rw [hsi, hw] at hxm
  exact ⟨w, leaf_flat (fun _ hh => by cases hh) hxm, hmean⟩

set_option maxRecDepth 100000

example : ∃ d opts : Dict, optionsInForce asciiSys toyEnv Api.init .none = .ok opts ∧
    ((Api.init : Api Unit).guessit asciiSys toyEnv (.str c!"A.2001.mkv") .none).2 = .value (.dict d) ∧
    ∀ n ∈ freeNames, ∀ v, d.get? (.str n) = some v → ∀ x, Leaf x v → ∃ w, x = .str w ∧ TakenFrom c!"A.2001.mkv" asciiBase.uni.lower w := by
  obtain ⟨d, hd⟩ := items_dict movie_call
  exact ⟨d, _, rfl, hd, C159_guess asciiOutside asciiBase asciiBase_lower _ _ _ _ _ _ _ _ d _ rfl hd⟩

/-- An article is moved: `guessit('B, The 2001.mkv')`. -/
theorem article_call : plainItems ((Api.init : Api Unit).guessit asciiSys toyEnv (.str c!"B, The 2001.mkv") .none).2 = some [(c!"title", some (.inl c!"The B")),
    (c!"year", some (.inr 2001)), (c!"container", some (.inl c!"mkv")), (c!"mimetype", some (.inl c!"video/x-matroska")), (c!"type", some (.inl c!"movie"))] := by
  decide +kernel

/-- `The B` is taken from that name; `A` is not taken from `B.2001.mkv`. -/
example : TakenFrom c!"B, The 2001.mkv" id c!"The B" := ⟨c!"The B", 0, 6, rfl, c!"B", c!"The", by decide, by decide⟩

example : ¬ TakenFrom c!"B.2001.mkv" id c!"A" := by
  rintro ⟨w', a, b, h, x, y, h1, h2⟩
  simp only [id_eq] at h
  subst h
  have hA : 'A' ∈ y ++ x := h2.subset (by decide)
  have : 'A' ∈ wordChars ((c!"B.2001.mkv".take b).drop a) := by rw [h1]; simpa [or_comm] using hA
  have := List.mem_of_mem_take (List.mem_of_mem_drop (List.mem_filter.1 this).1)
  revert this
  decide

end Guessit
