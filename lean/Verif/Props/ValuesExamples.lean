import Verif.Props.ValuesWhole
import Verif.Props.GuessRuns
import Mathlib.Logic.Encodable.Basic
import Mathlib.Logic.Equiv.List

/-! # Calls that meet the hypotheses of C158 -/

namespace Guessit
open Spec

set_option maxRecDepth 100000

/-- A number for each list of texts. -/
def listCode (vs : List Str) : Nat := Encodable.encode (vs.map (List.map Char.toNat))

def codedList (n : Nat) : PyVal := match (Encodable.decode n : Option (List (List Nat))) with
  | some vs => .list (vs.map fun w => .str (w.map Char.ofNat))
  | none => .none

theorem coded_list (vs : List Str) : codedList (listCode vs) = .list (vs.map PyVal.str) := by
  unfold codedList listCode
  rw [Encodable.encodek]
  simp only [List.map_map]
  congr 1
  refine List.map_congr_left fun w _ => ?_
  simp only [Function.comp, List.map_map]
  congr 1
  conv => rhs; rw [← List.map_id w]
  exact List.map_congr_left fun c _ => Char.ofNat_toNat c

def listedOutside : Outside := { asciiOutside with codes := { asciiOutside.codes with list := listCode } }

def listedSys : Sys Unit := guessitSys listedOutside asciiBase codedList (fun _ => .ok []) (fun _ => .ok []) (fun _ => .ok .none)

/-- `guessit('A.2001.VC1.BDRip.mkv')`: three properties with words; `VC-1` is not in docs/properties.md. -/
theorem vc1_call : plainItems ((Api.init : Api Unit).guessit listedSys toyEnv (.str c!"A.2001.VC1.BDRip.mkv") .none).2 = some [(c!"title", some (.inl c!"A")),
    (c!"year", some (.inr 2001)), (c!"video_codec", some (.inl c!"VC-1")), (c!"source", some (.inl c!"Blu-ray")), (c!"other", some (.inl c!"Rip")),
    (c!"container", some (.inl c!"mkv")), (c!"mimetype", some (.inl c!"video/x-matroska")), (c!"type", some (.inl c!"movie"))] := by
  decide +kernel

example : ∃ d opts : Dict, optionsInForce listedSys toyEnv Api.init .none = .ok opts ∧
    ((Api.init : Api Unit).guessit listedSys toyEnv (.str c!"A.2001.VC1.BDRip.mkv") .none).2 = .value (.dict d) ∧
    ∀ n ∈ listedNames, ∀ v, d.get? (.str n) = some v → ∀ x, Leaf x v → ∃ w, x = .str w ∧
      MeantAs c!"A.2001.VC1.BDRip.mkv" asciiBase.uni.lower cleanup (lexicon n) w := by
  obtain ⟨d, hd⟩ := items_dict vc1_call
  exact ⟨d, _, rfl, hd, C158_values listedOutside asciiBase asciiBase_lower codedList coded_list _ _ _ _ _ _ _ d _ rfl hd⟩

/-- `VC-1` is a value that guessit gives and that is not documented. -/
theorem vc1_undocumented : ∃ ws, documentedValues.lookup c!"video_codec" = some ws ∧ c!"VC-1" ∉ ws := ⟨_, rfl, by decide⟩

end Guessit
