import Verif.Props.Amounts
import Verif.Props.PartExamples

/-! # C119: instances -/

namespace Guessit
open Spec Re

/-- `str.capitalize` on letters. -/
def capWord : Str → Str
  | [] => []
  | c :: t => upLetter c :: t.map lowLetter

theorem capWord_capitalizes : Capitalizes capWord := fun _ _ _ _ => rfl

/-- Floats that are kept as they are written. -/
def textFloats : Floats where
  F := Str
  ofText := id
  toText := id
  eq := fun a b => a == b
  eqInt := fun _ _ => false

/-- Whether a magnitude is whole, and how it is written. -/
def magText : Mag textFloats → Sum Int Str
  | .int n => .inl n
  | .float x => .inr x

/-- What is shown of a quantity. -/
abbrev ShownAmount := Nat × Nat × Option (Sum Int Str × Str)

instance : DecidableEq (Sum Int Str × Str) := inferInstance
instance : DecidableEq (Option (Sum Int Str × Str)) := inferInstance
instance : DecidableEq (Nat × Option (Sum Int Str × Str)) := inferInstance
instance : DecidableEq ShownAmount := inferInstance

/-- Where a quantity is found, its magnitude and its units. -/
def shownAmount (m : RxMatch (Quantity textFloats)) : ShownAmount :=
  (m.start, m.stop, m.value.toOption.map fun q => (magText q.magnitude, q.units))

example : Usual (latinRx 'ſ') ∧ Cased latinUni := ⟨latin_usual, latinUni_cased⟩
example : PlainCase (latinRx 'ſ') c!"Movie.1.5GB.700 mb.avi" := by unfold PlainCase; decide +kernel

/-- The decimals of "1.5GB" are found a second time, as the whole number 5: the longer match wins later. -/
example : (sizesFound (latinRx 'ſ') capWord textFloats c!"Movie.1.5GB.700 mb.8gbx.avi").map shownAmount =
    [(8, 11, some (.inl 5, c!"GB")), (12, 18, some (.inl 700, c!"MB")), (6, 11, some (.inr c!"1.5", c!"GB"))] := by decide +kernel

example : (bitRatesFound (latinRx 'ſ') capWord textFloats c!"Song 320Kbps-1.5.mbits 64kb 7 GBIT").map shownAmount =
    [(5, 12, some (.inl 320, c!"Kbps")), (15, 22, some (.inl 5, c!"Mbps")), (28, 34, some (.inl 7, c!"Gbps")),
     (13, 22, some (.inr c!"1.5", c!"Mbps"))] := by decide +kernel

end Guessit
