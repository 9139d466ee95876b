import Verif.Props.Frames
import Verif.Props.AmountsExamples

/-! # C122, C123: instances -/

namespace Guessit
open Spec Re

example : Usual asciiRx ∧ PlainDigits asciiRx ∧ PlainScreen defaultScreen ∧ PlainRates defaultScreen :=
  ⟨asciiRx_usual, asciiRx_digits, defaultScreen_plain, defaultScreen_rates⟩

/-- What is shown of a screen size. -/
def shownScreen (x : RxMatch Str × List (RxMatch Str)) : (Nat × Nat) × List (Str × Option Str) :=
  ((x.1.start, x.1.stop), x.2.map fun m => (m.name, m.value.toOption))

/-- The progressive and the loose form both find it. -/
example : (screensFound asciiRx defaultScreen c!"Movie.1920x1080P.mkv").map shownScreen =
    [((6, 16), [(c!"width", some c!"1920"), (c!"height", some c!"1080"), (c!"scan_type", some c!"P")]),
     ((6, 16), [(c!"width", some c!"1920"), (c!"height", some c!"1080"), (c!"scan_type", some c!"P")])] := by decide +kernel
example : (screensFound asciiRx defaultScreen c!"720p23.976 1080i50 720hd").map shownScreen =
    [((11, 18), [(c!"height", some c!"1080"), (c!"scan_type", some c!"i"), (c!"frame_rate", some c!"50")]),
     ((0, 10), [(c!"height", some c!"720"), (c!"scan_type", some c!"p"), (c!"frame_rate", some c!"23.976")]),
     ((19, 24), [(c!"height", some c!"720")])] := by decide +kernel
example : (screensFound asciiRx defaultScreen c!"640 x 480").map shownScreen =
    [((6, 9), [(c!"height", some c!"480")]), ((0, 9), [(c!"width", some c!"640"), (c!"height", some c!"480")])] := by decide +kernel
/-- A height of zero is found too (see C93). -/
example : (screensFound asciiRx defaultScreen c!"1920x000").map shownScreen =
    [((0, 8), [(c!"width", some c!"1920"), (c!"height", some c!"000")])] := by decide +kernel
/-- The longest frame rate is taken; with one more digit it does not end at a separator, and nothing is found although `1080p24` is written. -/
example : (screensFound asciiRx defaultScreen c!"1080p24.000").map shownScreen =
    [((0, 11), [(c!"height", some c!"1080"), (c!"scan_type", some c!"p"), (c!"frame_rate", some c!"24.000")])] := by decide +kernel
example : (screensFound asciiRx defaultScreen c!"1080p24.0000").map shownScreen = [] := by decide +kernel
/-- `1080p` stands between separators, and the width before it hides it. -/
example : (screensFound asciiRx defaultScreen c!"1920*1080p").map (fun x => (x.1.start, x.1.stop)) = [(0, 10), (0, 10)] := by decide +kernel

/-- What is shown of a frame rate. -/
def shownRate (m : RxMatch (Quantity textFloats)) : Nat × Nat × Option ((Int ⊕ Str) × Str) := shownAmount m

example : ((ratePattern asciiRx capWord textFloats defaultScreen).found c!"24fps 23.976.P 24.0000p 60-fps").map shownRate =
    [(0, 5, some (.inl 24, c!"fps")), (6, 14, some (.inr c!"23.976", c!"fps")), (24, 30, some (.inl 60, c!"fps"))] := by decide +kernel

end Guessit
