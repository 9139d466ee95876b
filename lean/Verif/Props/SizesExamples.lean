import Verif.Props.Sizes
import Verif.Props.ConflictsExamples

/-! # Examples for C93, C95 and C97 -/

namespace Guessit
open Spec

/-! ## C93 -/

/-- The parts of `1920x1080`, `1900x1000`, `720p50` and `1920x000` at the start of the text. -/
def sizeKin (w h scan : Option (Nat × Nat)) (rate : Option (Nat × Nat)) : Kin where
  initiator := id
  children _ := (w.map fun p => wordMt 0 p.1 p.2 [] c!"width").toList ++ (h.map fun p => wordMt 0 p.1 p.2 [] c!"height").toList ++
    (scan.map fun p => wordMt 0 p.1 p.2 [] c!"scan_type").toList ++ (rate.map fun p => wordMt 0 p.1 p.2 [] c!"frame_rate").toList
  pattern := Mt.id
  ancestors _ := []

/-- The number written with the digits of a text. -/
def numVal (t : Str) : Nat := t.foldl (fun n c => n * 10 + (c.toNat - 48)) 0

/-- Two decimals of the ratio are enough here. -/
def sizeEnv : SizeEnv where
  standard := [c!"720", c!"1080"]
  within w h := decide (1333 * numVal h < 1000 * numVal w) && decide (1000 * numVal w < 1898 * numVal h)
  ratio w h := .int (1000 * numVal w / numVal h)
  frames t := .str (t ++ c!"fps")
  lower := List.map Char.toLower

def sizeText (text : Str) : Ms where
  input := text
  live := [wordMt 1 0 text.length [] c!"screen_size"]
  markers := []

/-- `1920x1080` is `1080p`, and its aspect ratio is added. -/
example : (postProcessSize sizeEnv (sizeKin (some (0, 4)) (some (5, 9)) none none) false false (sizeText c!"1920x1080")).map report =
    some [(some c!"screen_size", 0, 9, .str c!"1080p"), (some c!"aspect_ratio", 0, 9, .int 1777)] := by decide +kernel

/-- `1920x1000`: the height is not a standard one. -/
example : (postProcessSize sizeEnv (sizeKin (some (0, 4)) (some (5, 9)) none none) false true (sizeText c!"1920x1000")).map report =
    some [(some c!"screen_size", 0, 9, .str c!"1920x1000")] := by decide +kernel

/-- `3000x1080`: the aspect ratio is out of bounds. -/
example : (postProcessSize sizeEnv (sizeKin (some (0, 4)) (some (5, 9)) none none) false true (sizeText c!"3000x1080")).map report =
    some [(some c!"screen_size", 0, 9, .str c!"3000x1080")] := by decide +kernel

/-- `1080I50` gives `1080i` and a frame rate. -/
example : (postProcessSize sizeEnv (sizeKin none (some (0, 4)) (some (4, 5)) (some (5, 7))) false false (sizeText c!"1080I50")).map report =
    some [(some c!"screen_size", 0, 7, .str c!"1080i"), (some c!"frame_rate", 5, 7, .str c!"50fps")] := by decide +kernel

/-- `1920x000` makes the rule raise. -/
theorem C93_zero_counterexample : ∃ (e : SizeEnv) (kin : Kin) (s : Ms), Sound s ∧ s.input = c!"1920x000" ∧
    (∀ m ∈ s.live, m.name = some c!"screen_size" ∧ ChildText kin s.input m c!"width" c!"1920" ∧ ChildText kin s.input m c!"height" c!"000") ∧
    ∀ noFrames noRatio, postProcessSize e kin noFrames noRatio s = none := by
  refine ⟨sizeEnv, sizeKin (some (0, 4)) (some (5, 8)) none none, sizeText c!"1920x000", sound_of (by decide) (by decide), rfl, ?_, ?_⟩
  · intro m hm
    simp only [sizeText, List.mem_singleton] at hm
    subst hm
    exact ⟨rfl, childText_iff.1 (by decide), childText_iff.1 (by decide)⟩
  · intro a b
    rw [C93_raises]
    exact ⟨_, List.mem_singleton.2 rfl, rfl, c!"000", c!"1920", childText_iff.1 (by decide), childText_iff.1 (by decide), by decide⟩

/-! ## C95 -/

/-- `1080p 3Mbps AC3 5Mbps`: the first bit rate follows a screen size, and is followed by an audio codec. -/
def rateState (a b : Int) : Ms where
  input := c!"1080p 3Mbps AC3 5Mbps"
  live := [wordMt 1 0 5 [] c!"screen_size", { wordMt 2 6 11 [] c!"audio_bit_rate" with val := some (.int a) }, wordMt 3 12 15 [] c!"audio_codec",
    { wordMt 4 16 21 [] c!"audio_bit_rate" with val := some (.int b) }]
  markers := []

/-- Less than 10 Mbps. -/
def slowRate : MVal → Bool
  | .int n => decide (n < 10)
  | _ => false

example : report (bitRateType slowRate false false (rateState 12 5)) =
    [(some c!"screen_size", 0, 5, .str c!"1080p"), (some c!"audio_codec", 12, 15, .str c!"AC3"), (some c!"audio_bit_rate", 16, 21, .int 5),
      (some c!"video_bit_rate", 6, 11, .int 12)] := by decide +kernel
example : report (bitRateType slowRate false false (rateState 3 5)) = report (rateState 3 5) := by decide +kernel
example : report (bitRateType slowRate false true (rateState 12 5)) =
    [(some c!"screen_size", 0, 5, .str c!"1080p"), (some c!"audio_codec", 12, 15, .str c!"AC3"), (some c!"audio_bit_rate", 16, 21, .int 5)] := by
  decide +kernel
example : report (bitRateType slowRate true false (rateState 12 5)) =
    [(some c!"screen_size", 0, 5, .str c!"1080p"), (some c!"audio_codec", 12, 15, .str c!"AC3")] := by decide +kernel

/-- The hypothesis of the theorems on bit rates is met, and one of them belongs to the video. -/
theorem rateState_sound : Sound (rateState 12 5) := sound_of (by decide) (by decide)

example : VideoRate slowRate (rateState 12 5) { wordMt 2 6 11 [] c!"audio_bit_rate" with val := some (.int 12) } :=
  (videoRate_iff rateState_sound).1 ⟨rfl, by decide +kernel⟩
example : ¬ VideoRate slowRate (rateState 12 5) { wordMt 4 16 21 [] c!"audio_bit_rate" with val := some (.int 5) } := fun h =>
  absurd ((videoRate_iff rateState_sound).2 h).2 (by decide +kernel)

/-! ## C97 -/

def wordsState : Ms where
  input := c!"BRRip french"
  live := [wordMt 1 0 2 [] c!"another", wordMt 2 6 12 [] c!"language"]
  markers := []

example : Sound wordsState := sound_of (by decide) (by decide)
example : report (anotherToOther wordsState) = [(some c!"language", 6, 12, .str c!"french"), (some c!"other", 0, 2, .str c!"BR")] := by decide +kernel
example : report (removeLanguage true wordsState) = [(some c!"another", 0, 2, .str c!"BR")] := by decide +kernel
example : report (removeLanguage false wordsState) = report wordsState := by decide +kernel

end Guessit
