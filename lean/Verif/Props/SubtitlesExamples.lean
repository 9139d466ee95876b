import Verif.Props.Subtitles
import Verif.Props.SizesExamples

/-! # Examples for C96 -/

namespace Guessit
open Spec

/-- A prefix and the suffix found at the same place. -/
def subPre (id a b : Nat) : Mt := wordMt id a b [] c!"subtitle_language.prefix"
def subSuf (id a b : Nat) : Mt := wordMt id a b [] c!"subtitle_language.suffix"
def langMt (id a b : Nat) (tags : List Str := []) : Mt := wordMt id a b tags c!"language"

/-- `Sub fr [en it] x sub`: the first prefix announces `fr`, the last one nothing. -/
def preState : Ms where
  input := c!"Sub fr [sub en it] x sub"
  live := [subPre 1 0 3, subSuf 2 0 3, langMt 3 4 6, subPre 4 8 11, langMt 5 12 14, langMt 6 15 17, subPre 7 21 24, wordMt 8 4 6 [] c!"country"]
  markers := marksOf [] c!"([{" c!")]}" c!"Sub fr [sub en it] x sub"

theorem preState_sound : Sound preState := ⟨by unfold WellFormed; decide, by decide +kernel⟩

/-- `fr` is announced by the first word; `en` and `it` by the one in the group; the country that overlaps `fr`, the last prefix, which
announces nothing, and the suffix at the place of the first prefix are dropped. -/
example : (subtitlePrefixRule preState).map report = some [(some c!"subtitle_language.prefix", 0, 3, .str c!"Sub"),
    (some c!"subtitle_language.prefix", 8, 11, .str c!"sub"), (some c!"subtitle_language", 4, 6, .str c!"fr"),
    (some c!"subtitle_language", 12, 14, .str c!"en"), (some c!"subtitle_language", 15, 17, .str c!"it")] := by decide +kernel

/-- The hypotheses of `C96_prefix` are met. -/
example : Sound preState ∧ (∀ y ∈ preState.live, (∃ p, Announced preState y p) → ∀ x ∈ preState.live, IsPrefix x → ¬ Overlaps y x) ∧
    (∃ y ∈ preState.live, ∃ p, Announced preState y p) ∧ ∃ s', subtitlePrefixRule preState = some s' := by
  refine ⟨preState_sound, ?_, ⟨langMt 3 4 6, by simp [preState], subPre 1 0 3, rfl, (subtitlePrefix_iff preState_sound).1 (by rfl)⟩, ?_⟩
  · rintro y hy ⟨p, hp, _⟩ x hx hpx
    have : ∀ y ∈ preState.live, y.name = some c!"language" → ∀ x ∈ preState.live, x.name = some c!"subtitle_language.prefix" →
      ¬ (x.start < y.stop ∧ y.start < x.stop) := by decide
    exact this y hy hp x hx hpx
  · have : (subtitlePrefixRule preState).isSome = true := by decide +kernel
    exact Option.isSome_iff_exists.1 this

/-- `Sub pt-br`: both `pt` and `pt-br` are taken for the language. -/
def clashState : Ms where
  input := c!"Sub pt-br"
  live := [subPre 1 0 3, langMt 2 4 6, langMt 3 4 9]
  markers := []

/-- Two overlapping languages after a prefix make the rule raise. -/
theorem C96_clash_counterexample : Sound clashState ∧ subtitlePrefixRule clashState = none := by
  have hs : Sound clashState := sound_of (by decide) (by decide)
  refine ⟨hs, (C96_prefix_raises clashState hs).2 ⟨langMt 2 4 6, by simp [clashState], langMt 3 4 9, by simp [clashState], ?_, ?_, ?_, ?_⟩⟩
  · exact ⟨subPre 1 0 3, rfl, (subtitlePrefix_iff hs).1 rfl⟩
  · exact ⟨subPre 1 0 3, rfl, (subtitlePrefix_iff hs).1 rfl⟩
  · intro e; exact absurd (congrArg Mt.id e) (by decide)
  · unfold Overlaps; decide

/-- `fr sub en x sub`. -/
def sufState : Ms where
  input := c!"fr sub en x sub"
  live := [langMt 1 0 2, subSuf 2 3 6, langMt 3 7 9, wordMt 4 10 11 [], subSuf 5 12 15]
  markers := []

theorem sufState_sound : Sound sufState := sound_of (by decide) (by decide)

example : (subtitleSuffixRule sufState).map report = some [(some c!"subtitle_language.suffix", 3, 6, .str c!"sub"),
    (some c!"language", 7, 9, .str c!"en"), (some c!"other", 10, 11, .str c!"x"), (some c!"subtitle_language", 0, 2, .str c!"fr")] := by decide +kernel

example : SuffixAfter sufState (langMt 1 0 2) (subSuf 2 3 6) :=
  ⟨rfl, (nextNamed_iff sufState_sound isSubSuffix_iff).1 (by rfl)⟩

/-- `en TS.srt`, of which `TS` may be a language. -/
def srtState : Ms where
  input := c!"en TS.srt"
  live := [{ langMt 1 0 2 [c!"weak-language"] with name := some c!"subtitle_language" }, wordMt 2 3 5 [] c!"source", langMt 3 3 5,
    wordMt 4 6 9 [c!"extension", c!"subtitle"] c!"container"]
  markers := []

theorem srtState_sound : Sound srtState := ⟨by unfold WellFormed; decide, by decide +kernel⟩

example : (subtitleExtension srtState).live.map (fun m => (m.name, m.start, m.priv)) =
    [(some c!"subtitle_language", 0, true), (some c!"container", 6, false), (some c!"subtitle_language", 3, false)] := by decide +kernel

/-- The hypotheses of `C96_extension` are met, and those of `C96_no_extension`. -/
example : ExtensionLanguage srtState (langMt 3 3 5) := (extensionLanguage_iff srtState_sound).1 (by rfl)
example : ¬ ∃ x, ExtensionLanguage sufState x :=
  (none_of_some_iff fun a => extensionLanguage_iff sufState_sound).1 (by decide +kernel)

end Guessit
