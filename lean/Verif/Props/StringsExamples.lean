import Verif.Props.Strings

/-! # C120, C121: instances and counterexamples -/

namespace Guessit
open Spec Re

theorem asciiRx_digits : PlainDigits asciiRx := by
  intro d hd c
  have hall : ∀ d ∈ c!"0123456789", d.toUpper = d := by decide
  simp [asciiRx, hall d hd]

theorem latinRx_lowers (s : Str) (hs : ∀ c ∈ s, c.toNat < 128) : Lowers latinUni lowLetter s where
  ascii := by
    intro c hc
    have : c ≠ 'É' := by rintro rfl; exact absurd hc (by decide)
    simp [lowLetter, this]
  text := fun t _ => rfl

/-- What is shown of a container. -/
def shownContainer (m : Str × RxMatch Str) : Str × Nat × Nat × Option Str := (m.1, m.2.start, m.2.stop, m.2.value.toOption)

example : (extensionsFound asciiRx defaultContainers c!"/mnt/Movie.avi.part.MkV").map shownContainer = [(c!"video", 19, 23, some c!"MkV")] := by decide +kernel
example : (extensionsFound asciiRx defaultContainers c!"subs.SRT\n").map shownContainer = [(c!"subtitle", 4, 8, some c!"SRT")] := by decide +kernel
example : (extensionsFound asciiRx defaultContainers c!"movie.avi ").map shownContainer = [] := by decide +kernel
example : (extensionsFound asciiRx defaultContainers c!"movie.3gp2").map shownContainer = [(c!"video", 5, 10, some c!"3gp2")] := by decide +kernel

example : Lowers latinUni lowLetter c!"movie AVI.sub-Torrent" := latinRx_lowers _ (by decide)
example : (namedFound latinUni defaultContainers c!"movie AVI.sub-Torrent xavi").map shownContainer =
    [(c!"video", 6, 9, some c!"avi"), (c!"torrent", 14, 21, some c!"torrent")] := by decide +kernel

/-- The word `DTS-X` contains a separator and is still told apart; a word like `x-x` is not. -/
example : WordAlone lowLetter c!"DTS-X" := by
  intro k l c hk hl hc he
  have : k = 0 ∨ k = 1 ∨ k = 2 ∨ k = 3 := by simp at hk; omega
  rcases this with rfl | rfl | rfl | rfl
  · simp at hl; subst hl; exact absurd he (by revert hc c; decide)
  · simp at hl; subst hl; exact absurd he (by revert hc c; decide)
  · simp at hl; subst hl; exact absurd he (by revert hc c; decide)
  · exact ⟨0, 'X', 'D', rfl, rfl, by decide⟩

/-- `str.lower` of Python on ASCII and on `İ`, whose lower-case form is two characters. -/
def dottedUni : Uni where
  digit := asciiUni.digit
  space := asciiUni.space
  lower := fun t => t.flatMap fun c => if c = 'İ' then ['i', '\u0307'] else [lowLetter c]
  upper := List.map upLetter

/-- C120, counterexample: without the assumption on the lower-case form, what is reported need not be a container.  Four `İ` shift the
position of `avi` by four characters, to `foo`. -/
theorem C120_counterexample : (namedFound dottedUni defaultContainers c!"İİİİ avi foo bar").map shownContainer = [(c!"video", 9, 12, some c!"foo")] ∧
    ∀ e ∈ namedTable, c!"foo" ∉ e.2 := by decide +kernel

end Guessit
