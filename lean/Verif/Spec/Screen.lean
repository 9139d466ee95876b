import Verif.Spec.Strings
import Verif.Spec.Amounts
import Verif.Model.Screen

/-! # Screen sizes and frame rates (C122, C123) -/

namespace Guessit.Spec

/-- The text `t` is written at `a`. -/
def TextAt (s t : Str) (a : Nat) : Prop := ∀ k l, t[k]? = some l → s[a + k]? = some l

/-- The whole part of an entry. -/
def rateWhole : RateEntry → Str
  | .exact n _ => n
  | .round n => n

/-- The decimals of an entry. -/
def ratePart : RateEntry → Str
  | .exact _ f => f
  | .round _ => []

/-- The frame rates an entry stands for: `23.976`, or `24`, `24.0`, `24.00` and `24.000`. -/
def rateTexts : RateEntry → List Str
  | .exact n f => [n ++ '.' :: f]
  | .round n => [n, n ++ c!".0", n ++ c!".00", n ++ c!".000"]

/-- The frame rate `t` is written from `a` to `b`. -/
def RateAt (C : ScreenConfig) (s : Str) (a b : Nat) : Prop := ∃ e ∈ C.rates, ∃ t ∈ rateTexts e, TextAt s t a ∧ b = a + t.length

/-- One of the heights is written from `a` to `b`. -/
def HeightAt (hs : List Str) (s : Str) (a b : Nat) : Prop := ∃ t ∈ hs, TextAt s t a ∧ b = a + t.length

/-- `x` in any case, or `*`. -/
def Times (E : RxEnv) (c : Char) : Prop := E.same 'x' c = true ∨ c = '*'

/-- Three or four digits. -/
def PixelsAt (E : RxEnv) (s : Str) (a b : Nat) : Prop := a + 3 ≤ b ∧ b ≤ a + 4 ∧ AllOf s (Digit E) a b

/-- Where the parts of a screen size are. -/
structure Pieces where
  width : Option (Nat × Nat)
  height : Nat × Nat
  scan : Option (Nat × Nat)
  rate : Option (Nat × Nat)

/-- They are reported as the children of the screen size. -/
def Pieces.children (p : Pieces) (s : Str) : List (RxMatch Str) :=
  ([p.width.map fun x => (c!"width", x), some (c!"height", p.height), p.scan.map fun x => (c!"scan_type", x), p.rate.map fun x => (c!"frame_rate", x)].filterMap id).map
    fun x => { name := x.1, start := x.2.1, stop := x.2.2, value := .ok (textOf s x.2.1 x.2.2) }

/-- Either nothing, or a width and `x` or `*`, from `i` to `a`. -/
def WidthAt (E : RxEnv) (s : Str) (i a : Nat) (w : Option (Nat × Nat)) : Prop :=
  (w = none ∧ a = i) ∨ ∃ x, w = some (i, x) ∧ PixelsAt E s i x ∧ CharAt s (Times E) x ∧ a = x + 1

/-- Either nothing, or the letter `l`, from `b` to `d`. -/
def LetterMaybe (E : RxEnv) (l : Char) (s : Str) (b d : Nat) (p : Option (Nat × Nat)) : Prop :=
  (p = none ∧ d = b) ∨ (p = some (b, d) ∧ CharAt s (fun c => E.same l c = true) b ∧ d = b + 1)

/-- The five ways to write a screen size. -/
inductive SizeForm where
  | interlaced | progressive | hd | loose | pixels

/-- `1080p`, `1920x1080i25`: a width if need be, a height, the letter of the scan type and a frame rate if need be. -/
def ScannedAt (E : RxEnv) (C : ScreenConfig) (hs : List Str) (l : Char) (s : Str) (i j : Nat) (p : Pieces) : Prop :=
  ∃ a b, WidthAt E s i a p.width ∧ HeightAt hs s a b ∧ p.height = (a, b) ∧ CharAt s (fun c => E.same l c = true) b ∧ p.scan = some (b, b + 1) ∧
    ((p.rate = none ∧ j = b + 1) ∨ (p.rate = some (b + 1, j) ∧ RateAt C s (b + 1) j))

/-- A screen size is written from `i` to `j` in a form. -/
def SizeAt (E : RxEnv) (C : ScreenConfig) (s : Str) (i j : Nat) (p : Pieces) : SizeForm → Prop
  | .interlaced => ScannedAt E C C.interlaced 'i' s i j p
  | .progressive => ScannedAt E C C.progressive 'p' s i j p
  | .hd => p.rate = none ∧ ∃ a b d, WidthAt E s i a p.width ∧ HeightAt C.progressive s a b ∧ p.height = (a, b) ∧ LetterMaybe E 'p' s b d p.scan ∧
      LiteralAt E s c!"hd" d ∧ j = d + 2
  | .loose => p.rate = none ∧ ∃ a b d, WidthAt E s i a p.width ∧ HeightAt C.progressive s a b ∧ p.height = (a, b) ∧ LetterMaybe E 'p' s b d p.scan ∧
      ∃ q, LetterMaybe E 'x' s d j q
  | .pixels => p.scan = none ∧ p.rate = none ∧ ∃ x y a, p.width = some (i, x) ∧ PixelsAt E s i x ∧ MaybeSep s x y ∧ CharAt s (Times E) y ∧ MaybeSep s (y + 1) a ∧
      p.height = (a, j) ∧ PixelsAt E s a j

/-- Heights of three or four digits, none the start of another; frame rates none of which has the whole part another one starts with. -/
structure PlainScreen (C : ScreenConfig) : Prop where
  heights : ∀ t ∈ C.interlaced ++ C.progressive, (t.length = 3 ∨ t.length = 4) ∧ ∀ c ∈ t, c ∈ c!"0123456789"
  interlaced : ∀ t ∈ C.interlaced, ∀ t' ∈ C.interlaced, t <+: t' → t = t'
  progressive : ∀ t ∈ C.progressive, ∀ t' ∈ C.progressive, t <+: t' → t = t'
  rates : ∀ e ∈ C.rates, rateWhole e ≠ [] ∧ (∀ c ∈ rateWhole e, c ∈ c!"0123456789") ∧ ∀ c ∈ ratePart e, c ∈ c!"0123456789"
  apart : ∀ e ∈ C.rates, ∀ e' ∈ C.rates, rateWhole e <+: rateWhole e' → e = e'

/-- Frame rates with decimals have some, none starts with `0`, and none is the start of the decimals of another. -/
structure PlainRates (C : ScreenConfig) : Prop where
  parts : ∀ n f, RateEntry.exact n f ∈ C.rates → f ≠ []
  nonzero : ∀ e ∈ C.rates, (rateWhole e).head? ≠ some '0'
  apart : ∀ e ∈ C.rates, ∀ e' ∈ C.rates, ¬ rateWhole e <+: ratePart e'

/-- From `i` to `j`: a frame rate worth `v`, at most one separator that is not a slash, and `p` or `fps` in any case. -/
def FramesAt (E : RxEnv) (fl : Floats) (C : ScreenConfig) (s : Str) (i j : Nat) (v : Mag fl) : Prop :=
  ∃ a b, RateAt C s i a ∧ Amount E fl s i a v ∧ MaybeSep s a b ∧ ∃ w ∈ [c!"p", c!"fps"], LiteralAt E s w b ∧ j = b + w.length

end Guessit.Spec
