import Verif.Spec.EpisodeWords
import Verif.Model.SeasonWords

/-! # Seasons and episodes written with words and numerals (C141 and after) -/

namespace Guessit.Spec

/-- One of some words at `i`, at most one separator that is not a slash, and then `a`. -/
def WordThen (E : RxEnv) (ws : List Str) (s : Str) (i a : Nat) : Prop := ∃ x, MarkAt E ws s i x ∧ MaybeSep s x a

/-- From `a` to `b`, a numeral for `n`: at most four digits, a Roman numeral, or a number word. -/
def NumeralReads (E : RxEnv) (s : Str) (a b n : Nat) : Prop :=
  (Number E s a b n ∧ b ≤ a + 4) ∨ (1 ≤ n ∧ Worded E s a b n) ∨ (n = 0 ∧ ∃ w ∈ [c!"zero", c!"zéro"], Spelled E s w a b)

/-- The same; a Roman numeral or a number word stands between separators. -/
def NumeralAt (E : RxEnv) (s : Str) (a b n : Nat) : Prop := NumeralReads E s a b n ∧ (AllOf s (Digit E) a b ∨ Standing s a b)

/-- From `i` to `j`, ` - 3`: a word or a separator from `x` to `y`, with at most one separator on each side, and a number from `d`. -/
structure NextAt (E : RxEnv) (C : EpisodeConfig) (s : Str) (i x y d j : Nat) : Prop where
  before : MaybeSep s i x
  word : MarkAt E C.separators s x y
  after : MaybeSep s y d
  number : d < j ∧ AllOf s (Digit E) d j

/-- Going from `i` to `j` over `of 3`, or over ` - 3`. -/
def WordedStep (E : RxEnv) (C : EpisodeConfig) (ofs : List Str) (s : Str) (i j : Nat) : Prop :=
  (∃ c n, WordThen E ofs s i c ∧ NumeralReads E s c j n) ∨ ∃ x y d, NextAt E C s i x y d j

/-- Words of letters between numbers are no beginning of a word for seasons, nor the other way round; other words are one sign. -/
structure PlainSeasons (C : EpisodeConfig) : Prop where
  separators : ∀ w ∈ C.rangeSeparators ++ C.discreteSeparators, (∃ c ∈ c!"&" ++ seps, w = [c]) ∨
    (Lettered w ∧ ∀ w' ∈ seasonWords, ¬ w <+: w' ∧ ¬ w' <+: w)

/-- From `i` to `k`, a list of numbers such as `-2 & 3`, each given as where the word before it begins and ends, and where it begins and ends.  When there
is more than one way to see what the word is, the one that has a separator before it. -/
inductive SeasonsListed (E : RxEnv) (C : EpisodeConfig) (s : Str) : Nat → List (Nat × Nat × Nat × Nat) → Nat → Prop
  | nil {i} : SeasonsListed E C s i [] i
  | cons {i x y d j l k} : NextAt E C s i x y d j → (x = i → ∀ y', ¬ NextAt E C s i (i + 1) y' d j) → SeasonsListed E C s j l k →
      SeasonsListed E C s i ((x, y, d, j) :: l) k

/-- A first season and a list of seasons, each with the word before it. -/
def seasonsOf (E : RxEnv) (s : Str) (n : Nat) (l : List (Nat × Nat × Nat × Nat)) : List (Option Str × Int) :=
  (none, (n : Int)) :: l.map fun x => (some (textOf s x.1 x.2.1), numberAt E s x.2.2.1 x.2.2.2)

end Guessit.Spec
