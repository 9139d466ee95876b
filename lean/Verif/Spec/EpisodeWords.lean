import Verif.Spec.Chain
import Verif.Model.EpisodeWords

/-! # Episodes written with words (C129 and after) -/

namespace Guessit.Spec

/-- From `i` to `j`, a number: all the digits that are there. -/
structure WholeNumber (E : RxEnv) (s : Str) (i j : Nat) : Prop where
  some : i < j
  digits : AllOf s (Digit E) i j
  last : NoDigitAt E s j

/-- From `b` to `d`, `of 10`: a word, with at most one separator on each side, and a number from `c`. -/
structure CountAt (E : RxEnv) (ws : List Str) (s : Str) (b c d : Nat) : Prop where
  join : JoinAt E ws s b c
  number : WholeNumber E s c d

/-- From `b` to `v`, a version if one is written there. -/
def MaybeVersion (E : RxEnv) (s : Str) (b : Nat) (version : Option (Nat × Nat)) (v : Nat) : Prop :=
  (version = none ∧ v = b ∧ ∀ y, ¬ VersionAt E s b y) ∨ (version = some (b + 1, v) ∧ VersionAt E s b v ∧ NoDigitAt E s v)

/-- From `v` to `j`, a count if one is written there. -/
def MaybeCount (E : RxEnv) (ws : List Str) (s : Str) (v : Nat) (count : Option (Nat × Nat)) (j : Nat) : Prop :=
  (count = none ∧ j = v ∧ ∀ x y, ¬ CountAt E ws s v x y) ∨ ∃ c, count = some (c, j) ∧ CountAt E ws s v c j

/-- From `i` to `j`, `Episode 4v2 of 10`: a word for episodes, at most one separator, a number from `a` to `b`, then the version and the count if they are there. -/
structure WordedAt (E : RxEnv) (W : EpisodeWords) (s : Str) (i a b : Nat) (version count : Option (Nat × Nat)) (j : Nat) : Prop where
  word : ∃ x, MarkAt E W.episodeWords s i x ∧ MaybeSep s x a
  episode : WholeNumber E s a b
  rest : ∃ v, MaybeVersion E s b version v ∧ MaybeCount E W.ofWords s v count j

/-- The words are words of letters; those for episodes and `of` do not begin with the same letter; `all` begins with no letter of `S` or `Ex`, and is no
beginning of another such word. -/
structure PlainWords (W : EpisodeWords) : Prop where
  episode : ∀ w ∈ W.episodeWords, Lettered w
  of : ∀ w ∈ W.ofWords, Lettered w
  all : ∀ w ∈ W.allWords, Lettered w
  apart : ∀ w ∈ W.episodeWords, ∀ w' ∈ W.ofWords, w.head? ≠ w'.head?
  allFirst : ∀ w ∈ W.allWords, ∀ l, w.head? = some l → l ∉ c!"sex"
  allWhole : ∀ w ∈ W.allWords, ∀ w' ∈ W.allWords, w <+: w' → w = w'

/-- From `i` to `j`, `S01ExAll`: maybe `S`, a number from `a` to `b`, `Ex` or the like (with a separator on each side if need be), `All` from `d`. -/
structure CompleteAt (E : RxEnv) (W : EpisodeWords) (s : Str) (i a b d j : Nat) : Prop where
  mark : a = i ∨ (a = i + 1 ∧ CharAt s (fun c => E.same 's' c = true) i)
  season : a < b ∧ AllOf s (Digit E) a b
  join : JoinAt E [c!"xe", c!"ex", c!"e", c!"x"] s b d
  all : MarkAt E W.allWords s d j

/-- The first word of the list that is written at `x`. -/
def FirstWordAt (E : RxEnv) (ws : List Str) (s : Str) (x : Nat) (w : Str) : Prop :=
  ∃ before after, ws = before ++ w :: after ∧ LiteralAt E s w x ∧ ∀ w' ∈ before, ¬ LiteralAt E s w' x

/-- From `d` to `e`, maybe a word for episodes with at most one separator before it; if more than one is written there, the first of the list. -/
def EpisodesAfter (E : RxEnv) (ws : List Str) (s : Str) (d e : Nat) : Prop :=
  (∃ x w, MaybeSep s d x ∧ FirstWordAt E ws s x w ∧ e = x + w.length) ∨ (e = d ∧ ∀ x, MaybeSep s d x → ∀ w ∈ ws, ¬ LiteralAt E s w x)

/-- From `i` to `e`, `4 of 10 episodes`: a number up to `b`, `of`, a number from `c` to `d`, maybe a word for episodes. -/
structure DetachedAt (E : RxEnv) (W : EpisodeWords) (s : Str) (i b c d e : Nat) : Prop where
  episode : i < b ∧ AllOf s (Digit E) i b
  count : CountAt E W.ofWords s b c d
  word : EpisodesAfter E W.episodeWords s d e

/-- What is before `i` is not `of`. -/
def NotAfterOf (E : RxEnv) (W : EpisodeWords) (s : Str) (i : Nat) : Prop := ∀ x y, MarkAt E W.ofWords s x y → ¬ MaybeSep s y i

end Guessit.Spec
