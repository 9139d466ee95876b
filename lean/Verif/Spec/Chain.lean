import Verif.Spec.Recognise
import Verif.Model.Chain
import Mathlib.Logic.Relation

/-! # Seasons and episodes such as S01E02 (C125 and after) -/

namespace Guessit.Spec

/-- One of some words, from `i` to `j`. -/
def MarkAt (E : RxEnv) (ws : List Str) (s : Str) (i j : Nat) : Prop := ∃ w ∈ ws, LiteralAt E s w i ∧ j = i + w.length

/-- From `b` to `d`: at most one separator that is not a slash, one of some words, at most one separator again. -/
def JoinAt (E : RxEnv) (ws : List Str) (s : Str) (b d : Nat) : Prop := ∃ x y, MaybeSep s b x ∧ MarkAt E ws s x y ∧ MaybeSep s y d

/-- From `i` to `j`, `S01E02`: a word for seasons, a number from `a` to `b`, a word for episodes (with a separator on each side if need be), a
number from `d` to `j`. -/
structure SeasonEpisodeAt (E : RxEnv) (C : EpisodeConfig) (s : Str) (i a b d j : Nat) : Prop where
  mark : MarkAt E C.seasonMarkers s i a
  season : a < b ∧ AllOf s (Digit E) a b
  join : JoinAt E (C.episodeMarkers ++ C.discMarkers) s b d
  episode : d < j ∧ AllOf s (Digit E) d j

/-- From `i` to `j`, `1x02`: a number up to `b`, `x`, a number from `d`. -/
structure CrossedAt (E : RxEnv) (C : EpisodeConfig) (s : Str) (i b d j : Nat) : Prop where
  season : i < b ∧ AllOf s (Digit E) i b
  join : JoinAt E C.seasonEpMarkers s b d
  episode : d < j ∧ AllOf s (Digit E) d j

/-- From `i` to `j`, `S01` or `-03`: one of some words, a number from `d`. -/
structure MoreAt (E : RxEnv) (ws : List Str) (s : Str) (i d j : Nat) : Prop where
  mark : MarkAt E ws s i d
  number : d < j ∧ AllOf s (Digit E) d j

/-- The markers are words of letters; the separators are such words, or `&` and separators of words. -/
structure PlainEpisodes (C : EpisodeConfig) : Prop where
  markers : ∀ w ∈ C.seasonMarkers ++ C.episodeMarkers ++ C.discMarkers ++ C.seasonEpMarkers, Lettered w
  separators : ∀ w ∈ C.rangeSeparators ++ C.discreteSeparators, w ≠ [] ∧ ∀ c ∈ w, c ∈ c!"abcdefghijklmnopqrstuvwxyz&" ++ seps
  /-- no word for seasons begins with a letter of the other words -/
  apart : ∀ w ∈ C.seasonMarkers, ∀ l, w.head? = some l → ∀ w' ∈ C.episodeMarkers ++ C.discMarkers ++ C.rangeSeparators ++ C.discreteSeparators, l ∉ w'

/-- A separator, or `&`, stands for itself in a regular expression. -/
def Literal (E : RxEnv) : Prop := ∀ l ∈ c!"&" ++ seps, ∀ c, E.same l c = true ↔ c = l

/-- From `i` to `k`, a list such as `-03-04`: words and numbers, one after the other; each is given as where the word begins, and where the number begins and ends. -/
inductive ListedAt (E : RxEnv) (ws : List Str) (s : Str) : Nat → List (Nat × Nat × Nat) → Nat → Prop
  | nil {i} : ListedAt E ws s i [] i
  | cons {i d j l k} : MoreAt E ws s i d j → ListedAt E ws s j l k → ListedAt E ws s i ((i, d, j) :: l) k

/-- The number written from `d` to `j`. -/
def numberAt (E : RxEnv) (s : Str) (d j : Nat) : Int := (digitsValue E.u (textOf s d j) : Nat)

/-- A first number and a list of numbers, each with the word before it. -/
def listedNumbers (E : RxEnv) (s : Str) (d j : Nat) (l : List (Nat × Nat × Nat)) : List (Option Str × Int) :=
  (none, numberAt E s d j) :: l.map fun x => (some (textOf s x.1 x.2.1), numberAt E s x.2.1 x.2.2)

/-- Going from `i` to `j` over S01E02, or over a word and one more episode. -/
def SeasonStep (E : RxEnv) (C : EpisodeConfig) (s : Str) (i j : Nat) : Prop := (∃ a b d, SeasonEpisodeAt E C s i a b d j) ∨
  ∃ d, MoreAt E (C.episodeMarkers ++ C.discMarkers ++ C.separators) s i d j

/-- Going from `i` to `j` over 1x02, or over a word and one more episode. -/
def CrossedStep (E : RxEnv) (C : EpisodeConfig) (s : Str) (i j : Nat) : Prop := (∃ b d, CrossedAt E C s i b d j) ∨
  ∃ d, MoreAt E (C.seasonEpMarkers ++ C.separators) s i d j

/-- Going from `i` to `j` over S01, over `Extras`, or over a word and one more season. -/
def SeasonsStep (E : RxEnv) (C : EpisodeConfig) (s : Str) (i j : Nat) : Prop :=
  (∃ d, MoreAt E (C.seasonMarkers ++ C.separators) s i d j) ∨ (LiteralAt E s c!"extras" i ∧ j = i + 6)

/-- Any number of steps. -/
abbrev ManySteps (R : Nat → Nat → Prop) : Nat → Nat → Prop := Relation.ReflTransGen R

/-! ## Numbers (C128) -/

/-- Between `lo` and `hi` digits, from `d` to `j`. -/
structure Few (E : RxEnv) (lo hi : Nat) (s : Str) (d j : Nat) : Prop where
  least : d + lo ≤ j
  most : j ≤ d + hi
  digits : AllOf s (Digit E) d j

/-- From `i` to `j`, the first numbers of a chain: the season if any, and the episode from `d`. -/
def NumberedAt (E : RxEnv) : Numbering → Str → Nat → Option (Nat × Nat) → Nat → Nat → Prop
  | .two, s, i, season, d, j => season = none ∧ d = i ∧ Few E 2 2 s d j
  | .long, s, i, season, d, j => season = none ∧ d = i ∧ Few E 3 4 s d j
  | .one, s, i, season, d, j => season = none ∧ d = i ∧ Few E 1 1 s d j
  | .marked, s, i, season, d, j => ((season = none ∧ MarkAt E [c!"e"] s i d) ∨ ∃ b, season = some (i, b) ∧ Few E 1 2 s i b ∧ MarkAt E [c!"e"] s b d) ∧ Few E 1 4 s d j
  | .duplicate, s, i, season, d, j => season = some (i, d) ∧ Few E 1 2 s i d ∧ Few E 2 2 s d j

/-- `v2` from `i` to `j`. -/
def VersionAt (E : RxEnv) (s : Str) (i j : Nat) : Prop := CharAt s (fun c => E.same 'v' c = true) i ∧ i + 1 < j ∧ AllOf s (Digit E) (i + 1) j

/-- From `i` to `k`, a list of numbers of between `lo` and `hi` digits with a word before each. -/
inductive FewListedAt (E : RxEnv) (ws : List Str) (lo hi : Nat) (s : Str) : Nat → List (Nat × Nat × Nat) → Nat → Prop
  | nil {i} : FewListedAt E ws lo hi s i [] i
  | cons {i d j l k} : MarkAt E ws s i d → Few E lo hi s d j → FewListedAt E ws lo hi s j l k → FewListedAt E ws lo hi s i ((i, d, j) :: l) k

/-- What may be before the other numbers of a list. -/
def joiners : Numbering → List Str
  | .two => [c!"x", c!"-"]
  | .long => [c!"x", c!"-"]
  | .one => [c!"x", c!"-"]
  | .marked => [c!"e", c!"x", c!"-"]
  | .duplicate => [c!"x", c!"-"]
/-- Between how many and how many digits they have. -/
def digitsListed : Numbering → Nat × Nat
  | .two => (2, 2)
  | .long => (3, 4)
  | .one => (1, 2)
  | .marked => (1, 4)
  | .duplicate => (2, 2)

/-- Going from `i` to `j` over a version, or over a word and one more number. -/
def NumberStep (E : RxEnv) (k : Numbering) (s : Str) (i j : Nat) : Prop := VersionAt E s i j ∨ ∃ d, MarkAt E (joiners k) s i d ∧ Few E (digitsListed k).1 (digitsListed k).2 s d j

end Guessit.Spec
