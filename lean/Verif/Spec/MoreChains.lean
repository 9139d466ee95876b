import Verif.Spec.Chain

/-! # Numbers after `ep` and `cap` (C144, C145) -/

namespace Guessit.Spec

/-- From `i` to `j`, `ep 12`: `ep`, at most one separator that is not a slash, one to four digits from `d`. -/
structure EpAt (E : RxEnv) (s : Str) (i d j : Nat) : Prop where
  word : LiteralAt E s c!"ep" i
  sep : MaybeSep s (i + 2) d
  number : Few E 1 4 s d j

/-- What may be before the other numbers of such a list. -/
def epJoiners : List Str := [c!"ep", c!"e", c!"x", c!"-"]

/-- Going from `i` to `j` over a version, or over a word and one more number. -/
def EpStep (E : RxEnv) (s : Str) (i j : Nat) : Prop := VersionAt E s i j ∨ ∃ d, MarkAt E epJoiners s i d ∧ Few E 1 4 s d j

/-- From `i` to `j`, `cap 112`: `cap`, at most one separator that is not a slash, a season of one or two digits from `a` to `d`, an episode of two digits. -/
structure CapAt (E : RxEnv) (s : Str) (i a d j : Nat) : Prop where
  word : LiteralAt E s c!"cap" i
  sep : MaybeSep s (i + 3) a
  season : Few E 1 2 s a d
  episode : Few E 2 2 s d j

/-- From `j` to `k`, `_114`: a separator that is not a slash, a season of one or two digits up to `d`, an episode of two digits. -/
structure CapMoreAt (E : RxEnv) (s : Str) (j d k : Nat) : Prop where
  sep : CharAt s (fun c => c ∈ seps ∧ c ≠ '/' ∧ c ≠ '\\') j
  season : Few E 1 2 s (j + 1) d
  episode : Few E 2 2 s d k

/-- From `i` to `j`, `012`: a zero, then one or two digits. -/
structure ZeroAt (E : RxEnv) (s : Str) (i j : Nat) : Prop where
  zero : CharAt s (· = '0') i
  number : Few E 1 2 s (i + 1) j

/-- From `i` to `j`, `-013`: `x` or a dash, a zero, then one or two digits. -/
structure ZeroMoreAt (E : RxEnv) (s : Str) (i j : Nat) : Prop where
  mark : CharAt s (fun c => E.same 'x' c = true ∨ c = '-') i
  zero : CharAt s (· = '0') (i + 1)
  number : Few E 1 2 s (i + 2) j

/-- Going from `i` to `j` over a version, or over one more number. -/
def ZeroStep (E : RxEnv) (s : Str) (i j : Nat) : Prop := VersionAt E s i j ∨ ZeroMoreAt E s i j

/-- From `i` to `e` numbers, each after `x` or a dash; `l` says where each begins and ends. -/
inductive ZeroListedAt (E : RxEnv) (s : Str) : Nat → List (Nat × Nat) → Nat → Prop
  | nil {i} : ZeroListedAt E s i [] i
  | cons {i j l e} : ZeroMoreAt E s i j → ZeroListedAt E s j l e → ZeroListedAt E s i ((i, j) :: l) e

/-- The numbers of such a list, each with what is before it. -/
def zeroNumbers (E : RxEnv) (s : Str) (i j : Nat) (l : List (Nat × Nat)) : List (Option Str × Int) :=
  (none, numberAt E s (i + 1) j) :: l.map fun x => (some (textOf s x.1 (x.1 + 1)), numberAt E s (x.1 + 2) x.2)

end Guessit.Spec
