import Verif.Model.Text

/-!
# Matches and rule consequences

The container guessit's rules work on is the third-party `rebulk.match.Matches`.  This file states the part of its
contract that the modelled rules use: the fields and equality of a match, the queries (`named`, `range`, `starting`,
`ending`, `at_match`, `previous`, `next`, `holes`) and the consequences (`RemoveMatch`, `AppendMatch`, `RenameMatch`).

Simplifications: formatters do not raise; the parent of a match is a token (two matches have `==` parents iff the tokens
agree); values are text, integers, or opaque objects (dates, languages, quantities), an opaque value being represented by
its class for `==`, so `==` of values is equality here.
-/

namespace Guessit

/-- The value of a match. -/
inductive MVal where
  | str (s : Str)
  | int (n : Int)
  | obj (id : Nat)
  deriving DecidableEq, Repr

/-- Truthiness of a value. -/
def MVal.truthy : MVal → Bool
  | .str s => !s.isEmpty
  | .int n => n ≠ 0
  | .obj _ => true

/-- A match object.  `id` is its identity; `rawStart`/`rawStop`/`val` are `_raw_start`/`_raw_end`/`_value`, which may be
unset; `fmt` is the formatter (`MVal.str` when there is none); `istart`, `istop`, `iname` describe its initiator. -/
structure Mt where
  id : Nat
  start : Nat
  stop : Nat
  rawStart : Option Nat := none
  rawStop : Option Nat := none
  name : Option Str
  val : Option MVal := none
  fmt : Str → MVal := MVal.str
  tags : List Str := []
  priv : Bool := false
  parent : Option Nat := none
  istart : Nat := start
  istop : Nat := stop
  iname : Option Str := name

/-- `match.raw_start`, `match.raw_end`. -/
def Mt.rawA (m : Mt) : Nat := m.rawStart.getD m.start
def Mt.rawB (m : Mt) : Nat := m.rawStop.getD m.stop

/-- `match.raw`. -/
def Mt.raw (input : Str) (m : Mt) : Str := (input.take m.rawB).drop m.rawA

/-- `match.value`: the explicit value when truthy, else the formatted raw text. -/
def Mt.value (input : Str) (m : Mt) : MVal := match m.val with
  | some v => if v.truthy then v else m.fmt (m.raw input)
  | none => m.fmt (m.raw input)

/-- What `Match.__eq__` compares. -/
structure MtKey where
  start : Nat
  stop : Nat
  value : MVal
  name : Option Str
  parent : Option Nat
  deriving DecidableEq

def Mt.key (input : Str) (m : Mt) : MtKey := ⟨m.start, m.stop, m.value input, m.name, m.parent⟩

/-- `a == b`. -/
def Mt.eqv (input : Str) (a b : Mt) : Bool := decide (a.key input = b.key input)

/-- `Match.__lt__`: spans are compared lexicographically. -/
def Mt.lt (a b : Mt) : Bool := decide (a.start < b.start) || (decide (a.start = b.start) && decide (a.stop < b.stop))

/-- Insertion into a sorted list before the first strictly greater element's position: stable. -/
def insertBy {α : Type} (lt : α → α → Bool) (x : α) : List α → List α
  | [] => [x]
  | y :: ys => if lt x y then x :: y :: ys else y :: insertBy lt x ys

/-- `sorted`: the stable sort for `<` (elements inserted from left to right). -/
def sortBy {α : Type} (lt : α → α → Bool) (xs : List α) : List α := xs.foldl (fun acc x => insertBy lt x acc) []

/-- The collection: the input, the matches in insertion order, and the markers. -/
structure Ms where
  input : Str
  live : List Mt
  markers : List Mt

/-- `matches.named(name)`. -/
def named (l : List Mt) (name : Str) : List Mt := l.filter fun m => decide (m.name = some name)

/-- `matches.max_end`. -/
def maxEnd (input : Str) (l : List Mt) : Nat := l.foldl (fun n m => max n m.stop) input.length

/-- `matches.range(start, end, predicate)`. -/
def rangeOf (input : Str) (l : List Mt) (a b : Nat) (p : Mt → Bool) : List Mt :=
  (sortBy Mt.lt l).filter fun m => decide (m.start < min (maxEnd input l) b) && decide (m.stop > a) && p m

/-- `matches.starting(i)`, `matches.ending(i)`. -/
def starting (l : List Mt) (i : Nat) : List Mt := l.filter fun m => decide (m.start = i)
def ending (l : List Mt) (i : Nat) : List Mt := l.filter fun m => decide (m.stop = i)

/-- `matches.at_index(i)`. -/
def atIndex (l : List Mt) (i : Nat) : List Mt := l.filter fun m => decide (m.start ≤ i) && decide (i < m.stop)

/-- `matches.at_span((a, b))`: at the first or at the last position.  For an empty span at 0, `span[1] - 1` is -1, where
nothing is indexed. -/
def atSpan (input : Str) (l : List Mt) (a b : Nat) : List Mt :=
  let s := atIndex l a
  (if b = 0 then [] else atIndex l (b - 1)).foldl (fun acc m => if acc.any (Mt.eqv input m) then acc else acc ++ [m]) s

/-- `matches.at_match(m, predicate)`. -/
def atMatch (input : Str) (l : List Mt) (m : Mt) (p : Mt → Bool) : List Mt := (atSpan input l m.start m.stop).filter p

/-- `matches.previous(m, predicate)`: the matches ending at the closest position at or before the start. -/
def previousFrom (l : List Mt) : Nat → List Mt
  | 0 => ending l 0
  | i + 1 => match ending l (i + 1) with
    | [] => previousFrom l i
    | ms => ms
def previous (l : List Mt) (m : Mt) (p : Mt → Bool) : List Mt := (previousFrom l m.start).filter p

/-- `matches.next(m, predicate)`: the matches starting at the closest position after the start; `f` positions are left. -/
def nextFrom (l : List Mt) : Nat → Nat → List Mt
  | 0, _ => []
  | f + 1, i => match starting l i with
    | [] => nextFrom l f (i + 1)
    | ms => ms
def nextOf (input : Str) (l : List Mt) (m : Mt) (p : Mt → Bool) : List Mt :=
  (nextFrom l (maxEnd input l - m.start) (m.start + 1)).filter p

/-- The maximal runs of positions of `[i, i + f)` where `p` holds; `open_` is the start of the current run. -/
def runsFrom (p : Nat → Bool) : Nat → Nat → Option Nat → List (Nat × Nat)
  | 0, i, o => match o with
    | some a => [(a, i)]
    | none => []
  | f + 1, i, o => match p i, o with
    | true, some a => runsFrom p f (i + 1) (some a)
    | true, none => runsFrom p f (i + 1) (some i)
    | false, some a => (a, i) :: runsFrom p f (i + 1) none
    | false, none => runsFrom p f (i + 1) none

/-- `matches.holes(start, end, formatter)`: the maximal stretches of `[start, end)` that no match covers, as new unnamed
matches. -/
def holesOf (input : Str) (l : List Mt) (a b : Nat) (fmt : Str → MVal) : List Mt :=
  (runsFrom (fun i => (atIndex l i).isEmpty) (min (maxEnd input l) b - a) a none).map fun r =>
    { id := 0, start := r.1, stop := r.2, name := none, fmt := fmt }

/-- `x in matches`. -/
def hasMatch (input : Str) (l : List Mt) (m : Mt) : Bool := l.any (Mt.eqv input m)

/-- `matches.remove(m)`: the first equal match goes (no-op when there is none: every call is guarded by `in`). -/
def removeMatch (input : Str) : List Mt → Mt → List Mt
  | [], _ => []
  | x :: xs, m => if Mt.eqv input m x then xs else x :: removeMatch input xs m

/-- `RemoveMatch` on a list. -/
def removeAll (input : Str) (l : List Mt) (ms : List Mt) : List Mt := ms.foldl (removeMatch input) l

/-- The matches `RemoveMatch` reports as removed. -/
def removedBy (input : Str) : List Mt → List Mt → List Mt
  | _, [] => []
  | l, m :: ms => if hasMatch input l m then m :: removedBy input (removeMatch input l m) ms else removedBy input l ms

/-- `AppendMatch` on a list. -/
def appendAll (input : Str) (l : List Mt) (ms : List Mt) : List Mt :=
  ms.foldl (fun l m => if hasMatch input l m then l else l ++ [m]) l

/-- `AppendMatch(name)` on a list: membership is tested before the name is set. -/
def appendNamed (input : Str) (name : Str) (l : List Mt) (ms : List Mt) : List Mt :=
  ms.foldl (fun l m => if hasMatch input l m then l else l ++ [{ m with name := some name }]) l

/-- `RenameMatch(name)` on a list: remove, then append what was removed under the new name. -/
def renameAll (input : Str) (name : Str) (l : List Mt) (ms : List Mt) : List Mt :=
  appendNamed input name (removeAll input l ms) (removedBy input l ms)

end Guessit
