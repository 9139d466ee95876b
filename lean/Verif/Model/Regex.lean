import Verif.Model.Text

/-!
# A backtracking regular-expression engine (the fragment of Python's `re`/`regex` used by the modelled functions)

Patterns are abstract syntax; `Re.exec` returns all the ways to match from a position, in the order in which a
backtracking engine tries them, so the first one is the match Python reports.  Lookahead, anchors, greedy repetition and
capturing groups are covered.  Repetition bodies of every modelled pattern consume at least one character, so the
handling of empty iterations (dropped here) is irrelevant.
-/

namespace Guessit

/-- Captured groups: group number and span; the most recent first. -/
abbrev Caps := List (Nat × (Nat × Nat))

inductive Re where
  | eps
  | fail
  | chr (p : Char → Bool)
  | seq (a b : Re)
  | alt (a b : Re)
  | rep (r : Re) (min : Nat) (max : Option Nat)    -- greedy
  | grp (n : Nat) (r : Re)
  | look (r : Re)                                   -- `(?=...)`
  | bol                                             -- `^` without MULTILINE
  | eol                                             -- `$` without MULTILINE

/-- Greedy repetition: try one more iteration first, then stop if enough have been done. -/
def repExec (step : Nat → Caps → List (Nat × Caps)) : Nat → Nat → Nat → Caps → List (Nat × Caps)
  | 0, m, i, c => if m = 0 then [(i, c)] else []
  | f + 1, m, i, c =>
    ((step i c).filter fun r => decide (r.1 ≠ i)).flatMap (fun r => repExec step f (m - 1) r.1 r.2) ++
      (if m = 0 then [(i, c)] else [])

/-- All matches of `r` in `s` starting at position `i`, best first. -/
def Re.exec (s : Str) : Re → Nat → Caps → List (Nat × Caps)
  | .eps, i, c => [(i, c)]
  | .fail, _, _ => []
  | .chr p, i, c => match s[i]? with
    | some x => if p x then [(i + 1, c)] else []
    | none => []
  | .seq a b, i, c => (a.exec s i c).flatMap fun r => b.exec s r.1 r.2
  | .alt a b, i, c => a.exec s i c ++ b.exec s i c
  | .rep r m M, i, c => repExec (fun i c => r.exec s i c) (M.getD (s.length - i)) m i c
  | .grp n r, i, c => (r.exec s i c).map fun x => (x.1, (n, (i, x.1)) :: x.2)
  | .look r, i, c => match r.exec s i c with
    | [] => []
    | x :: _ => [(i, x.2)]
  | .bol, i, c => if i = 0 then [(i, c)] else []
  | .eol, i, c => if i = s.length ∨ (i + 1 = s.length ∧ s[i]? = some '\n') then [(i, c)] else []

/-- `pattern.match(s, i)`: end and captures of the first match at `i`. -/
def Re.matchAt (r : Re) (s : Str) (i : Nat) : Option (Nat × Caps) := (r.exec s i []).head?

/-- `pattern.search(s, i)`: the first position with a match (`n` positions left to try). -/
def Re.searchFrom (r : Re) (s : Str) : Nat → Nat → Option (Nat × Nat × Caps)
  | i, n => match r.matchAt s i with
    | some (j, c) => some (i, j, c)
    | none => match n with
      | 0 => none
      | n + 1 => Re.searchFrom r s (i + 1) n
termination_by structural _ n => n

/-- `pattern.search(s)`. -/
def Re.search (r : Re) (s : Str) : Option (Nat × Nat × Caps) := r.searchFrom s 0 s.length

/-- `pattern.finditer(s)` for patterns that never match the empty text: spans of the successive matches. -/
def Re.findIterFrom (r : Re) (s : Str) : Nat → Nat → List (Nat × Nat)
  | 0, _ => []
  | fuel + 1, i =>
    if i ≤ s.length then
      match r.searchFrom s i (s.length - i) with
      | none => []
      | some (a, b, _) => (a, b) :: Re.findIterFrom r s fuel b
    else []

def Re.findIter (r : Re) (s : Str) : List (Nat × Nat) := r.findIterFrom s (s.length + 1) 0

/-! Shorthands -/

/-- A literal character. -/
def Re.lit (x : Char) : Re := .chr fun c => c = x
/-- A literal text. -/
def Re.text : Str → Re
  | [] => .eps
  | c :: s => .seq (.lit c) (Re.text s)
/-- `r?` -/
def Re.opt (r : Re) : Re := .rep r 0 (some 1)
/-- Ordered alternation of a list. -/
def Re.alts : List Re → Re
  | [] => .fail
  | [r] => r
  | r :: rs => .alt r (Re.alts rs)
/-- Concatenation of a list. -/
def Re.cat : List Re → Re
  | [] => .eps
  | r :: rs => .seq r (Re.cat rs)

end Guessit
