import Verif.Model.Title

/-!
# rebulk's `Matches.holes`, in full

The other models use the plain runs of uncovered positions; that is what `holes` returns up to holes of no length
(`holes_plain` in `Proofs/Holes.lean`).  Here the loop of rebulk is followed, as it starts before `start` and knows separators.
-/

namespace Guessit

/-- `_hole_start(position, ignore)`: the last position before `position` where a match starts, 0 if there is none. -/
def holeStart (l : List Mt) (ignore : Mt → Bool) : Nat → Nat
  | 0 => 0
  | p + 1 => if (starting l p).any fun m => !ignore m then p else holeStart l ignore p

/-- `_hole_end(position, ignore)`: the first position from `i` on where a match starts; `f` positions are left. -/
def holeEnd (l : List Mt) (ignore : Mt → Bool) : Nat → Nat → Nat
  | 0, i => i
  | f + 1, i => if (starting l i).any fun m => !ignore m then i else holeEnd l ignore f (i + 1)

/-- The loop of `holes`: `f` positions are left from `i`, `o` is the start of the open hole.  A separator closes an open
hole, any uncovered position opens one. -/
def holeLoop (covered sep : Nat → Bool) (start : Nat) : Nat → Nat → Option Nat → List (Nat × Nat) × Option Nat
  | 0, _, o => ([], o)
  | f + 1, i, o => match o with
    | some a => if sep i || covered i then
        let r := holeLoop covered sep start f (i + 1) none
        ((a, i) :: r.1, r.2)
      else holeLoop covered sep start f (i + 1) (some a)
    | none => if covered i then holeLoop covered sep start f (i + 1) none
      else holeLoop covered sep start f (i + 1) (some (max i start))

/-- `matches.holes(start, end, ignore=…, seps=…)`: the spans, before the predicate is applied. -/
def holeSpans (input : Str) (l : List Mt) (ignore : Mt → Bool) (seps : Str) (a b : Nat) : List (Nat × Nat) :=
  let e := min (maxEnd input l) b
  let h := holeStart l ignore a
  let r := holeLoop (fun i => (atIndex l i).any fun m => !ignore m) (fun i => (input[i]?).any seps.contains) a (e - h) h none
  r.1 ++ match r.2 with
    | some s => [(s, min (holeEnd l ignore (maxEnd input l - (e - 1)) (e - 1)) e)]
    | none => []

end Guessit
