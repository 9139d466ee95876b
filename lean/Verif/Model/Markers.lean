import Verif.Model.Text

/-!
# guessit/rules/markers: path elements and bracket groups
-/

namespace Guessit

/-- rebulk `find_all(string, sub)` for a non-empty `sub` (`skip` characters belong to the previous occurrence): the
leftmost non-overlapping occurrences.  For an empty `sub` rebulk's generator never ends; callers are checked for that. -/
def findAllFrom (sub : Str) (i : Nat) : Nat → Str → List Nat
  | _, [] => []
  | 0, c :: rest => if sub.isPrefixOf (c :: rest) then i :: findAllFrom sub (i + 1) (sub.length - 1) rest
    else findAllFrom sub (i + 1) 0 rest
  | skip + 1, _ :: rest => findAllFrom sub (i + 1) skip rest

def findAll (sub s : Str) : List Nat := findAllFrom sub 0 0 s

/-- `list.sort()` on integers. -/
def sortInsert (x : Int) : List Int → List Int
  | [] => [x]
  | y :: ys => if x < y then x :: y :: ys else y :: sortInsert x ys

def sortInts (xs : List Int) : List Int := xs.foldl (fun acc x => sortInsert x acc) []

/-- `for i in range(0, len(indices) - 1): ret.append((indices[i] + 1, indices[i + 1]))` (path.py:41-42). -/
def consecutive : List Int → List (Int × Int)
  | a :: b :: rest => (a + 1, b) :: consecutive (b :: rest)
  | _ => []

/-- `mark_path` (path.py:23-44): spans as returned to rebulk. -/
def markPath (context : Dict) (s : Str) : List (Int × Int) :=
  if truthy ((context.get? (.str c!"name_only")).getD (.bool false)) then [(0, s.length)]
  else consecutive (sortInts ((findAll c!"/" s).map Int.ofNat ++ (findAll c!"\\" s).map Int.ofNat ++ [(-1 : Int), (s.length : Int)]))

/-- The loop of `mark_groups` (groups.py:37-53).  `openings = ([], ) * n` is a tuple of `n` references to one and the
same list, so there is a single stack whatever the kind of bracket. -/
def groupsFrom (starting ending : Str) (stack : List Nat) (i : Nat) : Str → List (Nat × Nat)
  | [] => []
  | c :: rest =>
    let stack := if starting.contains c then i :: stack else stack
    if ending.contains c then
      match stack with
      | [] => groupsFrom starting ending [] (i + 1) rest          -- `except IndexError: pass`
      | a :: st => (a, i + 1) :: groupsFrom starting ending st (i + 1) rest
    else groupsFrom starting ending stack (i + 1) rest

/-- `mark_groups` (groups.py:29-53). -/
def markGroups (starting ending s : Str) : List (Nat × Nat) := groupsFrom starting ending [] 0 s

/-- `groups(config)` (groups.py:11-27): unequal lengths are refused. -/
def groupsBuilder (starting ending : Str) : Except PyErr (Str → List (Nat × Nat)) :=
  if starting.length ≠ ending.length then .error .configuration else .ok (markGroups starting ending)

end Guessit
