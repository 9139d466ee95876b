import Verif.Model.Api

/-!
# Specification of the output dictionary (C14, C15)
-/

namespace Guessit.Spec

/-- Keep the first of every group of `==` values. -/
def distinct : List PyVal → List PyVal
  | [] => []
  | v :: vs => v :: (distinct vs).filter (fun w => !pyEq v w)

/-- The documented shape of a property, from its values in order of position. -/
def shape (single enforce : Bool) (vs : List PyVal) : Option PyVal :=
  match distinct vs with
  | [] => none
  | v :: rest =>
    match single, enforce with
    | true, false => some v
    | true, true => some (.list [v])
    | false, true => some (.list (v :: rest))
    | false, false => if rest.isEmpty then some v else some (.list (v :: rest))

/-- The order of positions: by start, then by end. -/
def Before (a b : OutMatch) : Prop := a.start < b.start ∨ (a.start = b.start ∧ a.stop ≤ b.stop)

/-- `sorted` is `ms` in order of position, matches with the same span keeping their order. -/
structure StableSorted (ms sorted : List OutMatch) : Prop where
  perm : sorted.Perm ms
  ordered : sorted.Pairwise Before
  stable : ∀ s e, sorted.filter (fun m => m.start == s && m.stop == e) = ms.filter (fun m => m.start == s && m.stop == e)

/-- ASCII text as bytes; other values unchanged; element-wise on lists. -/
def encoded : PyVal → PyVal
  | .str s => .bytes (s.map fun c => UInt8.ofNat c.toNat)
  | .list xs => .list (xs.map fun x => match x with | .str s => .bytes (s.map fun c => UInt8.ofNat c.toNat) | v => v)
  | v => v

end Guessit.Spec
