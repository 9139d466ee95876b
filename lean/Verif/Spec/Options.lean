import Verif.Py

/-!
# Independent specification of option merging (properties C01–C06)

Nothing here refers to the model's loops; the relations talk about the value of one option in the earlier sources
(`old`), in the later source (`new`) and in the merged result (`res`).
-/

namespace Guessit.Spec

/-- The later source says nothing about an option: the key is missing or its value is `None`. -/
def Silent (new : Option PyVal) : Prop := new = none ∨ new = some .none

/-- A value that is neither a list nor a dictionary. -/
def Scalar : PyVal → Prop
  | .list _ => False
  | .dict _ => False
  | _ => True

instance : DecidablePred Scalar := fun v => by cases v <;> simp only [Scalar] <;> infer_instance

/-- `out` is the accumulation of `vals` onto `l`: all of `l`, in place, followed by elements taken from `vals` in
order, none of them `None`, none equal (Python `==`) to an element before it, and complete. -/
structure Accumulates (l vals out : List PyVal) : Prop where
  split : ∃ added, out = l ++ added ∧ added.Sublist vals ∧ (.none ∉ added) ∧
    ∀ p x s, added = p ++ x :: s → ∀ y ∈ l ++ p, pyEq x y = false
  complete : ∀ v ∈ vals, v ≠ .none → v ∈ out ∨ ∃ y ∈ out, pyEq v y = true

/-- A later entry, unless it is missing or `None`, replaces the earlier one. -/
def override (earlier : Option PyVal) : Option PyVal → Option PyVal
  | none => earlier
  | some .none => earlier
  | some v => some v

/-- The last entry of a list of sources that is present and not `None`; when every later entry is silent, the first. -/
def lastDefined : List (Option PyVal) → Option PyVal
  | [] => none
  | first :: rest => rest.foldl override first

/-- The options that a `pristine` entry resets: everything for `True`, otherwise the names it iterates over. -/
def Resets (pristine : PyVal) (k : Key) : Prop :=
  match pristine with
  | .bool b => b = true
  | .list ps => k.toVal ∈ ps
  | .str s => ∃ c ∈ s, k = .str [c]
  | .dict d => k ∈ d.map Prod.fst
  | _ => False

mutual
/-- Hereditarily distinct dictionary keys: what every real Python value satisfies. -/
def Real : PyVal → Prop
  | .list xs => RealList xs
  | .dict d => (d.map Prod.fst).Nodup ∧ RealDict d
  | _ => True
def RealList : List PyVal → Prop
  | [] => True
  | x :: xs => Real x ∧ RealList xs
def RealDict : List (Key × PyVal) → Prop
  | [] => True
  | e :: d => RealPair e ∧ RealDict d
def RealPair : Key × PyVal → Prop
  | (_, v) => Real v
end

end Guessit.Spec

namespace Guessit.Spec
mutual
/-- No dictionary reachable through dictionary values carries a `pristine` entry. -/
def NoPristine : PyVal → Prop
  | .dict d => Key.str c!"pristine" ∉ d.map Prod.fst ∧ NoPristineDict d
  | _ => True
def NoPristineDict : List (Key × PyVal) → Prop
  | [] => True
  | e :: d => NoPristinePair e ∧ NoPristineDict d
def NoPristinePair : Key × PyVal → Prop
  | (_, v) => NoPristine v
end
end Guessit.Spec
