import Verif.Model.Matches
import Verif.Spec.Rules

/-! # Specification vocabulary for episode and season ranges (C32, C57–C59) -/

namespace Guessit.Spec

/-- `x` is the first element of `l` with the property `P`. -/
def FirstOf {α : Type} (l : List α) (P : α → Prop) (x : α) : Prop :=
  ∃ pre post, l = pre ++ x :: post ∧ P x ∧ ∀ y ∈ pre, ¬ P y

/-- `p` is the `prop` just before `x`: it ends where `x` starts or earlier, and no match ends between the two (the first
such match, if several end there). -/
def JustBefore (live : List Mt) (prop : Str → Prop) (x p : Mt) : Prop :=
  FirstOf live (fun p => (∃ n, p.name = some n ∧ prop n) ∧ p.stop ≤ x.start ∧ ∀ y ∈ live, y.stop ≤ x.start → y.stop ≤ p.stop) p

/-- `n` is the `prop` just after `x`: it starts after the start of `x`, and no match starts between the two (the first
such match, if several start there). -/
def JustAfter (live : List Mt) (prop : Str) (x n : Mt) : Prop :=
  FirstOf live (fun n => n.name = some prop ∧ x.start < n.start ∧ ∀ y ∈ live, x.start < y.start → n.start ≤ y.start) n

/-- A separator match whose text is a range separator stands between `p` and `n`. -/
def RangeMatch (input : Str) (live : List Mt) (rs : List Str) (prop : Str) (p n : Mt) : Prop :=
  ∃ sep ∈ live, sep.name = some (prop ++ c!"Separator") ∧ (∃ r ∈ rs, sep.value input = .str r) ∧
    JustBefore live (· = prop) sep p ∧ JustAfter live prop sep n

/-- The text between the patterns that found `p` and `n` is a range separator, up to surrounding separators. -/
def RangeText (input : Str) (rs : List Str) (p n : Mt) : Prop :=
  (input.take n.istart).drop p.istop ∈ rs ∨ stripSeps ((input.take n.istart).drop p.istop) ∈ rs

/-- `p` and `n` are successive in `l`, and `p` or an element before it can start a range. -/
def Successive (l : List Mt) (canStart : Mt → Bool) (p n : Mt) : Prop :=
  ∃ pre post, l = pre ++ p :: n :: post ∧ ∃ q ∈ pre ++ [p], canStart q = true

/-- The integers strictly between `a` and `b`, in increasing order. -/
def between (a b : Int) : List Int := (List.range (b - (a + 1)).toNat).map fun (i : Nat) => a + 1 + (i : Int)

end Guessit.Spec
