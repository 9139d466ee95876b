import Verif.Model.Solver

/-!
# Who has to go when two matches overlap
-/

namespace Guessit.Spec

/-- The solver of `a`, asked about `a` and `b`, wants `x` gone. -/
def Wants (f : Option Solver) (a b x : Mt) : Prop :=
  ∃ g, f = some g ∧ ((g a b = .itself ∧ x = a) ∨ (g a b = .other ∧ x = b))

/-- The solver of `a`, if there is one, leaves the matter to others. -/
def Abstains (f : Option Solver) (a b : Mt) : Prop := ∀ g, f = some g → g a b = .dflt

/-- When the solver of `a` is asked before that of `b`, it is `x` that has to go. -/
inductive Judged (K : Kin) (solverOf : Mt → Option Solver) (a b : Mt) : Mt → Prop
  | first {x : Mt} : Wants (solverOf a) a b x → Judged K solverOf a b x
  | second {x : Mt} : Abstains (solverOf a) a b → Wants (solverOf b) b a x → Judged K solverOf a b x
  | shorterFirst : Abstains (solverOf a) a b → Abstains (solverOf b) b a → (K.initiator a).len < (K.initiator b).len →
      Judged K solverOf a b a
  | shorterSecond : Abstains (solverOf a) a b → Abstains (solverOf b) b a → (K.initiator b).len < (K.initiator a).len →
      Judged K solverOf a b b

/-- `x` and `y` are two matches that are reported and overlap. -/
structure Clash (s : Ms) (x y : Mt) : Prop where
  left : x ∈ s.live
  right : y ∈ s.live
  leftPublic : x.priv = false
  rightPublic : y.priv = false
  differ : x ≠ y
  meet : ∃ i, x.start ≤ i ∧ i < x.stop ∧ y.start ≤ i ∧ i < y.stop

/-- `x` has to go because of `y`, whoever is asked first. -/
def Yields (K : Kin) (solverOf : Mt → Option Solver) (x y : Mt) : Prop := Judged K solverOf x y x ∨ Judged K solverOf y x x

/-- The turn of `y` comes before that of `x`: it is shorter, or as long and found before. -/
def Sooner (s : Ms) (y x : Mt) : Prop := y.len < x.len ∨ (y.len = x.len ∧ [y, x].Sublist s.live)

end Guessit.Spec
