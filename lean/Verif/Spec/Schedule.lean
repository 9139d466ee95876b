import Verif.Model.Schedule

/-!
# What the order of the rules should be

Only the declarations themselves (class, priority, dependency) are used here, none of the scheduler's definitions.
-/

namespace Guessit.Spec

variable {κ : Type}

/-- In `order`, an occurrence of `a` comes before an occurrence of `b`. -/
def RunsBefore (order : List (Decl κ)) (a b : Decl κ) : Prop := ∃ xs ys zs, order = xs ++ a :: (ys ++ b :: zs)

/-- `a` declares that it depends on the class of the other rule `b`. -/
def DependsOn (a b : Decl κ) : Prop := b.cls ∈ a.deps ∧ b.cls ≠ a.cls

/-- No two rules of the list have the same class. -/
def OnePerClass (rs : List (Decl κ)) : Prop := (rs.map Decl.cls).Nodup

/-- A vicious circle: some rules of equal priority, each of which depends on another one of them. -/
structure Deadlock (rs stuck : List (Decl κ)) : Prop where
  some : stuck ≠ []
  among : ∀ a ∈ stuck, a ∈ rs
  level : ∀ a ∈ stuck, ∀ b ∈ stuck, a.priority = b.priority
  wait : ∀ a ∈ stuck, ∃ b ∈ stuck, DependsOn a b

/-- The rules of the sub-rebulks that are not disabled, in the order of registration. -/
def Registered (plugs : List (Plug κ)) (context : Dict) : List (Decl κ) :=
  (plugs.filter fun p => !p.off context).flatMap Plug.rules

/-- `r` is registered, and no rule of its class is registered before it. -/
def FirstOfClass (registered : List (Decl κ)) (r : Decl κ) : Prop :=
  ∃ xs ys, registered = xs ++ r :: ys ∧ ∀ x ∈ xs, x.cls ≠ r.cls

/-- `a` must run before `b`, by priorities and declared dependencies, possibly through other rules of the list. -/
inductive MustPrecede (rs : List (Decl κ)) : Decl κ → Decl κ → Prop
  | priority {a b : Decl κ} : a ∈ rs → b ∈ rs → b.priority < a.priority → MustPrecede rs a b
  | dependency {a b : Decl κ} : a ∈ rs → b ∈ rs → DependsOn b a → b.priority ≤ a.priority → MustPrecede rs a b
  | trans {a b c : Decl κ} : MustPrecede rs a b → MustPrecede rs b c → MustPrecede rs a c

end Guessit.Spec
