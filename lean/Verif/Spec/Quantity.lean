import Verif.Model.Quantity

/-!
# Specification for quantities (C29, C30)

Facts about Python's floats and tables that the properties rely on.
-/

namespace Guessit.Spec

/-- Comparison of floats and integers is comparison of the numbers they stand for, and two floats print alike exactly when
they are equal (no NaN and no negative zero: magnitudes are parsed from digits). -/
structure LawfulFloats (fl : Floats) : Prop where
  numeric : ∃ (α : Type) (val : fl.F → α) (emb : Int → α), Function.Injective emb ∧
    (∀ x y, fl.eq x y = true ↔ val x = val y) ∧ (∀ x n, fl.eqInt x n = true ↔ val x = emb n)
  text : ∀ x y, fl.eq x y = true ↔ fl.toText x = fl.toText y

/-- `a` and `b` are both integers or both floats. -/
def SameKind {fl : Floats} : Mag fl → Mag fl → Prop
  | .int _, .int _ => True
  | .float _, .float _ => True
  | _, _ => False

def asciiUpper (c : Char) : Char := if 'a' ≤ c ∧ c ≤ 'z' then Char.ofNat (c.toNat - 32) else c
def asciiLower (c : Char) : Char := if 'A' ≤ c ∧ c ≤ 'Z' then Char.ofNat (c.toNat + 32) else c

/-- Only ASCII characters. -/
def Ascii (s : Str) : Prop := ∀ c ∈ s, c.toNat < 128

/-- The tables behave on ASCII text as Python's do. -/
structure AsciiTables (env : QEnv) : Prop where
  digit : ∀ c : Char, c.toNat < 128 → env.u.digit c = if '0' ≤ c ∧ c ≤ '9' then some (c.toNat - 48) else none
  space : ∀ c : Char, '0' ≤ c ∧ c ≤ '9' → env.u.space c = false
  upper : ∀ s, Ascii s → env.u.upper s = s.map asciiUpper
  cap : ∀ c s, Ascii (c :: s) → env.cap (c :: s) = asciiUpper c :: s.map asciiLower
  cap_nil : env.cap [] = []

end Guessit.Spec
