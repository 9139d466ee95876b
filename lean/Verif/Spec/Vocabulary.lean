import Verif.Model.Chain

/-! # What counts as a separator, and what a number is (C134) -/

namespace Guessit.Spec

/-- The characters between words. -/
def signs : Str := [' ', '[', ']', '(', ')', '{', '}', '+', '*', '|', '=', '-', '_', '~', '#', '/', '\\', '.', ',', ';', ':']

/-- The number that a list of decimal digits says, the first digit being that of the highest power of ten. -/
def decimalValue : List Nat → Nat
  | [] => 0
  | d :: ds => d * 10 ^ ds.length + decimalValue ds

end Guessit.Spec
