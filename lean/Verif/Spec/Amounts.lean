import Verif.Spec.Recognise
import Verif.Model.Amounts

/-! # Sizes and bit rates (C119) -/

namespace Guessit.Spec

/-- A number with or without decimals is written from `i` to `x`; `v` is what it is worth. -/
inductive Amount (E : RxEnv) (fl : Floats) (s : Str) (i x : Nat) : Mag fl → Prop
  | whole (n : Nat) : Number E s i x n → Amount E fl s i x (.int n)
  | decimal (k : Nat) : i < k → AllOf s (Digit E) i k → s[k]? = some '.' → k + 1 < x → AllOf s (Digit E) (k + 1) x →
      Amount E fl s i x (.float (fl.ofText (textOf s i x)))

/-- Units of size, and how they are reported. -/
def sizeUnits : List (Str × Str) := [(c!"mb", c!"MB"), (c!"gb", c!"GB"), (c!"tb", c!"TB")]

/-- Units of bit rate, and how they are reported. -/
def rateUnits : List (Str × Str) :=
  [(c!"kbps", c!"Kbps"), (c!"kbit", c!"Kbps"), (c!"kbits", c!"Kbps"), (c!"mbps", c!"Mbps"), (c!"mbit", c!"Mbps"), (c!"mbits", c!"Mbps"),
   (c!"gbps", c!"Gbps"), (c!"gbit", c!"Gbps"), (c!"gbits", c!"Gbps")]

/-- `str.capitalize` on letters. -/
def Capitalizes (cap : Str → Str) : Prop := ∀ c t, c ∈ wordLetters → (∀ x ∈ t, x ∈ wordLetters) → cap (c :: t) = upLetter c :: t.map lowLetter

/-- From `i` to `j`: an amount `v`, at most one separator that is not a slash, and the unit that is reported as `u`. -/
def Measured (E : RxEnv) (fl : Floats) (units : List (Str × Str)) (s : Str) (i j : Nat) (v : Mag fl) (u : Str) : Prop :=
  ∃ x y w, Amount E fl s i x v ∧ MaybeSep s x y ∧ (w, u) ∈ units ∧ LiteralAt E s w y ∧ j = y + w.length

end Guessit.Spec
