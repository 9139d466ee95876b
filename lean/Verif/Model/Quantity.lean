import Verif.Model.Numeral

/-!
# Quantities (`guessit/rules/common/quantity.py`)

Floats are external: an abstract type with `float(text)`, `str(x)` and `==` with floats and integers.  `str.capitalize`
is a parameter like the other Unicode tables.  CPython's limit on the number of digits `int` accepts (4300, a
configurable interpreter setting) is not modelled.
-/

namespace Guessit

/-- The float operations used by `Quantity`. -/
structure Floats where
  F : Type
  ofText : Str → F
  toText : F → Str
  eq : F → F → Bool
  eqInt : F → Int → Bool

/-- Everything external to the module. -/
structure QEnv where
  u : Uni
  cap : Str → Str       -- `str.capitalize`
  fl : Floats

inductive Mag (fl : Floats) where
  | int (n : Int)
  | float (x : fl.F)

/-- The three subclasses. -/
inductive QClass where
  | size | bitRate | frameRate
  deriving DecidableEq, Repr

structure Quantity (fl : Floats) where
  cls : QClass
  magnitude : Mag fl
  units : Str

/-- `parser_re` (quantity.py:18); group 1 is `magnitude`, group 2 `units`. -/
def quantityRe (u : Uni) : Re :=
  .cat [.grp 1 (.cat [.rep (.chr u.isDigit) 1 none, .opt (.cat [.lit '.', .rep (.chr u.isDigit) 1 none])]),
    .opt (.grp 2 (.rep (.chr fun c => !u.isDigit c) 1 none))]

/-- `s.replace(old, new)` for a non-empty `old`; `skip` characters belong to the occurrence just replaced. -/
def replaceTextFrom (old new : Str) : Nat → Str → Str
  | _, [] => []
  | 0, c :: s => if old.isPrefixOf (c :: s) then new ++ replaceTextFrom old new (old.length - 1) s
    else c :: replaceTextFrom old new 0 s
  | k + 1, _ :: s => replaceTextFrom old new k s

def replaceText (old new s : Str) : Str := replaceTextFrom old new 0 s

/-- `parse_units` of the three classes (quantity.py:74-110); `None.strip` raises `AttributeError`. -/
def parseUnits (env : QEnv) : QClass → Option Str → Except PyErr Str
  | .frameRate, _ => .ok c!"fps"
  | _, none => .error .attributeError
  | .size, some value => .ok (env.u.upper (stripChars seps value))
  | .bitRate, some value =>
    .ok (replaceText c!"bit" c!"bps" (replaceText c!"bits" c!"bps" (env.cap (stripChars seps value))))

/-- `Quantity.fromstring` (quantity.py:32-46). -/
def fromString (env : QEnv) (cls : QClass) (s : Str) : Except PyErr (Quantity env.fl) :=
  match (quantityRe env.u).matchAt s 0 with
  | none => .error .attributeError
  | some (_, caps) =>
    let group (n : Nat) := (caps.lookup n).map fun ab => (s.take ab.2).drop ab.1
    let text := (group 1).getD []
    let magnitude : Mag env.fl := match pyInt env.u text with
      | .ok n => .int n
      | .error _ => .float (env.fl.ofText text)
    match parseUnits env cls (group 2) with
    | .ok units => .ok ⟨cls, magnitude, units⟩
    | .error e => .error e

/-- The ASCII digit of `d < 10`. -/
def digitChar (d : Nat) : Char := Char.ofNat (48 + d)

/-- `str(n)` for `n ≥ 0`; `fuel` bounds the number of digits. -/
def natTextF : Nat → Nat → Str
  | 0, _ => []
  | f + 1, n => if n < 10 then [digitChar n] else natTextF f (n / 10) ++ [digitChar (n % 10)]

def natText (n : Nat) : Str := natTextF (n + 1) n

/-- `str(n)` -/
def intText (n : Int) : Str := if n < 0 then '-' :: natText n.natAbs else natText n.natAbs

/-- `str(magnitude)` -/
def Mag.text {fl : Floats} : Mag fl → Str
  | .int n => intText n
  | .float x => fl.toText x

/-- `Quantity.__str__` (quantity.py:65-66). -/
def Quantity.text {fl : Floats} (q : Quantity fl) : Str := q.magnitude.text ++ q.units

/-- Python's `==` on two numbers. -/
def Mag.eq {fl : Floats} : Mag fl → Mag fl → Bool
  | .int a, .int b => a = b
  | .int a, .float y => fl.eqInt y a
  | .float x, .int b => fl.eqInt x b
  | .float x, .float y => fl.eq x y

/-- What a quantity can be compared with. -/
inductive QObj (fl : Floats) where
  | str (s : Str)
  | qty (q : Quantity fl)

/-- Python's `==` when one side is a `Quantity` (quantity.py:51-57).  `str.__eq__` does not know quantities, so the
reflected method is used; two quantities of different classes both answer `NotImplemented`, hence `False`. -/
def QObj.eq {fl : Floats} : QObj fl → QObj fl → Bool
  | .str a, .str b => a = b
  | .qty q, .str s => q.text = s
  | .str s, .qty q => q.text = s
  | .qty a, .qty b => a.cls = b.cls && a.magnitude.eq b.magnitude && a.units = b.units

/-- `hash` of a text or a quantity (quantity.py:48-49), from the hash of texts. -/
def QObj.hash {fl : Floats} (hashStr : Str → Int) : QObj fl → Int
  | .str s => hashStr s
  | .qty q => hashStr q.text

end Guessit
