/-!
# Python fragments shared by the model

Python strings are modelled as lists of Unicode scalar values (`List Char`).  Lone surrogates, which Python's `str`
can hold, are not represented.  JSON-like option values are the inductive type `PyVal`; dictionaries are
insertion-ordered association lists (CPython's `dict` keeps insertion order; overwriting keeps the position).
-/

namespace Guessit

/-- A Python `str`. -/
abbrev Str := List Char

/-- `c!"abc"` is the literal list `['a', 'b', 'c']` (expanded at elaboration time so that it reduces in the kernel). -/
syntax:max "c!" str : term
macro_rules
  | `(c!$s:str) => do
    let cs := s.getString.toList
    let es := (cs.map fun c => Lean.Syntax.mkCharLit c).toArray
    `(([$es,*] : List Char))

/-- Python exceptions that the modelled code can raise, as values. -/
inductive PyErr where
  | typeError | attributeError | keyError | valueError | indexError | unicodeError | importError | osError
  | configuration            -- guessit.options.ConfigurationException
  | systemExit               -- raised by argparse; not a subclass of `Exception`
  | other (n : Nat)          -- anything raised by code outside the model
  deriving DecidableEq, Repr

/-- Dictionary keys that occur in option dictionaries (text, or bytes before `_fix_encoding`). -/
inductive Key where
  | str (s : Str)
  | bytes (b : List UInt8)
  deriving DecidableEq, Repr

/-- Python values that can occur in options and configuration files.  `other` stands for any other hashable
object compared by identity (for instance a float constant of the configuration). -/
inductive PyVal where
  | none
  | bool (b : Bool)
  | int (n : Int)
  | str (s : Str)
  | bytes (b : List UInt8)
  | other (id : Nat)
  | list (xs : List PyVal)
  | dict (kvs : List (Key × PyVal))
  deriving Repr

/-- A dictionary key seen as a value. -/
def Key.toVal : Key → PyVal
  | .str s => .str s
  | .bytes b => .bytes b

/-- A Python `dict` with insertion order. -/
abbrev Dict := List (Key × PyVal)

/-- `d.get(k)` distinguishing absence; `k in d` is `(d.get? k).isSome`. -/
def Dict.get? (d : Dict) (k : Key) : Option PyVal := List.lookup k d

/-- `d.get(k)` of Python: `None` when absent. -/
def Dict.getD (d : Dict) (k : Key) : PyVal := (d.get? k).getD .none

/-- `d[k] = v`: overwrite in place, or append. -/
def Dict.set : Dict → Key → PyVal → Dict
  | [], k, v => [(k, v)]
  | (k', v') :: rest, k, v => if k' = k then (k, v) :: rest else (k', v') :: Dict.set rest k v

/-- `del d[k]` (no-op when absent, as guarded by `in` at the call site). -/
def Dict.del (d : Dict) (k : Key) : Dict := d.filter (fun e => decide (e.1 ≠ k))

/-- A real Python dictionary has distinct keys. -/
def Dict.WF (d : Dict) : Prop := (d.map Prod.fst).Nodup

instance (d : Dict) : Decidable d.WF := inferInstanceAs (Decidable (List.Nodup _))

/-- Python truthiness. -/
def truthy : PyVal → Bool
  | .none => false
  | .bool b => b
  | .int n => n ≠ 0
  | .str s => !s.isEmpty
  | .bytes b => !b.isEmpty
  | .other _ => true
  | .list xs => !xs.isEmpty
  | .dict d => !d.isEmpty

/-- `bool` is a subclass of `int`: `True == 1`, `False == 0`. -/
def PyVal.num? : PyVal → Option Int
  | .bool b => some (if b then 1 else 0)
  | .int n => some n
  | _ => Option.none

mutual
/-- Python `==`.  Dictionaries compare without regard to order. -/
def pyEq : PyVal → PyVal → Bool
  | .none, .none => true
  | .bool a, y => match y.num? with | some n => decide ((if a then (1 : Int) else 0) = n) | Option.none => false
  | .int a, y => match y.num? with | some n => decide (a = n) | Option.none => false
  | .str a, .str b => decide (a = b)
  | .bytes a, .bytes b => decide (a = b)
  | .other a, .other b => decide (a = b)
  | .list xs, .list ys => pyEqList xs ys
  | .dict xs, .dict ys => xs.length == ys.length && pyEqDict xs ys
  | _, _ => false
/-- Elementwise `==` of two lists. -/
def pyEqList : List PyVal → List PyVal → Bool
  | [], [] => true
  | x :: xs, y :: ys => pyEq x y && pyEqList xs ys
  | _, _ => false
/-- Every entry of the first dictionary has an equal entry in the second. -/
def pyEqDict : List (Key × PyVal) → List (Key × PyVal) → Bool
  | [], _ => true
  | (k, v) :: xs, ys => (match List.lookup k ys with | some w => pyEq v w | Option.none => false) && pyEqDict xs ys
end

/-- `x in xs` for a Python list. -/
def pyIn (x : PyVal) (xs : List PyVal) : Bool := xs.any (fun y => pyEq x y)

/-- Iteration over a Python value: `for val in value`. -/
def pyIter : PyVal → Except PyErr (List PyVal)
  | .list xs => .ok xs
  | .str s => .ok (s.map fun c => .str [c])
  | .bytes b => .ok (b.map fun n => .int n.toNat)
  | .dict d => .ok (d.map fun e => e.1.toVal)
  | _ => .error .typeError

end Guessit
