import Verif.Model.Advanced
import Verif.Spec.Output

/-! # What `advanced` reports (C112) -/

namespace Guessit.Spec

/-- `v` describes the match: its value, where it starts and ends, its raw text unless empty, and nothing else. -/
structure Describes (v : PyVal) (d : Detailed) : Prop where
  entries : ∃ e : Dict, v = .dict e ∧ (e.map Prod.fst).Nodup ∧
    Dict.get? e (.str c!"value") = some d.value ∧
    Dict.get? e (.str c!"start") = some (.int d.start) ∧
    Dict.get? e (.str c!"end") = some (.int d.stop) ∧
    (Dict.get? e (.str c!"raw") = if d.raw = [] then none else some (.str d.raw)) ∧
    ∀ k ∈ e.map Prod.fst, k = .str c!"value" ∨ k = .str c!"raw" ∨ k = .str c!"start" ∨ k = .str c!"end"

/-- The order of positions. -/
def AtOrBefore (a b : Detailed) : Prop := a.start < b.start ∨ (a.start = b.start ∧ a.stop ≤ b.stop)

/-- `sorted` is `ms` in order of position. -/
structure InOrder (ms sorted : List Detailed) : Prop where
  perm : sorted.Perm ms
  ordered : sorted.Pairwise AtOrBefore

/-- The matches of a property. -/
def of (p : Str) (ms : List Detailed) : List Detailed := ms.filter fun d => decide (d.name = p)

/-- Two matches nothing in their description tells apart. -/
def Alike (a b : Detailed) : Prop := a.start = b.start ∧ a.stop = b.stop ∧ a.raw = b.raw ∧ pyEq a.value b.value = true

end Guessit.Spec
