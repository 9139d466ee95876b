import Verif.Model.Matches
import Verif.Spec.Rules
import Verif.Model.Validators
import Verif.Spec.Episodes

/-! # Specification vocabulary for the rules that drop matches (C63–C69) -/

namespace Guessit.Spec

/-- What a state of the search looks like: every match is a non-empty stretch of the input, no two matches are equal. -/
structure Sound (s : Ms) : Prop where
  wf : WellFormed s.input s.live
  distinct : (s.live.map (Mt.key s.input)).Nodup

/-- From `s` to `s'`, the matches that are `Bad` have been dropped, those and nothing else has changed. -/
structure Drops (s s' : Ms) (Bad : Mt → Prop) : Prop where
  input : s'.input = s.input
  markers : s'.markers = s.markers
  order : s'.live.Sublist s.live
  bad : ∀ x ∈ s.live, x ∈ s'.live ↔ ¬ Bad x

/-- There are only separators in `[a, b)`. -/
def OnlySeps (input : Str) (a b : Nat) : Prop := ∀ i c, a ≤ i → i < b → input[i]? = some c → c ∈ seps

/-- There are only matches and separators in `[a, b)`. -/
def NoText (input : Str) (live : List Mt) (a b : Nat) : Prop :=
  ∀ i c, a ≤ i → i < b → input[i]? = some c → (∀ m ∈ live, ¬ (m.start ≤ i ∧ i < m.stop)) → c ∈ seps

/-- The match begins the input or follows a separator. -/
def SepBefore (input : Str) (m : Mt) : Prop := m.start = 0 ∨ ∃ c, input[m.start - 1]? = some c ∧ c ∈ seps

/-- The match ends the input or is followed by a separator. -/
def SepAfter (input : Str) (m : Mt) : Prop := input.length ≤ m.stop ∨ ∃ c, input[m.stop]? = some c ∧ c ∈ seps

/-- `p` ends before the start of `x`, and nothing in `live` ends between the two. -/
def ClosestBefore (live : List Mt) (x p : Mt) : Prop :=
  p ∈ live ∧ p.stop ≤ x.start ∧ ∀ y ∈ live, y.stop ≤ x.start → y.stop ≤ p.stop

/-- `n` starts after the start of `x`, and nothing in `live` starts between the two. -/
def ClosestAfter (live : List Mt) (x n : Mt) : Prop :=
  n ∈ live ∧ x.start < n.start ∧ ∀ y ∈ live, x.start < y.start → n.start ≤ y.start

/-- A match or a bracketed group comes just before `x`: only separators stand between them. -/
def HasBefore (s : Ms) (x : Mt) : Prop :=
  ∃ p, (ClosestBefore s.live x p ∨ ClosestBefore s.markers x p ∧ p.name = some c!"group") ∧ OnlySeps s.input p.stop x.start

/-- A match or a bracketed group comes just after `x`: only separators stand between them. -/
def HasAfter (s : Ms) (x : Mt) : Prop :=
  ∃ n, (ClosestAfter s.live x n ∨ ClosestAfter s.markers x n ∧ n.name = some c!"group") ∧ OnlySeps s.input x.stop n.start

/-- The span of `y` comes before that of `x`, or is the same. -/
def NotAfter (y x : Mt) : Prop := y.start < x.start ∨ (y.start = x.start ∧ y.stop ≤ x.stop)

/-- `m` is named by one of `names`. -/
def NamedIn (m : Mt) (names : List Str) : Prop := ∃ n ∈ names, m.name = some n

/-- It goes by one of the names: a match with children by theirs, another by its own. -/
def GoesBy (kin : Kin) (m : Mt) (names : List Str) : Prop := (kin.children m = [] ∧ NamedIn m names) ∨ ∃ c ∈ kin.children m, NamedIn c names

end Guessit.Spec

namespace Guessit.Spec

/-- `y` is the first match with the property `P`, in the order of spans; among matches of the same span, the one found
first. -/
def Lead (live : List Mt) (P : Mt → Prop) (y : Mt) : Prop :=
  P y ∧ (∀ z ∈ live, P z → NotAfter y z) ∧
    ∃ pre post, live = pre ++ y :: post ∧ ∀ z ∈ pre, P z → ¬ (z.start = y.start ∧ z.stop = y.stop)

end Guessit.Spec

namespace Guessit.Spec

/-- `y` comes after `x` in the order of spans; among matches of the same span, in the order they were found. -/
def Later (live : List Mt) (x y : Mt) : Prop :=
  x.start < y.start ∨ (x.start = y.start ∧ x.stop < y.stop) ∨ (x.start = y.start ∧ x.stop = y.stop ∧ [x, y].Sublist live)

/-- The first marker of that name that covers the first character of `m`, or else the first that covers its last
character. -/
def EndMark (l : List Mt) (n : Str) (m g : Mt) : Prop :=
  FirstOf l (fun g => g.name = some n ∧ g.start ≤ m.start ∧ m.start < g.stop) g ∨
  ((¬ ∃ g' ∈ l, g'.name = some n ∧ g'.start ≤ m.start ∧ m.start < g'.stop) ∧
    FirstOf l (fun g => g.name = some n ∧ 0 < m.stop ∧ g.start ≤ m.stop - 1 ∧ m.stop - 1 < g.stop) g)

/-- `p` covers the first or the last character of `x`. -/
def AtEnds (x p : Mt) : Prop := (p.start ≤ x.start ∧ x.start < p.stop) ∨ (0 < x.stop ∧ p.start ≤ x.stop - 1 ∧ x.stop - 1 < p.stop)

/-- `part` is a part of the path. -/
def IsPart (s : Ms) (part : Mt) : Prop := part ∈ s.markers ∧ part.name = some c!"path"

end Guessit.Spec

namespace Guessit.Spec

/-- From `l` to `l'`, the matches that are `New` have been added at the end, save those equal to one already there, and
nothing else has changed. -/
structure Adds (input : Str) (l l' : List Mt) (New : Mt → Prop) : Prop where
  extra : ∃ extra, l' = l ++ extra ∧ (∀ x ∈ extra, New x ∧ ∀ y ∈ l, y.key input ≠ x.key input) ∧ (extra.map (Mt.key input)).Nodup
  there : ∀ x, New x → ∃ y ∈ l', y.key input = x.key input

/-- `m` is a public weak episode. -/
def WeakEpisode (m : Mt) : Prop := m.name = some c!"episode" ∧ m.priv = false ∧ c!"weak-episode" ∈ m.tags

/-- Some public weak episode has this number. -/
def HasNumber (s : Ms) (v : Int) : Prop := ∃ m ∈ s.live, WeakEpisode m ∧ m.value s.input = .int v

end Guessit.Spec
