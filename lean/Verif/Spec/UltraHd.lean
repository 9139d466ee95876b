import Verif.Spec.Conflicts
import Verif.Spec.EpisodeTitle

/-! # Specification vocabulary for C94 -/

namespace Guessit.Spec

/-- A public `other: Ultra HD`. -/
def IsUltra (input : Str) (m : Mt) : Prop := m.priv = false ∧ m.name = some c!"other" ∧ m.value input = .str c!"Ultra HD"

/-- A public `source: Blu-ray`. -/
def IsBluray (input : Str) (m : Mt) : Prop := m.priv = false ∧ m.name = some c!"source" ∧ m.value input = .str c!"Blu-ray"

/-- There is no text in `[a, b)`, and every public match there is a screen size, a color depth or an `other` that may stand there. -/
def ClearBetween (s : Ms) (a b : Nat) : Prop :=
  NoText s.input s.live a b ∧ ∀ z ∈ s.live, z.start < b → a < z.stop → z.priv = false →
    NamedIn z [c!"screen_size", c!"color_depth"] ∨ (z.name = some c!"other" ∧ c!"uhdbluray-neighbor" ∈ z.tags)

/-- `o` is the last Ultra HD of the part before `x`, and nothing else is between them. -/
def UltraBefore (s : Ms) (part x o : Mt) : Prop :=
  Final s.live (fun m => IsUltra s.input m ∧ m.start < x.start ∧ part.start < m.stop) o ∧ ClearBetween s o.stop x.start

/-- `o` is the first Ultra HD of the part after `x`. -/
def UltraAfter (s : Ms) (part x o : Mt) : Prop :=
  Lead s.live (fun m => IsUltra s.input m ∧ m.start < part.stop ∧ x.stop < m.stop) o

/-- There is a 2160p in the part. -/
def Has2160 (s : Ms) (part : Mt) : Prop := ∃ z ∈ s.live, z.name = some c!"screen_size" ∧ z.value s.input = .str c!"2160p" ∧ Overlaps part z

/-- `x` is a Blu-ray of the part that is an Ultra HD one. -/
def UltraBluray (s : Ms) (part x : Mt) : Prop :=
  IsPart s part ∧ x ∈ s.live ∧ IsBluray s.input x ∧ Overlaps part x ∧
  ((∃ o, UltraBefore s part x o) ∨ (∃ o, UltraAfter s part x o ∧ ClearBetween s x.stop o.start) ∨ Has2160 s part)

/-- The Ultra HD `o` is merged in the Blu-ray `x`: it is just before; else, it is the first one after. -/
def MergedIn (s : Ms) (part x o : Mt) : Prop :=
  UltraBluray s part x ∧ (UltraBefore s part x o ∨ (¬ ∃ o, UltraBefore s part x o) ∧ UltraAfter s part x o)

end Guessit.Spec
