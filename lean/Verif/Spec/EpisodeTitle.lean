import Verif.Spec.Title
import Verif.Spec.Episodes

/-! # Specification vocabulary for episode titles, bonus titles and film titles (C80–C85) -/

namespace Guessit.Spec

/-- There is a word character in `[a, b)`. -/
def HasWordIn (input : Str) (a b : Nat) : Prop := ∃ i, a ≤ i ∧ i < b ∧ WordAt input i

/-- `[x, y)` is the first stretch of `[a, b)` that no match covers: everything before it is covered, and it is as long as
possible. -/
structure FirstFree (s : Ms) (a b x y : Nat) : Prop where
  lower : a ≤ x
  pos : x < y
  upper : y ≤ b
  before : ∀ i, a ≤ i → i < x → ∃ m ∈ s.live, Covers m i
  free : ∀ i, x ≤ i → i < y → ∀ m ∈ s.live, ¬ Covers m i
  full : y = b ∨ ∃ m ∈ s.live, Covers m y

/-- A free stretch of `[a, b)` that is as long as possible. -/
structure FreeStretch (s : Ms) (a b x y : Nat) : Prop where
  lower : a ≤ x
  pos : x < y
  upper : y ≤ b
  free : ∀ i, x ≤ i → i < y → ∀ m ∈ s.live, ¬ Covers m i
  left : x = a ∨ ∃ m ∈ s.live, Covers m (x - 1)
  right : y = b ∨ ∃ m ∈ s.live, Covers m y

/-- A new match for the text of `[x, y)`, cleaned up. -/
def textMatch (name : Str) (tags : List Str) (x y : Nat) : Mt :=
  { id := 0, start := x, stop := y, name := some name, fmt := fun t => .str (cleanup t), tags := tags, iname := none }

/-- The match is ignored where the title is searched for in a directory: an ignorable match or a weak episode. -/
def Weakly (upper : Str → Bool) (input : Str) (m : Mt) : Prop := c!"weak-episode" ∈ m.tags ∨ Ignorable upper input m

/-- The position is free for the title of a directory. -/
def FreeForTitle (upper : Str → Bool) (s : Ms) (i : Nat) : Prop := ∀ m ∈ s.live, ¬ Weakly upper s.input m → ¬ Covers m i

/-- The character at `i` is one that separates titles. -/
def TitleSepAt (input : Str) (i : Nat) : Prop := ∃ c, input[i]? = some c ∧ c ∈ titleSeps

/-- `[x, y)` is the first text of the part: it has a word, no match but ignored ones, no title separator after its first
character; every word before it is covered; it is as long as possible to the right. -/
structure FirstText (upper : Str → Bool) (s : Ms) (part : Mt) (x y : Nat) : Prop where
  lower : part.start ≤ x
  top : y ≤ min s.input.length part.stop
  word : HasWordIn s.input x y
  free : ∀ i, x ≤ i → i < y → FreeForTitle upper s i
  whole : ∀ i, x < i → i < y → ¬ TitleSepAt s.input i
  full : y = min s.input.length part.stop ∨ ¬ FreeForTitle upper s y ∨ TitleSepAt s.input y
  first : ∀ i, part.start ≤ i → i < x → WordAt s.input i → ¬ FreeForTitle upper s i

/-- The last parts of the path are these. -/
def LastParts (s : Ms) (l : List Mt) : Prop := ∃ pre, (s.markers.filter fun m => decide (m.name = some c!"path")) = pre ++ l

/-- Something named `name` was found in the part. -/
def FoundIn (s : Ms) (part : Mt) (name : Str) : Prop := ∃ m ∈ s.live, m.name = some name ∧ Overlaps part m

/-- From `s` to `s'`, the matches that are `Sel` moved to the end, under a new name, and nothing else has changed. -/
structure Renames (s s' : Ms) (name : Str) (Sel : Mt → Prop) : Prop where
  input : s'.input = s.input
  markers : s'.markers = s.markers
  moved : ∃ kept sel : List Mt, kept.Sublist s.live ∧ sel.Sublist s.live ∧ (∀ x ∈ s.live, x ∈ kept ↔ ¬ Sel x) ∧ (∀ x ∈ s.live, x ∈ sel ↔ Sel x) ∧
    s'.live = kept ++ sel.map fun m => { m with name := some name }

/-- `y` is the last match with the property `P`, in the order of spans; among matches of the same span, the one found last. -/
def Final (live : List Mt) (P : Mt → Prop) (y : Mt) : Prop := y ∈ live ∧ P y ∧ ∀ z ∈ live, P z → z ≠ y → Later live z y

/-- `main` is the title `alt` belongs to: going back from `a`, it is the first title that is met, over separators only. -/
def Chained (s : Ms) (a : Nat) (main : Mt) : Prop :=
  ∃ i, i < a ∧ FirstOf s.live (fun m => c!"title" ∈ m.tags ∧ Covers m i) main ∧
    ∀ j, i < j → j < a → (∃ c, s.input[j]? = some c ∧ c ∈ seps) ∧ ∀ m ∈ s.live, c!"title" ∈ m.tags → ¬ Covers m j

/-- What an episode title may follow. -/
def OpensTitle (m : Mt) : Prop :=
  NamedIn m [c!"episode", c!"episode_count", c!"season", c!"season_count", c!"date", c!"title", c!"year"]

/-- What an episode title may follow, when a match with children goes by their names. -/
def LeadsTitle (kin : Kin) (m : Mt) : Prop :=
  GoesBy kin m [c!"episode", c!"episode_count", c!"season", c!"season_count", c!"date", c!"title", c!"year"]

/-- What an episode title may be followed by. -/
def ClosesTitle (m : Mt) : Prop :=
  NamedIn m [c!"streaming_service", c!"screen_size", c!"source", c!"video_codec", c!"audio_codec", c!"other", c!"container"]

/-- A public match that meets `[a, b)`. -/
def PublicIn (a b : Nat) (m : Mt) : Prop := m.priv = false ∧ m.start < b ∧ a < m.stop

end Guessit.Spec
