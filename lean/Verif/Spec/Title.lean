import Verif.Spec.Validators

/-! # Specification vocabulary for titles (C73–C79) -/

namespace Guessit.Spec

/-- The match covers position `i`. -/
def Covers (m : Mt) (i : Nat) : Prop := m.start ≤ i ∧ i < m.stop

/-- The character at `i` is not a separator. -/
def WordAt (input : Str) (i : Nat) : Prop := ∃ c, input[i]? = some c ∧ c ∉ seps

/-- A match a title may run over: a language, a country or an episode detail, unless it is a word of more than three
characters in upper case. -/
def Ignorable (upper : Str → Bool) (input : Str) (m : Mt) : Prop :=
  NamedIn m [c!"language", c!"country", c!"episode_details"] ∧ ¬ (3 < m.stop - m.start ∧ upper (m.raw input) = true)

/-- A bracketed group. -/
def InGroups (s : Ms) (g : Mt) : Prop := g ∈ s.markers ∧ g.name = some c!"group"

/-- No match and no bracketed group covers the position. -/
def FreeAt (s : Ms) (i : Nat) : Prop := (∀ m ∈ s.live, ¬ Covers m i) ∧ ∀ g, InGroups s g → ¬ Covers g i

/-- The state as the engine provides it: matches and markers are distinct non-empty stretches of the input, a path part ends with the
input or just before a path separator. -/
structure Laid (s : Ms) : Prop where
  sound : Sound s
  markers : WellFormed s.input s.markers
  distinct : (s.markers.map (Mt.key s.input)).Nodup
  parts : ∀ part, IsPart s part → part.stop = s.input.length ∨ ∃ c, s.input[part.stop]? = some c ∧ (c = '/' ∨ c = '\\')

/-- The tags that mark an uncertain match. -/
def WeakTag (m : Mt) : Prop := ∃ t ∈ m.tags, t = c!"weak" ∨ ∃ rest, t = c!"weak-" ++ rest

end Guessit.Spec

namespace Guessit.Spec

/-- The name of a title. -/
def TitleName (m : Mt) : Prop := NamedIn m [c!"title", c!"alternative_title", c!"episode_title"]

/-- The part is a season directory: the only public match in it is a season that spans the part, or whose parent does.
`parents m` lists the ancestors of `m`, the closest first. -/
def SeasonDir (parents : Mt → List Mt) (s : Ms) (part : Mt) : Prop :=
  IsPart s part ∧ ∃ m ∈ s.live, m.priv = false ∧ Overlaps part m ∧ m.name = some c!"season" ∧
    (∀ x ∈ s.live, x.priv = false → Overlaps part x → x = m) ∧
    ((m.start = part.start ∧ m.stop = part.stop) ∨ ∃ p rest, parents m = p :: rest ∧ p.start = part.start ∧ p.stop = part.stop)

/-- The text of ignorable matches begins and ends with word characters, and they do not overlap one another. -/
structure TidyIgnorables (upper : Str → Bool) (s : Ms) : Prop where
  first : ∀ m ∈ s.live, Ignorable upper s.input m → WordAt s.input m.start
  last : ∀ m ∈ s.live, Ignorable upper s.input m → WordAt s.input (m.stop - 1)
  apart : ∀ m ∈ s.live, ∀ x ∈ s.live, Ignorable upper s.input m → x ≠ m → x.stop ≤ m.start ∨ m.stop ≤ x.start

end Guessit.Spec

namespace Guessit.Spec

/-- `n` is the number of distinct property names found in the part (titles and the like are not counted). -/
def Weight (s : Ms) (part : Mt) (n : Nat) : Prop :=
  IsCard (fun name : Option Str => ∃ m ∈ s.live, Overlaps part m ∧ CountsForPart s.input m ∧ m.name = name) n

/-- Part `q` is looked at before `part`: more properties were found in it, or as many and it is further right. -/
def Outranks (s : Ms) (q part : Mt) : Prop :=
  IsPart s q ∧ IsPart s part ∧ ∃ a b, Weight s q a ∧ Weight s part b ∧ (b < a ∨ (a = b ∧ [part, q].Sublist s.markers))

/-- There is a word in the part that no match and no bracketed group covers. -/
def HasFreeWord (s : Ms) (part : Mt) : Prop := ∃ i, Covers part i ∧ WordAt s.input i ∧ FreeAt s i

/-- Bracketed groups are listed in the order of their closing brackets. -/
def GroupsInOrder (s : Ms) : Prop := ∀ g h, InGroups s g → InGroups s h → [g, h].Sublist s.markers → g.stop ≤ h.stop

/-- A match is inside the stretch, or apart from it. -/
def InOrOut (m stretch : Mt) : Prop := (stretch.start ≤ m.start ∧ m.stop ≤ stretch.stop) ∨ m.stop ≤ stretch.start ∨ stretch.stop ≤ m.start

/-- A bracketed group that makes up a whole element of the path. -/
def WholeElement (s : Ms) (g part : Mt) : Prop := InGroups s g ∧ IsPart s part ∧ g.start = part.start ∧ g.stop = part.stop

end Guessit.Spec
