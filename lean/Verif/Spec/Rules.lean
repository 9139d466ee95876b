import Verif.Model.Matches

/-! # Specification vocabulary for the rules (C18, C27, C31–C41) -/

namespace Guessit.Spec

/-- Some match named `name` has been found. -/
def Found (live : List Mt) (name : Str) : Prop := ∃ m ∈ live, m.name = some name

/-- A match and a marker share at least one character. -/
def Overlaps (part m : Mt) : Prop := m.start < part.stop ∧ part.start < m.stop

/-- Every match is a non-empty stretch of the input. -/
def WellFormed (input : Str) (live : List Mt) : Prop := ∀ m ∈ live, m.start < m.stop ∧ m.stop ≤ input.length

/-- A separator the engine sets between two numbers of a range. -/
def RangeSeparator (m : Mt) : Prop :=
  m.priv = true ∧ (m.name = some c!"episodeSeparator" ∨ m.name = some c!"seasonSeparator") ∧ c!"weak-episode" ∉ m.tags ∧ m.iname = m.name

/-- Every match is a non-empty stretch of the input, range separators excepted: these may be empty. -/
def Stretched (input : Str) (live : List Mt) : Prop :=
  ∀ m ∈ live, m.stop ≤ input.length ∧ (m.start < m.stop ∨ RangeSeparator m)

theorem WellFormed.stretched {input : Str} {live : List Mt} (h : WellFormed input live) : Stretched input live := fun m hm =>
  ⟨(h m hm).2, Or.inl (h m hm).1⟩

/-- Public matches are not empty. -/
theorem Stretched.pos {input : Str} {live : List Mt} (h : Stretched input live) {m : Mt} (hm : m ∈ live) (hp : m.priv = false) :
    m.start < m.stop := by
  rcases (h m hm).2 with h1 | h1
  · exact h1
  · have := h1.1; rw [hp] at this; cases this

/-- Matches of another name than that of range separators are not empty. -/
theorem Stretched.named {input : Str} {live : List Mt} (h : Stretched input live) {m : Mt} (hm : m ∈ live)
    (h1 : m.name ≠ some c!"episodeSeparator") (h2 : m.name ≠ some c!"seasonSeparator") : m.start < m.stop := by
  rcases (h m hm).2 with h3 | h3
  · exact h3
  · rcases h3.2.1 with h4 | h4
    · exact absurd h4 h1
    · exact absurd h4 h2

/-- `n` is the number of elements satisfying `S`. -/
def IsCard {α : Type} (S : α → Prop) (n : Nat) : Prop := ∃ l : List α, l.Nodup ∧ (∀ x, x ∈ l ↔ S x) ∧ l.length = n

/-- The documented conditions under which a name without a `type` option is an episode. -/
def EpisodeEvidence (live : List Mt) : Prop :=
  (Found live c!"episode" ∨ Found live c!"season" ∨ Found live c!"episode_details" ∨ Found live c!"absolute_episode") ∨
  (¬ Found live c!"film" ∧
    (((Found live c!"date" ∨ Found live c!"bonus") ∧ ¬ Found live c!"year") ∨
      (Found live c!"crc32" ∧ ∃ m ∈ live, m.name = some c!"release_group" ∧ c!"anime" ∈ m.tags)))

/-- A match counts for the value of a path part: it is not private, not a title or a proper count, not the container given
by the file extension and not a bare "Rip". -/
def CountsForPart (input : Str) (m : Mt) : Prop :=
  m.priv = false ∧ m.name ≠ some c!"proper_count" ∧ m.name ≠ some c!"title" ∧
    ¬ (m.name = some c!"container" ∧ c!"extension" ∈ m.tags) ∧ ¬ (m.name = some c!"other" ∧ m.value input = .str c!"Rip")

end Guessit.Spec

namespace Guessit.Spec

/-- The part has a match named `n` among those considered. -/
def PartHas (live : List Mt) (q : Option Str → Bool) (part : Mt) (n : Option Str) : Prop :=
  q n = true ∧ ∃ m ∈ live, Overlaps part m ∧ m.name = n

/-- `home` is the first of the parts to have a match named `n`. -/
def IsHome (live : List Mt) (q : Option Str → Bool) (parts : List Mt) (n : Option Str) (home : Mt) : Prop :=
  ∃ pre post, parts = pre ++ home :: post ∧ PartHas live q home n ∧ ∀ part ∈ pre, ¬ PartHas live q part n

end Guessit.Spec

namespace Guessit.Spec

/-- A spelling that occurs: the value of a match, or a stretch of the input with its separators cleaned up. -/
def Spelling (input : Str) (clean : Str → Str) (live : List Mt) (w : Str) : Prop :=
  (∃ m ∈ live, m.value input = .str w) ∨ ∃ a b, w = clean ((input.take b).drop a)

/-- The same match, whose text value may have become another occurring spelling of it (equal up to case). -/
def Respelled (input : Str) (lower clean : Str → Str) (live : List Mt) (m m' : Mt) : Prop :=
  m' = m ∨ ∃ v w, m.value input = .str v ∧ m' = { m with val := some (.str w) } ∧ m'.value input = .str w ∧
    lower w = lower v ∧ Spelling input clean live w

end Guessit.Spec
