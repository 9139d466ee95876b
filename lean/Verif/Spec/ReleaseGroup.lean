import Verif.Spec.EpisodeTitle
import Verif.Spec.Text

/-! # Specification vocabulary for release groups (C86–C89) -/

namespace Guessit.Spec

/-- The brackets. -/
def brackets : Str := c!"[]{}()"

/-- The text begins with the word `f`: whatever follows it is a separator.  `lower` is Python's `str.lower`. -/
def OpensWord (lower : Str → Str) (f t : Str) : Prop := f <+: lower t ∧ ∀ c, t[f.length]? = some c → c ∈ seps

/-- The text ends with the word `f`: whatever precedes it is a separator. -/
def ClosesWord (lower : Str → Str) (f t : Str) : Prop :=
  f <:+ lower t ∧ ∀ c, f.length < t.length → t[t.length - f.length - 1]? = some c → c ∈ seps

/-- The text neither begins nor ends with one of the words. -/
def Unadorned (lower : Str → Str) (words : List Str) (t : Str) : Prop := ∀ f ∈ words, ¬ OpensWord lower f t ∧ ¬ ClosesWord lower f t

/-- The text does not begin or end with a character that is `P`. -/
def Trimmed (P : Char → Prop) (t : Str) : Prop := (∀ c, t.head? = some c → ¬ P c) ∧ ∀ c, t.getLast? = some c → ¬ P c

end Guessit.Spec

namespace Guessit.Spec

/-- No match covers the position. -/
def Uncovered (s : Ms) (i : Nat) : Prop := ∀ m ∈ s.live, ¬ Covers m i

/-- The character at `i` is a separator. -/
def SepAt (input : Str) (i : Nat) : Prop := ∃ c, input[i]? = some c ∧ c ∈ seps

/-- The end of the name in a part that ends at `stop`: where the (first) container that ends there begins, or `stop`. -/
def NameEnd (s : Ms) (stop b : Nat) : Prop :=
  (∃ m, FirstOf s.live (fun m => m.stop = stop ∧ m.name = some c!"container") m ∧ b = m.start) ∨
  ((¬ ∃ m ∈ s.live, m.stop = stop ∧ m.name = some c!"container") ∧ b = stop)

/-- A match that may be a release group ends at `b`: it is public, has no dash and no white space around it, and is not
tagged as being no release group. -/
def MayEnd (trim : Str → Str) (s : Ms) (b : Nat) (m : Mt) : Prop :=
  m.stop = b ∧ m.priv = false ∧ ¬ (m.name = some c!"other" ∧ c!"not-a-release-group" ∈ m.tags) ∧ '-' ∉ m.raw s.input ∧
    trim (m.raw s.input) = m.raw s.input

/-- A word with a dash in front, just after a match, that no match covers: `[x, b)`. -/
structure DashWord (s : Ms) (x b : Nat) : Prop where
  size : x + 1 < b
  upper : b ≤ s.input.length
  dash : s.input[x]? = some '-'
  word : ∀ i, x < i → i < b → ¬ SepAt s.input i
  free : ∀ i, x ≤ i → i < b → Uncovered s i
  after : ∃ m ∈ s.live, Covers m (x - 1)

/-- `y` is the last public match, other than expected ones, that begins before `m`, in the part that starts at `a`. -/
def Precedes (s : Ms) (a : Nat) (m y : Mt) : Prop :=
  Final s.live (fun x => x.priv = false ∧ c!"expected" ∉ x.tags ∧ x.start < m.start ∧ a < x.stop) y

/-- Somewhere before `m`, two successive matches are separated by a dot only. -/
inductive DotChain (s : Ms) (a : Nat) : Mt → Prop
  | here {m y : Mt} : Precedes s a m y → textOf s.input y.stop m.start = c!"." → DotChain s a m
  | further {m y : Mt} : Precedes s a m y → DotChain s a y → DotChain s a m

/-- There is a dash between `y` and `c`, or `c` begins with one, just after `y`. -/
def DashBetween (s : Ms) (y c : Mt) : Prop :=
  textOf s.input y.stop c.start = c!"-" ∨ (textOf s.input y.stop c.start = [] ∧ (c.raw s.input).head? = some '-')

/-- `c` is a dash-separated release group at the end of the part: a match or a word at the end of the name, not in a bracketed group
with a match over one of the brackets, that follows a match after a dash; before that, some matches are separated by a dot. -/
structure EndGroup (trim : Str → Str) (s : Ms) (part c : Mt) : Prop where
  place : ∃ b, NameEnd s part.stop b ∧ (FirstOf s.live (MayEnd trim s b) c ∨
    ((¬ ∃ m ∈ s.live, MayEnd trim s b m) ∧ ∃ x, DashWord s x b ∧ c = { id := 0, start := x, stop := b, name := none }))
  group : ∀ g, EndMark s.markers c!"group" c g → ∀ m ∈ s.live, m.priv = false → AtEnds g m → m.start = c.start ∧ m.stop = c.stop
  chain : ∃ y, Precedes s part.start c y ∧ DashBetween s y c ∧ DotChain s part.start y

/-- `[part.start, k)` is a dash-separated release group at the beginning of the part: at least two characters, one word that no
match covers, with no bracketed group at either end; it is followed by free text that begins with its only dash, and has dots and no
space. -/
structure StartGroup (s : Ms) (part : Mt) (k : Nat) : Prop where
  size : part.start + 1 < k
  free : ∀ i, part.start ≤ i → i < k → Uncovered s i
  word : ∀ i, part.start < i → i < k → ¬ SepAt s.input i
  group : ∀ g, InGroups s g → ¬ Covers g part.start ∧ ¬ Covers g (k - 1)
  next : ∃ y t, FreeStretch s k part.stop k y ∧ textOf s.input k y = '-' :: t ∧ '-' ∉ t ∧ '.' ∈ t ∧ ' ' ∉ t

/-- The match for a release group; its value is what `clean` makes of the text. -/
def groupMatch (clean : Str → Str) (a b : Nat) : Mt :=
  { id := 0, start := a, stop := b, name := some c!"release_group", fmt := fun t => .str (clean t) }

/-- The match for a release group, unless its name would be empty. -/
def named? (clean : Str → Str) (s : Ms) (a b : Nat) : List Mt := if clean (textOf s.input a b) = [] then [] else [groupMatch clean a b]

/-- Something is done in the part: a release group is detected at its end, and there is something to remove or to report; or one is
detected at its beginning, and there is something to report. -/
def Decides (trim clean : Str → Str) (s : Ms) (part : Mt) : Prop :=
  (∃ c, EndGroup trim s part c ∧ ((∃ m ∈ s.live, AtEnds c m) ∨ clean (textOf s.input c.start c.stop) ≠ [])) ∨
  ((¬ ∃ c, EndGroup trim s part c) ∧ ∃ k, StartGroup s part k ∧ clean (textOf s.input part.start k) ≠ [])

end Guessit.Spec
