import Verif.Model.Validators
import Verif.Spec.SceneGroup

/-! # Specification vocabulary for the rules that choose between readings (C90–C97) -/

namespace Guessit.Spec

/-- From `s` to `s'`, the matches that are `Bad` have been dropped, those that are `Changed` have been changed by `f` and come
last, and nothing else has changed. -/
structure Reworks (s s' : Ms) (Bad Changed : Mt → Prop) (f : Mt → Mt) : Prop where
  input : s'.input = s.input
  markers : s'.markers = s.markers
  moved : ∃ kept changed : List Mt, kept.Sublist s.live ∧ (∀ x ∈ s.live, x ∈ kept ↔ ¬ Bad x ∧ ¬ Changed x) ∧
    changed.Nodup ∧ (∀ x, x ∈ changed ↔ x ∈ s.live ∧ Changed x) ∧ s'.live = kept ++ changed.map f

/-- The name looks like that of an anime: a version or a checksum was found, or there is a screen size in brackets, or the name or a
directory begins with brackets in which nothing was found. -/
def LooksAnime (s : Ms) : Prop :=
  Found s.live c!"version" ∨ Found s.live c!"crc32" ∨
  ∃ g, InGroups s g ∧ ((∃ m ∈ s.live, m.name = some c!"screen_size" ∧ Overlaps g m) ∨
    ((∃ part, IsPart s part ∧ part.start = g.start) ∧ ¬ ∃ m ∈ s.live, Overlaps g m))

/-- The part has a match that comes from the pattern `name`. -/
def HasFrom (s : Ms) (name : Str) (part : Mt) : Prop := ∃ m ∈ s.live, m.iname = some name ∧ Overlaps part m

/-- A weak episode of a range such as `05-08`. -/
def Ranged (kin : Kin) (m : Mt) : Prop :=
  m.name = some c!"episode" ∧ m.iname = some c!"weak_episode" ∧ ∃ c ∈ kin.children (kin.initiator m), c.name = some c!"episodeSeparator"

/-- A part where both readings compete and there is a range of weak episodes. -/
def RangePart (kin : Kin) (s : Ms) (part : Mt) : Prop :=
  IsPart s part ∧ HasFrom s c!"weak_duplicate" part ∧ ∃ m ∈ s.live, Ranged kin m ∧ Overlaps part m

/-- The match under another name. -/
def called (name : Str) (m : Mt) : Mt := { m with name := some name }

/-- `i` is the whole match of a range or list of at least two episodes. -/
def EpisodeRange (kin : Kin) (s : Ms) (i : Mt) : Prop :=
  (∃ m ∈ s.live, m.name = some c!"episode" ∧ kin.initiator m = i) ∧
    ∃ a b, [a, b].Sublist (kin.children i) ∧ a.name = some c!"episode" ∧ b.name = some c!"episode"

/-- There are exactly two ranges of episodes, `i` and `j`. -/
def TwoRanges (kin : Kin) (s : Ms) (i j : Mt) : Prop :=
  EpisodeRange kin s i ∧ EpisodeRange kin s j ∧ i.key s.input ≠ j.key s.input ∧
    ∀ k, EpisodeRange kin s k → k.key s.input = i.key s.input ∨ k.key s.input = j.key s.input

/-- `x` is an episode of the range `i`. -/
def InRangeOf (kin : Kin) (s : Ms) (i x : Mt) : Prop := x.name = some c!"episode" ∧ (kin.initiator x).key s.input = i.key s.input

/-- An episode goes beyond the first character of the part. -/
def EpisodeBeyond (s : Ms) (part e : Mt) : Prop := e ∈ s.live ∧ e.name = some c!"episode" ∧ e.start < part.stop ∧ part.start + 1 < e.stop

/-- `x` is a weak number that starts the part, and there is an episode beyond its first character. -/
def LeadingNumber (s : Ms) (part x : Mt) : Prop :=
  IsPart s part ∧ x.start = part.start ∧ x.iname = some c!"weak_episode" ∧ ∃ e, EpisodeBeyond s part e

/-- A marker `d`, as in `S01D02`. -/
def DiscMarker (lower : Str → Str) (s : Ms) (m : Mt) : Prop :=
  m ∈ s.live ∧ m.name = some c!"episodeMarker" ∧ ∃ v, m.value s.input = .str v ∧ lower v = c!"d"

/-- The children of the whole match of a match found are, when they are still there, the matches found. -/
def KinFound (kin : Kin) (s : Ms) : Prop :=
  ∀ m ∈ s.live, ∀ c ∈ kin.children (kin.initiator m), ∀ x ∈ s.live, c.key s.input = x.key s.input → c = x

/-- The text of the first child named `n`. -/
def ChildText (kin : Kin) (input : Str) (m : Mt) (n v : Str) : Prop :=
  ∃ c, FirstOf (kin.children m) (fun c => c.name = some n) c ∧ c.value input = .str v

/-- The letter of the scan type, in lower case; `p` when it is not given. -/
def ScanType (lower : Str → Str) (kin : Kin) (input : Str) (m : Mt) (t : Str) : Prop :=
  (∃ v, ChildText kin input m c!"scan_type" v ∧ v ≠ [] ∧ t = lower v) ∨
  ((¬ ∃ v, ChildText kin input m c!"scan_type" v ∧ v ≠ []) ∧ t = lower c!"p")

/-- `v` is how a screen size of height `h` is written: `1080p` when the width is not given, or when the height is a standard one and
the aspect ratio is within the bounds; else `1920x1072`. -/
def SizeName (lower : Str → Str) (standard : List Str) (within : Str → Str → Bool) (kin : Kin) (input : Str) (m : Mt) (h v : Str) : Prop :=
  (∃ t, ScanType lower kin input m t ∧ v = h ++ t ∧
    ∀ w, ChildText kin input m c!"width" w → h ∈ standard ∧ within w h = true) ∨
  ∃ w, ChildText kin input m c!"width" w ∧ ¬ (h ∈ standard ∧ within w h = true) ∧ v = w ++ c!"x" ++ h

end Guessit.Spec

namespace Guessit.Spec

/-- A word such as `sub` that announces the language of subtitles. -/
def IsPrefix (m : Mt) : Prop := m.name = some c!"subtitle_language.prefix"

/-- A word such as `sub` that follows the language of subtitles. -/
def IsSuffix (m : Mt) : Prop := m.name = some c!"subtitle_language.suffix"

/-- `p` is the prefix just before `x`. -/
def PrefixBefore (s : Ms) (x p : Mt) : Prop := FirstOf s.live (fun p => IsPrefix p ∧ ClosestBefore s.live x p) p

/-- `p` announces the language `x`: it comes just before it, else, when `x` is in a bracketed group, just before the group, else it is the
first prefix between the start of the group and the language. -/
def Announces (s : Ms) (x p : Mt) : Prop :=
  PrefixBefore s x p ∨
  (¬ ∃ p, PrefixBefore s x p) ∧ ∃ g, EndMark s.markers c!"group" x g ∧
    (PrefixBefore s g p ∨ (¬ ∃ p, PrefixBefore s g p) ∧ Lead s.live (fun m => IsPrefix m ∧ m.start < x.start ∧ g.start < m.stop) p)

/-- `x` is the language of subtitles, `p` announces it. -/
def Announced (s : Ms) (x p : Mt) : Prop := x.name = some c!"language" ∧ Announces s x p

/-- `n` is the suffix just after `x`. -/
def SuffixAfter (s : Ms) (x n : Mt) : Prop := x.name = some c!"language" ∧ FirstOf s.live (fun n => IsSuffix n ∧ ClosestAfter s.live x n) n

/-- The two matches are the same word, but for their names. -/
def Twin (input : Str) (x p : Mt) : Prop := x.start = p.start ∧ x.stop = p.stop ∧ x.value input = p.value input ∧ x.parent = p.parent

end Guessit.Spec

namespace Guessit.Spec

/-- `x` is the language just before the extension of a file of subtitles. -/
def ExtensionLanguage (s : Ms) (x : Mt) : Prop :=
  ∃ ext, FirstOf s.live (fun m => m.name = some c!"container" ∧ c!"extension" ∈ m.tags ∧ c!"subtitle" ∈ m.tags) ext ∧
    FirstOf s.live (fun m => m.name = some c!"language" ∧ ClosestBefore s.live ext m) x

/-- `y` is `x`, hidden when it is a language of subtitles that was only supposed. -/
def Hides (x y : Mt) : Prop :=
  (x.name = some c!"subtitle_language" ∧ c!"weak-language" ∈ x.tags ∧ y = { x with priv := true }) ∨
  (¬ (x.name = some c!"subtitle_language" ∧ c!"weak-language" ∈ x.tags) ∧ y = x)

end Guessit.Spec
