import Verif.Spec.ReleaseGroup

/-! # Specification vocabulary for scene and anime release groups (C88, C89) -/

namespace Guessit.Spec

/-- The match lies in the part. -/
def InPart (part m : Mt) : Prop := part.start ≤ m.start ∧ m.stop ≤ part.stop

/-- A title of the part that is not its first one. -/
def ExtraTitle (s : Ms) (part m : Mt) : Prop :=
  m ∈ s.live ∧ m.name = some c!"title" ∧ InPart part m ∧ ¬ FirstOf s.live (fun x => x.name = some c!"title" ∧ InPart part x) m

/-- What a scene release group may follow. -/
def MayPrecede (m : Mt) : Prop :=
  (NamedIn m [c!"video_codec", c!"source", c!"video_api", c!"audio_codec", c!"audio_profile", c!"video_profile", c!"audio_channels",
      c!"screen_size", c!"other", c!"container", c!"language", c!"subtitle_language", c!"subtitle_language.suffix",
      c!"subtitle_language.prefix", c!"language.suffix"] ∧ c!"no-release-group-prefix" ∉ m.tags) ∨
  (¬ NamedIn m [c!"video_codec", c!"source", c!"video_api", c!"audio_codec", c!"audio_profile", c!"video_profile", c!"audio_channels",
      c!"screen_size", c!"other", c!"container", c!"language", c!"subtitle_language", c!"subtitle_language.suffix",
      c!"subtitle_language.prefix", c!"language.suffix"] ∧ c!"release-group-prefix" ∈ m.tags)

/-- No match covers the position, but titles of the part other than its first. -/
def FreeForGroup (s : Ms) (part : Mt) (i : Nat) : Prop := ∀ m ∈ s.live, Covers m i → ExtraTitle s part m

/-- `[x, y)` is a longest free stretch of the part, the path separator after it included, whose name is not empty. -/
structure GroupStretch (clean : Str → Str) (s : Ms) (part : Mt) (x y : Nat) : Prop where
  lower : part.start ≤ x
  pos : x < y
  upper : y ≤ min s.input.length (part.stop + 1)
  free : ∀ i, x ≤ i → i < y → FreeForGroup s part i
  left : x = part.start ∨ ¬ FreeForGroup s part (x - 1)
  right : y = min s.input.length (part.stop + 1) ∨ ¬ FreeForGroup s part y
  name : ∃ c ∈ clean (textOf s.input x y), c ∉ seps

/-- `[x, y)` is a scene release group of the part: there is none in the part yet, it is its last free stretch with a name, it
comes just after a match it may follow, and its name is not a number. -/
structure SceneGroup (clean : Str → Str) (intLike : Str → Bool) (s : Ms) (part : Mt) (x y : Nat) : Prop where
  first : ¬ ∃ m ∈ s.live, m.name = some c!"release_group" ∧ InPart part m
  stretch : GroupStretch clean s part x y
  last : ∀ x' y', GroupStretch clean s part x' y' → x' ≤ x
  follows : ∃ p, FirstOf s.live (fun p => ClosestBefore s.live { id := 0, start := x, stop := y, name := none } p ∧ part.start ≤ p.start ∧
    (p.priv = false ∨ MayPrecede p)) p ∧ MayPrecede p ∧ OnlySeps s.input p.stop x
  number : intLike (stripSeps (clean (textOf s.input x y))) = false

/-- The stretch is in a bracketed group (at one of its ends) of the same name. -/
def Bracketed (clean : Str → Str) (s : Ms) (x y : Nat) (g : Mt) : Prop :=
  EndMark s.markers c!"group" { id := 0, start := x, stop := y, name := none } g ∧
    clean (textOf s.input g.start g.stop) = clean (textOf s.input x y)

/-- The match reported for a scene release group `[x, y)`: the stretch itself, or the inside of the bracketed group. -/
def Reported (clean : Str → Str) (s : Ms) (x y : Nat) (m : Mt) : Prop :=
  (∃ g, Bracketed clean s x y g ∧ m = { groupMatch clean (g.start + 1) (g.stop - 1) with tags := [c!"anime"] }) ∨
  ((¬ ∃ g, Bracketed clean s x y g) ∧ m = { groupMatch clean x y with tags := [c!"scene"] })

/-- Path elements do not touch one another. -/
def PartsApart (s : Ms) : Prop := ∀ p q, IsPart s p → IsPart s q → p ≠ q → p.stop < q.start ∨ q.stop < p.start

/-- Bracketed groups have no value but their text. -/
def PlainGroups (s : Ms) : Prop := ∀ g, InGroups s g → g.val = none ∧ g.rawStart = none ∧ g.rawStop = none ∧ g.fmt = MVal.str

/-- `g` is the scene release group of the part. -/
def SceneOf (clean : Str → Str) (intLike : Str → Bool) (s : Ms) (part g : Mt) : Prop :=
  ∃ x y, SceneGroup clean intLike s part x y ∧ Reported clean s x y g

/-- `g` is the bracketed group that is taken for a release group in the part: the first group that meets the part where nothing was found
but perhaps languages in doubt, and whose text has a word and is not a number. -/
def AnimeGroup (intLike : Str → Bool) (s : Ms) (part g : Mt) : Prop :=
  Lead s.markers (fun g => g.name = some c!"group" ∧ Overlaps part g ∧ (∀ m ∈ s.live, Overlaps g m → c!"weak-language" ∈ m.tags) ∧
    HasWordIn s.input g.start g.stop ∧ intLike (stripSeps (textOf s.input g.start g.stop)) = false) g

/-- The match reported for it: it spans the group, its value is the text inside the brackets. -/
def inside (g : Mt) : Mt :=
  { g with rawStart := some (g.start + 1), rawStop := some (g.stop - 1), tags := [c!"anime"], name := some c!"release_group" }

end Guessit.Spec
