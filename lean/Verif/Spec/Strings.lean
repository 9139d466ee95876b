import Verif.Spec.Recognise

/-! # Words and extensions (C120, C121) -/

namespace Guessit.Spec

/-- The word `w` is written at `i`, up to the lower-case form `low` of a character. -/
def Written (low : Char → Char) (s w : Str) (i : Nat) : Prop := ∀ k l, w[k]? = some l → CharAt s (fun c => low c = low l) (i + k)

/-- No character of the word is a separator. -/
def Solid (low : Char → Char) (w : Str) : Prop := ∀ l ∈ w, ∀ c ∈ seps, low c ≠ low l

/-- A word that can be told apart from any other occurrence of itself after a separator: after none of its own separators does it start
again. -/
def WordAlone (low : Char → Char) (w : Str) : Prop :=
  ∀ k l c, k + 1 < w.length → w[k]? = some l → c ∈ seps → low c = low l → ∃ x a b, w[k + 1 + x]? = some a ∧ w[x]? = some b ∧ low a ≠ low b

/-- The name ends at `j`, but for one line break. -/
def EndsAt (s : Str) (j : Nat) : Prop := j = s.length ∨ (j + 1 = s.length ∧ s[j]? = some '\n')

/-- From `i` to `j`: a dot, one of the words in any case, and the end of the name. -/
def ExtAt (E : RxEnv) (s : Str) (ws : List Str) (i j : Nat) : Prop :=
  s[i]? = some '.' ∧ EndsAt s j ∧ ∃ w ∈ ws, LiteralAt E s w (i + 1) ∧ j = i + 1 + w.length

/-- A digit of a pattern stands for itself. -/
def PlainDigits (E : RxEnv) : Prop := ∀ d ∈ c!"0123456789", ∀ c : Char, E.same d c = true ↔ c = d

/-- Letters and digits only. -/
def Alnum (w : Str) : Prop := w ≠ [] ∧ ∀ c ∈ w, c ∈ c!"abcdefghijklmnopqrstuvwxyz0123456789"

/-- The extensions, by kind. -/
def extensionTable : List (Str × List Str) :=
  [(c!"subtitle", [c!"srt", c!"idx", c!"sub", c!"ssa", c!"ass"]), (c!"info", [c!"nfo"]),
   (c!"video", [c!"3g2", c!"3gp", c!"3gp2", c!"asf", c!"avi", c!"divx", c!"flv", c!"iso", c!"m4v", c!"mk2", c!"mk3d", c!"mka", c!"mkv", c!"mov",
    c!"mp4", c!"mp4a", c!"mpeg", c!"mpg", c!"ogg", c!"ogm", c!"ogv", c!"qt", c!"ra", c!"ram", c!"rm", c!"ts", c!"m2ts", c!"vob", c!"wav",
    c!"webm", c!"wma", c!"wmv"]),
   (c!"torrent", [c!"torrent"]), (c!"nzb", [c!"nzb"])]

/-- The containers that are recognised anywhere, by kind: all but `nfo`, `sub` and `ass`. -/
def namedTable : List (Str × List Str) :=
  [(c!"subtitle", [c!"srt", c!"idx", c!"ssa"]),
   (c!"video", [c!"3g2", c!"3gp", c!"3gp2", c!"asf", c!"avi", c!"divx", c!"flv", c!"iso", c!"m4v", c!"mk2", c!"mk3d", c!"mka", c!"mkv", c!"mov",
    c!"mp4", c!"mp4a", c!"mpeg", c!"mpg", c!"ogg", c!"ogm", c!"ogv", c!"qt", c!"ra", c!"ram", c!"rm", c!"ts", c!"m2ts", c!"vob", c!"wav",
    c!"webm", c!"wma", c!"wmv"]),
   (c!"torrent", [c!"torrent"]), (c!"nzb", [c!"nzb"])]

/-- `str.lower` replaces character by character in the texts made of characters of `s` and of ASCII, and in ASCII it does the usual thing.
(In Python this excludes the names with `İ`, whose lower-case form is two characters, and with a `Σ` at the end of a word.) -/
structure Lowers (u : Uni) (low : Char → Char) (s : Str) : Prop where
  ascii : ∀ c : Char, c.toNat < 128 → low c = c.toLower
  text : ∀ t : Str, (∀ c ∈ t, c ∈ s ∨ c.toNat < 128) → u.lower t = t.map low

end Guessit.Spec
