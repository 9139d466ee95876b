import Verif.Model.Forms

/-! # Expressions of options.json with repetition, conditions or a validator of their own -/

namespace Guessit

/-- `DTS(?=-?MA)` (options.json, `audio_codec`), with the value `DTS-HD`. -/
def dtsText : Str := c!"DTS(?=-?MA)"

/-- Its pattern (audio_codec.py:49). -/
def dtsPattern (E : RxEnv) (p : Form) : RxPattern Str :=
  { re := p.re E, name := c!"audio_codec", groups := [], children := false, validateAll := false, format := fun _ _ => .ok c!"DTS-HD",
    parentValid := fun _ _ => true, childValid := fun _ _ => true }

/-- What it finds. -/
def dtsFound (E : RxEnv) (s : Str) : List (RxMatch Str) := match parseForm [] dtsText with
  | some p => (dtsPattern E p).found s
  | none => []

/-- `LAME(?:\d)+-?(?:\d)+` (options.json, `audio_codec`), with the value `MP3`. -/
def lamePattern (E : RxEnv) : RxPattern Str :=
  { re := .cat [E.word c!"lame", E.digits, dashRe, E.digits], name := c!"audio_codec", groups := [], children := false, validateAll := false, format := fun _ _ => .ok c!"MP3",
    parentValid := fun _ _ => true, childValid := fun _ _ => true }

/-- The text `iT` (options.json, `streaming_service`), which does not ignore case. -/
def itFound (s : Str) : List (RxMatch Str) := (findAll c!"iT" s).map fun i => { name := c!"streaming_service", start := i, stop := i + 2, value := .ok c!"iTunes" }

/-- `_repack_with_count` (options.json, `other`): `Repack(?P<proper_count>\d*)`, `Rerip(?P<proper_count>\d*)`. -/
def repackRe (E : RxEnv) (w : Str) : Re := .seq (E.word w) (.grp 1 (.rep E.digit 0 none))

/-- What it finds: the match, and the text of its child `proper_count`, if it has one (a group that is empty gives no child). -/
def repackFound (E : RxEnv) (s : Str) : List (RxMatch Str × Option Str) :=
  [c!"repack", c!"rerip"].flatMap fun w => (((repackRe E w).hits s).filter fun h => sepsSurround s h.start h.stop).map fun h =>
    ({ name := c!"other", start := h.start, stop := h.stop, value := .ok c!"Proper" }, match h.caps.lookup 1 with
      | some (a, b) => if a < b then some ((s.take b).drop a) else none
      | none => none)

/-- `build_or_pattern` (reutils.py:11-36), of a list that is not empty, without a name and without escaping. -/
def orText (ps : List Str) : Str := c!"(?:" ++ List.intercalate c!"|" ps ++ c!")"

/-- The expression of `complete_words` (other.py:62-64). -/
def completeText (season article : List Str) : Str :=
  c!"(?P<completeArticle>" ++ orText article ++ c!"-)?" ++ c!"(?P<completeWordsBefore>" ++ orText season ++ c!"-)?" ++ c!"Complete" ++ c!"(?P<completeWordsAfter>-" ++ orText season ++ c!")?"

/-- The names of its groups. -/
def completeNames : List Str := [c!"completeArticle", c!"completeWordsBefore", c!"completeWordsAfter"]

/-- `validate_complete` (other.py:50-60): one of the groups of season words took part. -/
def completeValid (h : RxHit) : Bool := (h.caps.lookup 2).isSome || (h.caps.lookup 3).isSome

/-- What it finds (other.py:62-68), with the words of options.json; its groups are private. -/
def completeFound (E : RxEnv) (s : Str) : List (RxMatch Str) := match parseForm completeNames (completeText [c!"seasons?", c!"series?"] [c!"The"]) with
  | some p => (((p.re E).hits s).filter fun h => sepsSurround s h.start h.stop && completeValid h).map fun h => { name := c!"other", start := h.start, stop := h.stop, value := .ok c!"Complete" }
  | none => []

end Guessit
