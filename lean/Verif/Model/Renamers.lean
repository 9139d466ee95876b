import Verif.Model.Conflicts

/-!
# guessit/rules/properties: rules that give matches another name or value
-/

namespace Guessit

/-! ## screen_size.py -/

/-- What the rule knows of numbers: `ratio w h` is `round(float(w) / float(h), 3)`, `within w h` is `min_ar < float(w) / float(h) < max_ar`,
`frames` is `FrameRate.fromstring`; `standard` is `progressive`. -/
structure SizeEnv where
  standard : List Str
  within : Str → Str → Bool
  ratio : Str → Str → MVal
  frames : Str → MVal
  lower : Str → Str

/-- `match.children.to_dict().get(name)`; a screen size has at most one child of each name, and their values are text. -/
def childText (kin : Kin) (input : Str) (m : Mt) (name : Str) : Option Str := match (named (kin.children m) name).head? with
  | some c => match c.value input with
    | .str v => some v
    | _ => none
  | none => none

/-- `float(height) == 0`; the height is made of digits. -/
def isZero (h : Str) : Bool := h.all fun c => c = '0'

/-- `scan_type` (screen_size.py:89): `(values.get('scan_type') or 'p').lower()`. -/
def scanType (e : SizeEnv) (kin : Kin) (input : Str) (m : Mt) : Str := match childText kin input m c!"scan_type" with
  | some t => if t.isEmpty then e.lower c!"p" else e.lower t
  | none => e.lower c!"p"

/-- The new value of a screen size (screen_size.py:85-106). -/
def sizeValue (e : SizeEnv) (kin : Kin) (input : Str) (m : Mt) : Option Str := match childText kin input m c!"height" with
  | none => none
  | some h => match childText kin input m c!"width" with
    | none => some (h ++ scanType e kin input m)
    | some w => if e.standard.contains h && e.within w h then some (h ++ scanType e kin input m) else some (w ++ c!"x" ++ h)

/-- The assignment to `match.value`. -/
def resize (e : SizeEnv) (kin : Kin) (input : Str) (m : Mt) : Mt :=
  if m.name = some c!"screen_size" then
    match sizeValue e kin input m with
    | some v => { m with val := some (.str v) }
    | none => m
  else m

/-- The division `float(width) / float(height)` raises `ZeroDivisionError`. -/
def divides (kin : Kin) (input : Str) (m : Mt) : Bool := match childText kin input m c!"height", childText kin input m c!"width" with
  | some h, some _ => !isZero h
  | _, _ => true

/-- What is appended for a screen size (screen_size.py:80-101). -/
def sizeExtras (e : SizeEnv) (kin : Kin) (noFrames noRatio : Bool) (input : Str) (m : Mt) : List Mt :=
  (if noFrames then [] else (named (kin.children m) c!"frame_rate").map fun c => { c with fmt := e.frames }) ++
  (match childText kin input m c!"height", childText kin input m c!"width" with
    | some h, some w => if noRatio then [] else
      [{ id := 0, start := m.start, stop := m.stop, name := some c!"aspect_ratio", val := some (e.ratio w h) }]
    | _, _ => [])

/-- `PostProcessScreenSize` (screen_size.py:61-108), with `consequence = AppendMatch`; `none`: `ZeroDivisionError`. -/
def postProcessSize (e : SizeEnv) (kin : Kin) (noFrames noRatio : Bool) (s : Ms) : Option Ms :=
  let sizes := named s.live c!"screen_size"
  if sizes.all (divides kin s.input) then
    some { s with live := appendAll s.input (s.live.map (resize e kin s.input)) (sizes.flatMap (sizeExtras e kin noFrames noRatio s.input)) }
  else none

/-! ## bit_rate.py -/

/-- The bit rate belongs to the video (bit_rate.py:53-62); `slow v`: `v.units == 'Kbps' or (v.units == 'Mbps' and v.magnitude < 10)`. -/
def videoRate (slow : MVal → Bool) (s : Ms) (m : Mt) : Bool :=
  linkedBefore s m (fun x => x.isOneOf [c!"source", c!"screen_size", c!"video_codec"]) &&
  !(linkedAfter s m (fun x => decide (x.name = some c!"audio_codec")) && slow (m.value s.input))

/-- `BitRateTypeRule` (bit_rate.py:37-70), with `consequence = [RenameMatch('video_bit_rate'), RemoveMatch]`. -/
def bitRateType (slow : MVal → Bool) (noAudio noVideo : Bool) (s : Ms) : Ms :=
  let rates := named s.live c!"audio_bit_rate"
  if noAudio then dropping s rates
  else if noVideo then dropping s (rates.filter (videoRate slow s))
  else { s with live := renameAll s.input c!"video_bit_rate" s.live (rates.filter (videoRate slow s)) }

/-! ## other.py, language.py -/

/-- `RenameAnotherToOther` (other.py:113-121). -/
def anotherToOther (s : Ms) : Ms := { s with live := renameAll s.input c!"other" s.live (named s.live c!"another") }

/-- `RemoveLanguage` (language.py:481-489); `disabled`: the property `language` is disabled. -/
def removeLanguage (disabled : Bool) (s : Ms) : Ms := if disabled then dropping s (named s.live c!"language") else s

end Guessit
