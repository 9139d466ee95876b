import Verif.Model.Processors

/-!
# Rules of guessit/rules/properties: type, date, screen_size, other, mimetype
-/

namespace Guessit

/-! ## type.py -/

/-- `matches.named(name)` as a truth value. -/
def has (s : Ms) (name : Str) : Bool := !(named s.live name).isEmpty

/-- `TypeProcessor.when` (type.py:49-79). -/
def typeWhen (optionType : Option Str) (s : Ms) : Str :=
  match optionType with
  | some (c :: t) => c :: t
  | _ =>
    if has s c!"episode" || has s c!"season" || has s c!"episode_details" || has s c!"absolute_episode" then c!"episode"
    else if has s c!"film" then c!"movie"
    else if has s c!"date" && !has s c!"year" then c!"episode"
    else if has s c!"bonus" && !has s c!"year" then c!"episode"
    else if has s c!"crc32" && (named s.live c!"release_group").any (fun m => m.tags.contains c!"anime") then c!"episode"
    else c!"movie"

/-- `Match(len(input_string), len(input_string), name=name, value=value)` (type.py:20, mimetype.py:48). -/
def endMatch (s : Ms) (name value : Str) : Mt :=
  { id := s.live.length, start := s.input.length, stop := s.input.length, name := some name, val := some (.str value) }

/-- `_type` (type.py:13-20) and `TypeProcessor.then` (type.py:81-82): an empty match at the end of the input. -/
def typeProcessor (optionType : Option Str) (s : Ms) : Ms :=
  { s with live := s.live ++ [endMatch s c!"type" (typeWhen optionType s)] }

/-! ## mimetype.py -/

/-- `Mimetype` (mimetype.py:30-48); `guess` is `mimetypes.guess_type(_, strict=False)[0]`. -/
def mimetypeRule (guess : Str → Option Str) (s : Ms) : Ms := match guess s.input with
  | some (c :: t) => { s with live := s.live ++ [endMatch s c!"mimetype" (c :: t)] }
  | _ => s

/-! ## date.py -/

/-- A year is in a group when a group marker covers its first or last character (date.py:86). -/
def inGroup (s : Ms) (y : Mt) : Bool := !(atMatch s.input s.markers y fun m => m.name = some c!"group").isEmpty

/-- What `KeepMarkedYearInFilepart.when` removes among the years of one part (date.py:82-96). -/
def keepMarkedPart (s : Ms) (years : List Mt) : List Mt :=
  if years.length > 1 then
    let group := years.filter (inGroup s)
    let ungroup := years.filter fun y => !inGroup s y
    if !group.isEmpty && !ungroup.isEmpty then ungroup ++ group.drop 1
    else if group.isEmpty then ungroup.take 1 ++ (if ungroup.length > 2 then ungroup.drop 2 else [])
    else []
  else []

/-- `KeepMarkedYearInFilepart.when` (date.py:77-97). -/
def keepMarkedWhen (s : Ms) : List Mt :=
  if (named s.live c!"year").length > 1 then
    (named s.markers c!"path").flatMap fun part =>
      keepMarkedPart s (rangeOf s.input s.live part.start part.stop fun m => m.name = some c!"year")
  else []

/-- `KeepMarkedYearInFilepart` (date.py:67-97). -/
def keepMarkedYear (s : Ms) : Ms := { s with live := removeAll s.input s.live (keepMarkedWhen s) }

/-! ## screen_size.py -/

/-- The screen sizes of one part to remove (screen_size.py:122-125). -/
def onlyOnePart (s : Ms) (part : Mt) : List Mt :=
  let sizes := (rangeOf s.input s.live part.start part.stop fun m => m.name = some c!"screen_size").reverse
  if sizes.length > 1 && countDistinct (sizes.map (Mt.value s.input)) > 1 then sizes.drop 1 else []

/-- `ScreenSizeOnlyOne` (screen_size.py:113-127). -/
def screenSizeOnlyOne (s : Ms) : Ms :=
  { s with live := removeAll s.input s.live ((named s.markers c!"path").flatMap (onlyOnePart s)) }

/-! ## other.py -/

/-- `raws[raw_cleanup(proper.raw)] = proper` (other.py:85-87): a later match replaces an earlier one in place. -/
def putRaw (raws : List (Str × Mt)) (k : Str) (m : Mt) : List (Str × Mt) :=
  match raws with
  | [] => [(k, m)]
  | (k', m') :: rest => if k' = k then (k', m) :: rest else (k', m') :: putRaw rest k m

/-- What one spelling counts (other.py:100-105); `count` gives the number written in the match, if any. -/
def properWeight (count : Mt → Option Int) (m : Mt) : Int := match count m with
  | some n => n
  | none => if m.tags.contains c!"real" then 2 else 1

/-- The span of the new match (other.py:96-99); `not start` is also true of 0. -/
def properStart (start : Option Nat) (m : Mt) : Option Nat := match start with
  | none => some m.start
  | some 0 => some m.start
  | some a => if a > m.start then some m.start else some a
def properStop (stop : Option Nat) (m : Mt) : Option Nat := match stop with
  | none => some m.stop
  | some 0 => some m.stop
  | some b => if b < m.stop then some m.stop else some b

/-- `ProperCountRule` (other.py:71-110). -/
def properCount (u : Uni) (count : Mt → Option Int) (s : Ms) : Ms :=
  let propers := (named s.live c!"other").filter fun m => m.value s.input = .str c!"Proper"
  if propers.isEmpty then s
  else
    let raws := (propers.foldl (fun r m => putRaw r (rawCleanup u.lower (m.raw s.input)) m) []).map Prod.snd
    let m : Mt :=
      { id := s.live.length, start := (raws.foldl properStart none).getD 0, stop := (raws.foldl properStop none).getD 0,
        name := some c!"proper_count", val := some (.int ((raws.map (properWeight count)).sum)) }
    { s with live := appendAll s.input s.live [m] }

end Guessit
