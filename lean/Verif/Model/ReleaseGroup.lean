import Verif.Model.EpisodeTitle
import Verif.Model.Numeral
import Verif.Model.Finders

/-!
# guessit/rules/properties/release_group.py

`int_coercable` is Python's `int`; the model takes it as a predicate on texts.
-/

namespace Guessit

/-- `re.sub(pattern, repl, s)` for patterns that never match the empty text. -/
def Re.subFrom (r : Re) (s : Str) (repl : Caps → Str) : Nat → Nat → Str
  | 0, i => s.drop i
  | fuel + 1, i => match r.searchFrom s i (s.length - i) with
    | none => s.drop i
    | some (a, b, c) => (s.take a).drop i ++ repl c ++ Re.subFrom r s repl fuel b

/-- The text of a group (`\n` in the replacement). -/
def capText (s : Str) (c : Caps) (n : Nat) : Str := match c.lookup n with
  | some (a, b) => (s.take b).drop a
  | none => []

/-- The configuration of the property (options.json, release_group) and the character tables of Python. -/
structure GroupEnv where
  u : Uni
  forbidden : List Str
  ignored : Str
  intLike : Str → Bool

/-- `groupname_seps` (release_group.py:33). -/
def groupSeps (ignored : Str) : Str := seps.filter fun c => !ignored.contains c

/-- `r'(.+)\)\s?\[(.+)\]'` (release_group.py:57). -/
def creditRe (u : Uni) : Re :=
  .cat [.grp 1 (.rep (.chr fun c => c ≠ '\n') 1 none), .lit ')', .opt (.chr u.space), .lit '[',
    .grp 2 (.rep (.chr fun c => c ≠ '\n') 1 none), .lit ']']

/-- The first two steps of `clean_groupname` (release_group.py:43-46): separators are stripped, then brackets, unless the
name is bracketed on both sides or has a bracket inside. -/
def stripGroup (ignored : Str) (s : Str) : Str :=
  let s := stripChars (groupSeps ignored) s
  if !((s.getLast?).any ignored.contains && (s.head?).any ignored.contains) && !(stripChars ignored s).any ignored.contains then
    stripChars ignored s
  else s

/-- `string.lower().startswith(forbidden) and string[len(forbidden):len(forbidden) + 1] in seps` (release_group.py:48); the
empty text is in `seps`. -/
def opensWith (u : Uni) (f s : Str) : Bool := f.isPrefixOf (u.lower s) && (pySlice s f.length (f.length + 1)).all isSep

/-- `string.lower().endswith(forbidden) and string[-len(forbidden) - 1:-len(forbidden)] in seps` (release_group.py:51). -/
def closesWith (u : Uni) (f s : Str) : Bool :=
  f.isSuffixOf (u.lower s) && (pySlice s (-(f.length : Int) - 1) (-(f.length : Int))).all isSep

/-- One turn of the loop over the forbidden names (release_group.py:48-53).  The second branch keeps `string[:len(forbidden)]`,
as the code does. -/
def dropForbidden (e : GroupEnv) (s f : Str) : Str :=
  let s := if opensWith e.u f s then stripChars (groupSeps e.ignored) (s.drop f.length) else s
  if closesWith e.u f s then stripChars (groupSeps e.ignored) (s.take f.length) else s

/-- `re.sub(r'(.+)\)\s?\[(.+)\]', r'\1 \2', string)` (release_group.py:57). -/
def joinCredit (u : Uni) (s : Str) : Str :=
  (creditRe u).subFrom s (fun c => capText s c 1 ++ c!" " ++ capText s c 2) (s.length + 1) 0

/-- `clean_groupname` (release_group.py:35-57). -/
def cleanGroup (e : GroupEnv) (s : Str) : Str :=
  joinCredit e.u (e.u.strip (e.forbidden.foldl (dropForbidden e) (stripGroup e.ignored s)))

/-- A stretch of the input as a match without a name. -/
def spanMt (h : Nat × Nat) : Mt := { id := 0, start := h.1, stop := h.2, name := none }

/-- `matches.range(start, match.start, index=-1, predicate=…)` (release_group.py:134-137). -/
def lastPublic (s : Ms) (a b : Nat) : Option Mt := lastIn s a b fun m => !m.priv && !m.tagged c!"expected"

/-- The separator between two successive matches (release_group.py:141-143); `match.raw[0]` is modelled for a match with text. -/
def separatorOf (input : Str) (current m : Mt) : Str :=
  let sep := (input.take m.start).drop current.stop
  if sep.isEmpty && decide ((m.raw input).head? = some '-') then c!"-" else sep

/-- The loop of `is_valid` from its second turn on (release_group.py:133-155); `f` bounds the number of turns. -/
def dotBefore (s : Ms) (a : Nat) : Nat → Mt → Bool
  | 0, _ => false
  | f + 1, m => match lastPublic s a m.start with
    | none => false
    | some current => decide (separatorOf s.input current m = c!".") || dotBefore s a f current

/-- The loop of `is_valid` (release_group.py:131-155). -/
def dashThenDot (s : Ms) (a : Nat) (c : Mt) : Bool := match lastPublic s a c.start with
  | none => false
  | some current => decide (separatorOf s.input current c = c!"-") && dotBefore s a current.start current

/-- `matches.markers.at_match(candidate, predicate=…group…, index=0)` used as a truth value (release_group.py:127). -/
def groupOf (s : Ms) (c : Mt) : Option Mt := firstTrue (atMatch s.input s.markers c fun m => m.name = some c!"group")

/-- `is_valid(…, at_end=True)` (release_group.py:127-155). -/
def validEnd (s : Ms) (a : Nat) (c : Mt) : Bool :=
  (match groupOf s c with
    | some g => (atMatch s.input s.live g fun m => !m.priv && !(decide (m.start = c.start) && decide (m.stop = c.stop))).isEmpty
    | none => true) && dashThenDot s a c

/-- Where the end of the name is: before the container, when there is one (release_group.py:163-165). -/
def nameEnd (s : Ms) (b : Nat) : Nat :=
  match firstTrue ((ending s.live b).filter fun m => decide (m.name = some c!"container")) with
  | some m => m.start
  | none => b

/-- The predicate of `matches.ending` (release_group.py:167-170). -/
def endable (e : GroupEnv) (input : Str) (m : Mt) : Bool :=
  !m.priv && !(decide (m.name = some c!"other") && m.tagged c!"not-a-release-group") && !(m.raw input).contains '-' &&
    decide (e.u.strip (m.raw input) = m.raw input)

/-- A hole that has a word (`m.raw.strip(seps)`). -/
def wordy (input : Str) (h : Nat × Nat) : Bool := !(stripSeps (sliceOf input h)).isEmpty

/-- The candidate of `detect(…, at_end=True)` (release_group.py:161-175). -/
def endCandidate (e : GroupEnv) (s : Ms) (part : Mt) : Option Mt :=
  let b := nameEnd s part.stop
  match firstTrue ((ending s.live b).filter (endable e s.input)) with
  | some m => some m
  | none => (((holeSpans s.input s.live (fun _ => false) seps part.start b).reverse.find? fun h =>
      decide (h.2 = b) && wordy s.input h && decide ((sliceOf s.input h).head? = some '-')).map spanMt)

/-- `detect(…, at_end=True)` (release_group.py:157-181). -/
def detectEnd (e : GroupEnv) (s : Ms) (part : Mt) : Option Mt := match endCandidate e s part with
  | some c => if validEnd s part.start c then some c else none
  | none => none

/-- The last test of `is_valid(…, at_end=False)` (release_group.py:124-125). -/
def dotted (raw : Str) : Bool :=
  decide (raw.head? = some '-') && !raw.tail.contains '-' && raw.contains '.' && !raw.contains ' '

/-- `is_valid(…, at_end=False)` (release_group.py:113-125). -/
def validStart (s : Ms) (b : Nat) (c : Mt) : Bool :=
  decide (1 < c.stop - c.start) && (atMatch s.input s.markers c fun m => m.name = some c!"group").isEmpty &&
    (match (holeSpans s.input s.live (fun _ => false) [] c.stop b).find? fun h => decide (h.1 = c.stop) with
      | some h => decide (h.1 < h.2) && dotted (sliceOf s.input h)
      | none => false)

/-- `detect(…, at_end=False)` (release_group.py:157-181). -/
def detectStart (s : Ms) (part : Mt) : Option Mt :=
  match (holeSpans s.input s.live (fun _ => false) seps part.start part.stop).find? fun h =>
      decide (h.1 = part.start) && wordy s.input h with
  | some h => if validStart s part.stop (spanMt h) then some (spanMt h) else none
  | none => none

/-- The release group for a candidate, when its name is not empty (release_group.py:197-201). -/
def groupFor (e : GroupEnv) (s : Ms) (c : Mt) : List Mt :=
  if (cleanGroup e (sliceOf s.input (c.start, c.stop))).isEmpty then []
  else [{ id := 0, start := c.start, stop := c.stop, name := some c!"release_group", fmt := fun t => .str (cleanGroup e t) }]

/-- One turn of the loop of `DashSeparatedReleaseGroup.when` (release_group.py:189-203). -/
def dashPart (e : GroupEnv) (s : Ms) (part : Mt) : Option (List Mt × List Mt) :=
  let r := match detectEnd e s part with
    | some c => (atMatch s.input s.live c fun _ => true, groupFor e s c)
    | none => match detectStart s part with
      | some c => ([], groupFor e s c)
      | none => ([], [])
  if r.1.isEmpty && r.2.isEmpty then none else some r

/-- `DashSeparatedReleaseGroup` (release_group.py:82-203). -/
def dashRun (e : GroupEnv) (s : Ms) : Ms :=
  if !(named s.live c!"release_group").isEmpty then s
  else match (named s.markers c!"path").findSome? (dashPart e s) with
    | none => s
    | some (gone, new) => { s with live := appendAll s.input (removeAll s.input s.live gone) new }

end Guessit
