import Verif.Model.Validators
import Verif.Model.Date

/-!
# Conflicts between matches

Before the rules of guessit run, the third-party `rebulk` settles conflicts between overlapping matches (class
`ConflictSolver`, its contract is restated here), asking the functions guessit attaches to its patterns (`conflict_solver=`),
which are all modelled below.

Simplification: the matches to drop are compared with `==` (rebulk compares identities); the theorems are about states where no
two matches are equal.
-/

namespace Guessit

/-- What `solver(match, other)` answers: `match`, `other`, `None` or `'__default__'`. -/
inductive Answer where
  | itself
  | other
  | both
  | dflt
  deriving DecidableEq, Repr

/-- A conflict solver. -/
abbrev Solver := Mt → Mt → Answer

/-- `len(match)`. -/
def Mt.len (m : Mt) : Nat := m.stop - m.start

/-- rebulk's own solver: the match whose initiator is shorter goes. -/
def defaultSolver (K : Kin) : Solver := fun m other =>
  if (K.initiator other).len < (K.initiator m).len then .other
  else if (K.initiator m).len < (K.initiator other).len then .itself
  else .both

/-- `match.conflict_solver(match, other)`, when there is one. -/
def asked (solver : Option Solver) : Solver := fun m other => match solver with
  | none => .dflt
  | some f => f m other

/-- The match to drop when `m` and `c` overlap: the solver of `c`, then that of `m`, then rebulk's, the first that does not
answer `'__default__'` decides. -/
def loser (K : Kin) (solverOf : Mt → Option Solver) (m c : Mt) : Option Mt :=
  match asked (solverOf c) c m with
  | .itself => some c
  | .other => some m
  | .both => none
  | .dflt => match asked (solverOf m) m c with
    | .itself => some m
    | .other => some c
    | .both => none
    | .dflt => match defaultSolver K m c with
      | .itself => some m
      | .other => some c
      | _ => none

/-- `x in removed`. -/
def isIn (input : Str) (x : Mt) (l : List Mt) : Bool := l.any (Mt.eqv input x)

/-- One turn of the inner loop: the loser is dropped when neither it nor the winner is dropped already. -/
def fight (input : Str) (K : Kin) (solverOf : Mt → Option Solver) (removed : List Mt) (p : Mt × Mt) : List Mt :=
  match loser K solverOf p.1 p.2 with
  | none => removed
  | some x =>
    if isIn input x removed then removed
    else if isIn input (if Mt.eqv input x p.1 then p.2 else p.1) removed then removed
    else removed ++ [x]

/-- `key=len`. -/
def byLen (a b : Mt) : Bool := decide (a.len < b.len)

/-- The pairs in the order they are considered: public matches by length, each with the public matches it conflicts with, by
length. -/
def fights (s : Ms) : List (Mt × Mt) :=
  (sortBy byLen (s.live.filter fun m => !m.priv)).flatMap fun m =>
    (sortBy byLen ((conflicting s.input s.live m).filter fun c => !c.priv)).map fun c => (m, c)

/-- `ConflictSolver`. -/
def solveConflicts (K : Kin) (solverOf : Mt → Option Solver) (s : Ms) : Ms :=
  dropping s ((fights s).foldl (fight s.input K solverOf) [])

/-! ## The solvers of guessit -/

/-- What the solvers of guessit consult: character tables, the input, the families of matches, and whether a value is one of
the countries `US` and `GB` (country.py:38-39). -/
structure Bench where
  uni : Uni
  input : Str
  kin : Kin
  usGb : MVal → Bool

/-- `audio_codec_priority` (audio_codec.py:30-44). -/
def audioCodecPriority : Solver := fun m other =>
  if decide (m.name = some c!"audio_codec") && other.isOneOf [c!"audio_profile", c!"audio_channels"] then .other
  else if m.isOneOf [c!"audio_profile", c!"audio_channels"] && decide (other.name = some c!"audio_codec") then .itself
  else .dflt

/-- `'weak-episode' in current.tags or 'x' in current.initiator.raw.lower()` (episodes.py:81). -/
def flimsy (B : Bench) (m : Mt) : Bool :=
  m.tagged c!"weak-episode" || (B.uni.lower ((B.kin.initiator m).raw B.input)).contains 'x'

/-- `match.initiator.children.named(match.name + 'Marker')` is not empty (episodes.py:71). -/
def marked (B : Bench) (m : Mt) : Bool := match m.name with
  | none => false
  | some n => (B.kin.children (B.kin.initiator m)).any fun c => decide (c.name = some (n ++ c!"Marker"))

/-- `match.initiator.name in ('weak_episode', 'weak_duplicate')` (episodes.py:76-77). -/
def weakInitiator (B : Bench) (m : Mt) : Bool := (B.kin.initiator m).isOneOf [c!"weak_episode", c!"weak_duplicate"]

/-- `season_episode_conflict_solver` (episodes.py:56-83). -/
def seasonEpisodeSolver (B : Bench) : Solver := fun m other =>
  if m.name = other.name then .dflt
  else if decide (m.name = some c!"episode") && decide (other.name = some c!"year") then .itself
  else if m.isOneOf [c!"season", c!"episode"] then
    if other.isOneOf [c!"video_codec", c!"audio_codec", c!"container", c!"date"] then .itself
    else if (decide (other.name = some c!"audio_channels") && !other.tagged c!"weak-audio_channels" && !marked B m) ||
        (decide (other.name = some c!"screen_size") && !isInt B.uni (other.raw B.input)) then .itself
    else if other.isOneOf [c!"season", c!"episode"] && !Mt.eqv B.input (B.kin.initiator m) (B.kin.initiator other) then
      if weakInitiator B m && weakInitiator B other then .dflt
      else if flimsy B m then .itself
      else if flimsy B other then .other
      else .dflt
    else .dflt
  else .dflt

/-- container.py:30-33. -/
def extensionSolver : Solver := fun _ other =>
  if other.isOneOf [c!"source", c!"video_codec"] ||
    (decide (other.name = some c!"container") && !other.tagged c!"extension") then .other else .dflt

/-- container.py:51-54. -/
def containerSolver : Solver := fun _ other =>
  if other.isOneOf [c!"source", c!"video_codec"] ||
    (decide (other.name = some c!"container") && other.tagged c!"extension") then .itself else .dflt

/-- crc.py:27-29. -/
def crcSolver : Solver := fun _ other => if other.isOneOf [c!"episode", c!"season"] then .other else .dflt

/-- crc.py:32-34. -/
def uuidSolver : Solver := fun _ other => if other.isOneOf [c!"episode", c!"season"] then .itself else .dflt

/-- title.py:42, release_group.py:65. -/
def expectedSolver : Solver := fun _ _ => .other

/-- `demote_other` (source.py:40-42). -/
def demoteOther : Solver := fun _ other => if other.isOneOf [c!"other", c!"release_group"] then .other else .dflt

/-- date.py:30-32, 39-41. -/
def yearSolver (B : Bench) : Solver := fun m other =>
  if other.isOneOf [c!"episode", c!"season"] && decide ((other.raw B.input).length < (m.raw B.input).length) then .other
  else .dflt

/-- date.py:58-60. -/
def dateSolver : Solver := fun _ other => if other.isOneOf [c!"episode", c!"season", c!"crc32"] then .other else .dflt

/-- screen_size.py:49. -/
def fourKSolver : Solver := fun _ other => if other.name = some c!"screen_size" then .dflt else .itself

/-- screen_size.py:51. -/
def sizeSolver : Solver := fun _ other => if other.name = some c!"screen_size" then .dflt else .other

/-- country.py:37-40. -/
def countrySolver (B : Bench) : Solver := fun m other =>
  if decide (other.name ≠ some c!"language") || !B.usGb (m.value B.input) then .itself else .other

/-- config/options.json:64. -/
def dtsHdSolver : Solver := fun _ other => if other.name = some c!"audio_codec" then .other else .dflt

/-- config/options.json:112. -/
def bitRateSolver : Solver := fun _ other =>
  if decide (other.name = some c!"audio_channels") && !other.tagged c!"weak-audio_channels" then .itself else .other

/-- config/options.json:127. -/
def bonusSolver : Solver := fun _ other =>
  if other.isOneOf [c!"video_codec", c!"episode"] && !other.tagged c!"weak-episode" then .itself else .dflt

/-- config/options.json:234. -/
def specialEditionSolver (B : Bench) : Solver := fun _ other =>
  if decide (other.name = some c!"episode_details") && decide (other.value B.input = .str c!"Special") then .other else .dflt

/-- The patterns of guessit with a solver. -/
inductive Trade where
  | audioCodec | seasonEpisode | extension | container | crc32 | uuid | expected | tv | year | date | fourK | size | country
  | dtsHd | bitRate | bonus | specialEdition
  deriving DecidableEq, Repr

/-- The solver of each. -/
def solverFor (B : Bench) : Trade → Solver
  | .audioCodec => audioCodecPriority
  | .seasonEpisode => seasonEpisodeSolver B
  | .extension => extensionSolver
  | .container => containerSolver
  | .crc32 => crcSolver
  | .uuid => uuidSolver
  | .expected => expectedSolver
  | .tv => demoteOther
  | .year => yearSolver B
  | .date => dateSolver
  | .fourK => fourKSolver
  | .size => sizeSolver
  | .country => countrySolver B
  | .dtsHd => dtsHdSolver
  | .bitRate => bitRateSolver
  | .bonus => bonusSolver
  | .specialEdition => specialEditionSolver B

/-- Conflict solving in guessit: `trade` tells which pattern made a match. -/
def solveAll (B : Bench) (trade : Mt → Option Trade) (s : Ms) : Ms :=
  solveConflicts B.kin (fun m => (trade m).map (solverFor B)) s

end Guessit
