import Verif.Model.SeasonWords

/-!
# The chains of episodes.py whose first pattern begins with a text in no group, and `cap` (episodes.py:275-281, :307-319)

A chain extends over its matches as a whole: they are reported beside their groups (`private_parent`, episodes.py:227), so a text that begins the first pattern
and that is in no group is part of the chain.
-/

namespace Guessit

/-- 012 (:275-281), ep 112 (:307-312), cap 112 (:314-319). -/
inductive LooseChain where
  | zero | ep | cap
  deriving DecidableEq

/-- The first pattern (:278, :310, :317); a zero is the same in both cases. -/
def LooseChain.firstRe (E : RxEnv) : LooseChain → Re
  | .zero => .seq (.chr fun c => c == '0') (.grp 2 (digitsRe E.u 1 2))
  | .ep => .cat [E.word c!"ep", dashRe, .grp 2 (digitsRe E.u 1 4)]
  | .cap => .cat [.grp 3 (E.word c!"cap"), dashRe, .grp 1 (digitsRe E.u 1 2), .grp 2 (digitsRe E.u 2 2)]

/-- The other numbers of a list (:281, :312, :319); in the last one `-` is the abbreviation of a separator that is not a slash. -/
def LooseChain.moreRe (E : RxEnv) : LooseChain → Re
  | .zero => .cat [.grp 5 (E.words [c!"x", c!"-"]), .chr fun c => c == '0', .grp 2 (digitsRe E.u 1 2)]
  | .ep => .seq (.grp 5 (E.words [c!"ep", c!"e", c!"x", c!"-"])) (.grp 2 (digitsRe E.u 1 4))
  | .cap => .cat [.grp 5 (.chr fun c => sepsNoFs.contains c), .grp 1 (digitsRe E.u 1 2), .grp 2 (digitsRe E.u 2 2)]

/-- The patterns after the first, with their repeaters (:279-281, :311-312, :319). -/
def LooseChain.rest (E : RxEnv) : LooseChain → List ChainPart
  | .cap => [⟨LooseChain.cap.moreRe E, some 1⟩]
  | k => [⟨E.versionRe, some 1⟩, ⟨k.moreRe E, none⟩]

/-- The separator the ordering validator finds before a number (episodes.py:112-115): `match.children.previous` looks at the groups that end nearest to the number only,
so there is none when another group is between the separator and the number. -/
def nearSeparator (h : RxHit) (separator : Nat) (x : Nat × Nat) : Option (Nat × Nat) :=
  (h.caps.lookup separator).filter fun y => h.caps.all fun z => !(decide (y.2 < z.2.2) && decide (z.2.2 ≤ x.1))

/-- The numbers of a group in a chain, each with the text of the separator before it. -/
def nearNumbers (E : RxEnv) (s : Str) (group separator : Nat) (hs : List RxHit) : List (Option Str × Int) := hs.filterMap fun h =>
  (h.caps.lookup group).map fun x => ((nearSeparator h separator x).map fun y => (s.take y.2).drop y.1, groupNumber E s x)

/-- `and_(seps_surround, ordering_validator)` (episodes.py:227) on the chain. -/
def validLoose (E : RxEnv) (C : EpisodeConfig) (s : Str) : List RxHit → Bool
  | [] => false
  | h :: hs => sepsSurround s h.start (lastStop h.stop hs) &&
      orderingValidator C.rangeSeparators.contains C.weak.contains C.discreteSeparators.contains C.gap (nearNumbers E s 1 6 (h :: hs)) (nearNumbers E s 2 5 (h :: hs))

/-- The matches of each chain that are reported. -/
def LooseChain.kept (E : RxEnv) (C : EpisodeConfig) (k : LooseChain) (s : Str) : List (List RxHit) :=
  (chains s ⟨k.firstRe E, some 1⟩ (k.rest E)).map fun hs => trimChain (validLoose E C s) (keepHits (brokenChain E C s) [] hs).reverse

/-- The seasons and episodes a chain reports. -/
def LooseChain.found (E : RxEnv) (C : EpisodeConfig) (k : LooseChain) (s : Str) : List (RxMatch Int) :=
  (k.kept E C s).flatMap fun hs => hs.flatMap (numbersOf E s)

/-- The versions a chain reports (`formatter={'version': int}`, episodes.py:161). -/
def LooseChain.versions (E : RxEnv) (C : EpisodeConfig) (k : LooseChain) (s : Str) : List (RxMatch Int) := (k.kept E C s).flatMap fun hs =>
  hs.filterMap fun h => (h.caps.lookup 8).map fun x => { name := c!"version", start := x.1, stop := x.2, value := pyInt E.u ((s.take x.2).drop x.1) }

end Guessit
