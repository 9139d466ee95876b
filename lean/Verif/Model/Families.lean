import Verif.Model.Screen
import Verif.Model.Forms
import Verif.Model.MoreChains
import Verif.Model.Solver

/-!
# The matches of a pattern and their families

The other files say what each pattern of guessit finds.  Here what a pattern finds becomes match objects: a match and its children, with their tags,
their formatter and whether they are private.  What is modelled of rebulk (external) is `Pattern.matches`: with `children` the children are
reported instead of the match; with `private_parent` the match is reported too, and is private; the matches whose name is in `private_names`
are private; a match without a character is no match (`if match:`).
-/

namespace Guessit

/-- A match made by a pattern, before it gets an identity.  `live`: it is among those the pattern reports.  `pattern` is the number of the pattern
among those of its declaration. -/
structure Bud where
  name : Option Str
  start : Nat
  stop : Nat
  val : Option MVal := none
  fmt : Str → MVal := MVal.str
  tags : List Str := []
  priv : Bool := false
  live : Bool := true
  pattern : Nat := 0

/-- A match and its children; all have the conflict solver of the pattern. -/
structure Family where
  root : Bud
  kids : List Bud := []
  solver : Option Trade := none

/-- The keywords of a declaration that `RxPattern` and `StrPattern` do not have. -/
structure Style where
  tags : List Str := []
  /-- `private_names` -/
  hidden : List Str := []
  /-- `private_parent` -/
  privateParent : Bool := false
  /-- `private` -/
  priv : Bool := false
  solver : Option Trade := none

/-- `name=None`. -/
def nameOf : Str → Option Str
  | [] => none
  | n => some n

/-- The value the formatter gives to a text (no formatter raises on a text its pattern accepts: C113 and after). -/
def formatted {V : Type} (give : V → MVal) (format : Str → Str → Except PyErr V) (name t : Str) : MVal := match format name t with
  | .ok v => give v
  | .error _ => .str t

/-- The families of a `rebulk.regex(...)` call with one expression. -/
def RxPattern.families {V : Type} (P : RxPattern V) (give : V → MVal) (st : Style) (s : Str) : List Family :=
  (P.foundWithin s).map fun x =>
    { root := { name := nameOf P.name, start := x.1.start, stop := x.1.stop, fmt := formatted give P.format P.name, tags := st.tags,
                priv := st.privateParent || st.priv, live := !P.children || st.privateParent }
      kids := x.2.map fun k => { name := nameOf k.name, start := k.start, stop := k.stop, fmt := formatted give P.format k.name, tags := st.tags,
                                 priv := st.hidden.contains k.name || st.priv, live := P.children, pattern := 1 }
      solver := st.solver }

/-- The families of a `rebulk.string(...)` call. -/
def StrPattern.families {V : Type} (P : StrPattern V) (u : Uni) (give : V → MVal) (st : Style) (s : Str) : List Family :=
  (P.found u s).map fun m =>
    { root := { name := nameOf P.name, start := m.start, stop := m.stop, fmt := formatted give P.format P.name, tags := st.tags, priv := st.priv }
      solver := st.solver }

/-- The names of the groups of episodes.py (see Model/Chain), in the order in which the expressions have them. -/
def chainGroups : List (Nat × Str) := [(3, c!"seasonMarker"), (5, c!"episodeSeparator"), (6, c!"seasonSeparator"), (1, c!"season"), (4, c!"episodeMarker"),
  (2, c!"episode"), (8, c!"version"), (9, c!"count"), (7, c!"other")]

/-- `private_names` (episodes.py:158, :223). -/
def chainHidden : List Str := [c!"episodeSeparator", c!"seasonSeparator", c!"episodeMarker", c!"seasonMarker"]

/-- Which pattern of its chain a match comes from: the one with a separator is the last. -/
def chainPart (h : RxHit) : Nat := if (h.caps.lookup 5).isSome || (h.caps.lookup 6).isSome then 2 else if (h.caps.lookup 1).isSome || (h.caps.lookup 2).isSome then 0 else 1

/-- The children that a match of a chain has: its groups.  `tags` are the tags of the pattern, `extra` those of `Extras` alone (episodes.py:208). -/
def hitBuds (value : Str → Str → MVal) (tags extra : List Str) (h : RxHit) : List Bud := chainGroups.filterMap fun g => match h.caps.lookup g.1 with
  | some (a, b) => if a < b then
      some { name := some g.2, start := a, stop := b, fmt := value g.2, tags := if g.1 = 7 then tags ++ extra else tags, priv := chainHidden.contains g.2,
             pattern := 1 + chainPart h }
    else none
  | none => none

/-- The families of a chain: `Chain._build_chain_match` gives the chain all the groups of its matches as children, and the stretch the matches take; it is
private (`private_parent`, episodes.py:161, :227). -/
def chainFamilies (kept : List (List RxHit)) (value : Str → Str → MVal) (name : Str) (tags extra : List Str) : List Family := kept.filterMap fun hs => match hs with
  | [] => none
  | h :: t => some
      { root := { name := nameOf name, start := h.start, stop := lastStop h.stop t, tags := tags, priv := true }
        kids := (h :: t).flatMap (hitBuds value tags extra)
        solver := some .seasonEpisode }

/-! ## Identities -/

/-- A family with identities. -/
structure Grown where
  root : Mt
  kids : List Mt
  solver : Option Trade
  /-- identities and patterns -/
  patterns : List (Nat × Nat)
  /-- what the pattern reports -/
  live : List Mt

/-- The match itself. -/
def Bud.alone (b : Bud) (id : Nat) : Mt :=
  { id := id, start := b.start, stop := b.stop, name := b.name, val := b.val, fmt := b.fmt, tags := b.tags, priv := b.priv }

/-- A child of the match `r`. -/
def Bud.under (b : Bud) (r : Mt) (id : Nat) : Mt :=
  { id := id, start := b.start, stop := b.stop, name := b.name, val := b.val, fmt := b.fmt, tags := b.tags, priv := b.priv, parent := some r.id,
    istart := r.start, istop := r.stop, iname := r.name }

/-- The children with the identities from `n` on. -/
def kidsFrom (r : Mt) (n : Nat) : List Bud → List Mt
  | [] => []
  | b :: bs => b.under r n :: kidsFrom r (n + 1) bs

/-- The children that are matches. -/
def Family.real (F : Family) : List Bud := F.kids.filter fun b => decide (b.start < b.stop)

/-- A family with the identities from `n` on. -/
def Family.grow (F : Family) (decl n : Nat) : Grown :=
  let r := F.root.alone n
  let ks := kidsFrom r (n + 1) F.real
  { root := r, kids := ks, solver := F.solver
    patterns := (n, 16 * decl + F.root.pattern) :: (ks.zip F.real).map fun x => (x.1.id, 16 * decl + x.2.pattern)
    live := (if F.root.live then [r] else []) ++ ((ks.zip F.real).filter fun x => x.2.live).map Prod.fst }

/-- The families of all the declarations, each with the number of its declaration, with the identities from `n` on; those whose match has no character are no families. -/
def growFrom (n : Nat) : List (Nat × Family) → List Grown
  | [] => []
  | (d, F) :: fs => if F.root.start < F.root.stop then F.grow d n :: growFrom (n + 1 + F.real.length) fs else growFrom n fs

/-- Every match that is reported, pattern after pattern. -/
def reportedBy (gs : List Grown) : List Mt := gs.flatMap Grown.live

/-- The matches of a family. -/
def Grown.all (g : Grown) : List Mt := g.root :: g.kids

/-- Names that no rule gives to a match: it had them from its pattern. -/
def rigidNames : List Str := [c!"screen_size", c!"episodeMarker"]

/-- The family of a match.  A match of a rigid name is in a family with that name; this is asked for here so that nothing is said of states where it is not. -/
def familyOf (gs : List Grown) (m : Mt) : Option Grown := gs.find? fun g =>
  (g.all.any fun x => decide (x.id = m.id)) && (!m.isOneOf rigidNames || g.all.any fun x => decide (x.name = m.name))

/-- An object as it is now: a rule may have moved or renamed it.  Its tags are those of the pattern: some rules change the tags of episodes
(episodes.py:418, :433, :704), but no rule asks for the tags of a parent or of a child. -/
def nowadays (s : Ms) (m : Mt) : Mt := match s.live.find? fun x => decide (x.id = m.id) with
  | some x => { x with tags := m.tags }
  | none => m

/-- A copy that a rule has made of a child of a chain, for a number between two others (episodes.py:536-537, :555-556): it has the identity of the child, and a value of its own. -/
def copyOf (k x : Mt) : Bool := decide (x.id = k.id) && k.val.isNone && x.val.isSome && x.isOneOf [c!"episode", c!"season"]

/-- The first child of its name. -/
def firstBorn (g : Grown) (k : Mt) : Bool := match g.kids.find? fun x => decide (x.name = k.name) with
  | some x => decide (x.id = k.id)
  | none => false

/-- A child as it is now, with the copies of it that the rules have made, which become children too (`initiator.children.append`, episodes.py:538).  The copies of the first
child are made for the numbers between another family and this one, and they go to the other family (episodes.py:557).  Simplified: the copies of `SeePatternRange` (:499) are
children here, and not in Python. -/
def offspring (s : Ms) (g : Grown) (k : Mt) : List Mt :=
  match s.live.filter fun x => decide (x.id = k.id) && decide (x.start < x.stop) && !(firstBorn g k && copyOf k x) with
  | [] => [k]
  | xs => xs.map fun x => { x with tags := k.tags }

/-- The match before a first child, among those of its name: `previous_match` (episodes.py:546-549). -/
def beforeFamily (s : Ms) (g : Grown) (k : Mt) : Option Mt :=
  (byStart (s.live.filter fun x => decide (x.name = k.name) && decide (x.start < k.start) && !g.all.any fun y => decide (y.id = x.id))).getLast?

/-- The copies of the first children of other families that went to this one (episodes.py:557); no rule asks for the tags of a child. -/
def adopted (gs : List Grown) (s : Ms) (g : Grown) : List Mt := (s.live.filter fun x => x.val.isSome && x.isOneOf [c!"episode", c!"season"] &&
  decide (x.start < x.stop) && gs.any fun h => decide (h.root.id ≠ g.root.id) && h.kids.any fun k => copyOf k x && firstBorn h k &&
    ((beforeFamily s h k).any fun p => g.all.any fun y => decide (y.id = p.id))).map fun x => { x with tags := g.root.tags }

/-- `match.initiator`, `match.children`, `match.pattern` and the parents, for the matches of these families. -/
def kinOf (gs : List Grown) (s : Ms) : Kin where
  initiator := fun m => match familyOf gs m with
    | some g => if m.id = g.root.id then m else nowadays s g.root
    | none => m
  children := fun m => match familyOf gs m with
    | some g => if m.id = g.root.id then g.kids.flatMap (offspring s g) ++ adopted gs s g else []
    | none => []
  pattern := fun m => ((familyOf gs m).bind fun g => g.patterns.lookup m.id).getD 0
  ancestors := fun m => match familyOf gs m with
    | some g => if m.id = g.root.id then [] else [nowadays s g.root]
    | none => []

/-- Which solver the pattern of a match has. -/
def tradeOf (gs : List Grown) (m : Mt) : Option Trade := (familyOf gs m).bind Grown.solver

end Guessit
