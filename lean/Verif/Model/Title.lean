import Verif.Model.Removers

/-!
# guessit/rules/properties/title.py: titles found from their position

`TitleBaseRule` and its subclass `TitleFromPosition`.  A hole (an object of rebulk that the rule crops, resizes and splits)
is represented by its span until it becomes a title.
-/

namespace Guessit

/-- What distinguishes the subclasses of `TitleBaseRule` (title.py:48-82, 153-164), and what comes from outside: `fmt` is
`formatters(cleanup, reorder_title)`, `upper` is `str.isupper`, `nonSpecific` is `NON_SPECIFIC_LANGUAGES`. -/
structure TitleRule where
  name : Str
  tags : List Str
  altName : Option Str
  fmt : Str → Str
  upper : Str → Bool
  nonSpecific : List MVal
  holeFilter : Ms → Nat × Nat → Bool
  partFilter : Ms → Mt → Bool
  shouldRemove : Option Str → Mt → Nat × Nat → Bool

/-- `TitleBaseRule.is_ignored` (title.py:107-114). -/
def isIgnored (upper : Str → Bool) (input : Str) (m : Mt) : Bool :=
  !(decide (3 < m.stop - m.start) && upper (m.raw input)) && m.isOneOf [c!"language", c!"country", c!"episode_details"]

/-- `input_string[a:b]`. -/
def sliceOf (input : Str) (h : Nat × Nat) : Str := (input.take h.2).drop h.1

/-- `matches.holes(start, end + 1, formatter=…, ignore=…, predicate=lambda m: m.value)` (title.py:174-177): the maximal
stretches of the part and the character after it where every match is ignored, when their value is not empty.
Simplification: matches are not empty. -/
def titleHoles (r : TitleRule) (s : Ms) (extra : Mt → Bool) (part : Mt) : List (Nat × Nat) :=
  (runsFrom (fun i => (atIndex s.live i).all fun m => isIgnored r.upper s.input m || extra m)
    (min (maxEnd s.input s.live) (part.stop + 1) - part.start) part.start none).filter fun h => !(r.fmt (sliceOf s.input h)).isEmpty

/-- `for x in l: if bad(x): l.remove(x)` (title.py:97-100): the element after a removed one is never looked at.
Simplification: no two elements are equal. -/
def skim (bad : Mt → Bool) : List Mt → List Mt
  | [] => []
  | [g] => if bad g then [] else [g]
  | g :: h :: rest => if bad g then h :: skim bad rest else g :: skim bad (h :: rest)

/-- The group is exactly a path part (title.py:98-99). -/
def spansPart (s : Ms) (g : Mt) : Bool := match firstTrue (atMatch s.input s.markers g fun m => m.name = some c!"path") with
  | some p => decide (p.start = g.start) && decide (p.stop = g.stop)
  | none => false

/-- `group_markers` of `holes_process` (title.py:95-100). -/
def cropGroups (s : Ms) : List (Nat × Nat) := (skim (spansPart s) (named s.markers c!"group")).map fun g => (g.start, g.stop)

/-- What a crop does to one piece (rebulk `Match.crop`): the piece left in place, the piece appended. -/
def cropPiece (c p : Nat × Nat) : List (Nat × Nat) × List (Nat × Nat) :=
  if c.1 ≤ p.1 ∧ p.2 ≤ c.2 then ([], [])
  else if p.1 ≤ c.1 ∧ c.2 ≤ p.2 then
    (if p.1 < c.1 then [(p.1, c.1)] else [], if c.2 < p.2 then [(c.2, p.2)] else [])
  else if c.2 ≤ p.2 ∧ p.1 < c.2 then ([(c.2, p.2)], [])
  else if p.1 ≤ c.1 ∧ c.1 < p.2 then ([(p.1, c.1)], [])
  else ([p], [])

def cropStep (pieces : List (Nat × Nat)) (c : Nat × Nat) : List (Nat × Nat) :=
  (pieces.flatMap fun p => (cropPiece c p).1) ++ pieces.flatMap fun p => (cropPiece c p).2

/-- `match.crop(crops)`. -/
def cropAll (crops : List (Nat × Nat)) (h : Nat × Nat) : List (Nat × Nat) := crops.foldl cropStep [h]

/-- `self.holes_process(holes, matches)` (title.py:85-105). -/
def holesProcess (s : Ms) (holes : List (Nat × Nat)) : List (Nat × Nat) := holes.flatMap (cropAll (cropGroups s))

/-- `matches.chain_before(i, seps, predicate)[0]`: the first match met going left over separators. -/
def chainBefore (input : Str) (l : List Mt) (p : Mt → Bool) : Nat → Option Mt
  | 0 => none
  | i + 1 => match (atIndex l i).filter p with
    | m :: _ => some m
    | [] => if (input[i]?).any isSep then chainBefore input l p i else none

/-- `matches.chain_after(i, seps, predicate)[0]`; `f` positions are left. -/
def chainAfter (input : Str) (l : List Mt) (p : Mt → Bool) : Nat → Nat → Option Mt
  | 0, _ => none
  | f + 1, i => match (atIndex l i).filter p with
    | m :: _ => some m
    | [] => if (input[i]?).any isSep then chainAfter input l p f (i + 1) else none

/-- The languages (or countries) found in the part outside the hole (title.py:139-146). -/
def othersOutside (r : TitleRule) (s : Ms) (part : Mt) (h : Nat × Nat) (kept : List Mt) (m : Mt) : List Mt :=
  (cropAll [h] (part.start, part.stop)).flatMap fun o => rangeOf s.input s.live o.1 o.2 fun c =>
    decide (c.name = m.name) && !kept.any (Mt.eqv s.input c) && !r.nonSpecific.contains (c.value s.input)

/-- `should_keep` (title.py:116-151). -/
def shouldKeep (r : TitleRule) (s : Ms) (part : Mt) (h : Nat × Nat) (kept : List Mt) (m : Mt) (starting : Bool) : Bool :=
  m.isOneOf [c!"language", c!"country"] &&
    (decide ((r.fmt (sliceOf s.input h)).length = (m.raw s.input).length) ||
      ((othersOutside r s part h kept m).isEmpty && (!starting || decide ((m.raw s.input).length ≤ 3))))

/-- The hole, and `to_keep`, while the loops over the ignored matches run. -/
structure HoleState where
  hole : Nat × Nat
  kept : List Mt

/-- One iteration of the loop over trailing matches (title.py:192-206). -/
def trailStep (r : TitleRule) (s : Ms) (part : Mt) (st : HoleState) (m : Mt) : HoleState :=
  if (chainBefore s.input s.live (Mt.eqv s.input m) (min (maxEnd s.input s.live) st.hole.2)).isSome &&
      shouldKeep r s part st.hole st.kept m false then
    ⟨(st.hole.1, m.start), st.kept ++ [m]⟩
  else st

/-- One iteration of the loop over starting matches (title.py:208-223). -/
def leadStep (r : TitleRule) (s : Ms) (part : Mt) (st : HoleState) (m : Mt) : HoleState :=
  if !st.kept.any (Mt.eqv s.input m) &&
      (chainAfter s.input s.live (Mt.eqv s.input m) (maxEnd s.input s.live - st.hole.1) st.hole.1).isSome &&
      shouldKeep r s part st.hole st.kept m true then
    ⟨(m.stop, st.hole.2), st.kept ++ [m]⟩
  else st

/-- The ignored matches of a hole (title.py:188). -/
def ignoredInHole (r : TitleRule) (s : Ms) (h : Nat × Nat) : List Mt := rangeOf s.input s.live h.1 h.2 (isIgnored r.upper s.input)

/-- The hole and `to_keep` after both loops (title.py:190-223). -/
def shrinkHole (r : TitleRule) (s : Ms) (part : Mt) (h : Nat × Nat) : HoleState :=
  (ignoredInHole r s h).foldl (leadStep r s part) ((ignoredInHole r s h).reverse.foldl (trailStep r s part) ⟨h, []⟩)

/-- The character at `i` is not one of `title_seps`. -/
def notTitleSep (input : Str) (i : Nat) : Bool := !(input[i]?).any titleSeps.contains

/-- `hole.split(title_seps, lambda m: m.value)` (title.py:238). -/
def splitHole (r : TitleRule) (input : Str) (h : Nat × Nat) : List (Nat × Nat) :=
  (runsFrom (notTitleSep input) (h.2 - h.1) h.1 none).filter fun p => !(r.fmt (sliceOf input p)).isEmpty

/-- Two successive titles are joined by a single dash between two words (title.py:241-244). -/
def dashed (input : Str) (a b : Nat × Nat) : Bool :=
  decide (sliceOf input (a.2, b.1) = c!"-") && (sliceOf input a).getLast?.any (fun c => !isSep c) &&
    (sliceOf input b).head?.any (fun c => !isSep c)

/-- The loop over the split titles (title.py:239-248). -/
def joinTitles (input : Str) (cur : Nat × Nat) : List (Nat × Nat) → List (Nat × Nat)
  | [] => [cur]
  | n :: rest => if dashed input cur n then joinTitles input (cur.1, n.2) rest else cur :: joinTitles input n rest

/-- A title match. -/
def titleMt (r : TitleRule) (name : Str) (h : Nat × Nat) : Mt :=
  { id := 0, start := h.1, stop := h.2, name := some name, fmt := fun t => .str (r.fmt t), tags := r.tags }

/-- The titles made out of a hole (title.py:233-250). -/
def titlesOf (r : TitleRule) (input : Str) (h : Nat × Nat) : List Mt := match r.altName with
  | none => [titleMt r r.name h]
  | some alt => match splitHole r input h with
    | [] => []
    | p :: ps => match joinTitles input p ps with
      | [] => []
      | t :: ts => titleMt r r.name t :: ts.map (titleMt r alt)

/-- The ignored matches to remove (title.py:225-230). -/
def removedIn (r : TitleRule) (type : Option Str) (s : Ms) (h : Nat × Nat) (st : HoleState) : List Mt :=
  removeAll s.input ((ignoredInHole r s h).filter fun m => r.shouldRemove type m st.hole) st.kept

/-- The body of the loop over the holes (title.py:181-250).  A span of negative length makes `bool(hole)` raise. -/
def checkHole (r : TitleRule) (type : Option Str) (s : Ms) (part : Mt) (h : Nat × Nat) : Except PyErr (Option (List Mt × List Mt)) :=
  if h.2 ≤ h.1 || !r.holeFilter s h then .ok none
  else
    let st := shrinkHole r s part h
    if st.hole.2 < st.hole.1 then .error .valueError
    else if st.hole.2 = st.hole.1 || (r.fmt (sliceOf s.input st.hole)).isEmpty then .ok none
    else .ok (some (titlesOf r s.input st.hole, removedIn r type s h st))

/-- The first thing found, if any; an error stops the search. -/
def firstFound {α β : Type} (f : α → Except PyErr (Option β)) : List α → Except PyErr (Option β)
  | [] => .ok none
  | x :: xs => match f x with
    | .error e => .error e
    | .ok (some y) => .ok (some y)
    | .ok none => firstFound f xs

/-- `check_titles_in_filepart` (title.py:166-250). -/
def checkPart (r : TitleRule) (type : Option Str) (s : Ms) (extra : Mt → Bool) (part : Mt) : Except PyErr (Option (List Mt × List Mt)) :=
  firstFound (checkHole r type s part) (holesProcess s (titleHoles r s extra part))

/-- The part is a season directory (title.py:258-262): its only public match is a season that spans it, or whose parent
does. -/
def isSeasonPart (kin : Kin) (s : Ms) (part : Mt) : Bool :=
  match rangeOf s.input s.live part.start part.stop fun m => !m.priv with
  | [m] => decide (m.name = some c!"season") && ((decide (m.start = part.start) && decide (m.stop = part.stop)) ||
      match kin.ancestors m with
      | p :: _ => decide (p.start < p.stop) && decide (p.start = part.start) && decide (p.stop = part.stop)
      | [] => false)
  | _ => false

/-- The loop of `_serie_name_filepart` (title.py:254-264) from index 1 on. -/
def afterSeason (kin : Kin) (s : Ms) : List Mt → Option Mt
  | p :: q :: rest => if isSeasonPart kin s p then some q else afterSeason kin s (q :: rest)
  | _ => none

/-- `_serie_name_filepart` (title.py:252-264). -/
def seriePart (kin : Kin) (s : Ms) (parts : List Mt) : Option Mt := afterSeason kin s parts.tail

/-- `serie_name_filepart_ignored` (title.py:267-271). -/
def weakTagged (m : Mt) : Bool := m.tags.any fun t => t = c!"weak" || (c!"weak-").isPrefixOf t

/-- `_serie_name_filepart_match` (title.py:266-280), when there is such a part. -/
def serieTitle (kin : Kin) (r : TitleRule) (type : Option Str) (s : Ms) (parts : List Mt) : Except PyErr (Option (Mt × List Mt)) :=
  match seriePart kin s parts with
  | none => .ok none
  | some part => if part.start < part.stop then match checkPart r type s weakTagged part with
      | .error e => .error e
      | .ok (some ([t], rm)) => .ok (some (t, rm))
      | .ok _ => .ok none
    else .ok none

/-- The first part with titles, its titles and removals, and the parts after it (title.py:313-328). -/
def firstTitled (r : TitleRule) (type : Option Str) (s : Ms) : List Mt → Except PyErr (Option ((List Mt × List Mt) × List Mt))
  | [] => .ok none
  | part :: rest => match checkPart r type s (fun _ => false) part with
    | .error e => .error e
    | .ok (some x) => .ok (some (x, rest))
    | .ok none => firstTitled r type s rest

/-- The part contains a year (title.py:284-287). -/
def hasYear (s : Ms) (part : Mt) : Bool := (firstIn s part.start part.stop fun m => m.name = some c!"year").isSome

/-- The titles of the remaining parts with a year (title.py:331-337). -/
def yearTitles (r : TitleRule) (type : Option Str) (s : Ms) : List Mt → Except PyErr (List Mt × List Mt)
  | [] => .ok ([], [])
  | part :: rest => match checkPart r type s (fun _ => false) part with
    | .error e => .error e
    | .ok x => match yearTitles r type s rest with
      | .error e => .error e
      | .ok acc => match x with
        | some (ts, rm) => .ok (ts ++ acc.1, rm ++ acc.2)
        | none => .ok acc

/-- Titles that differ from the name of the series are episode titles (title.py:321-324). -/
def renameUnless (input : Str) (serie : Option (Mt × List Mt)) (ts : List Mt) : List Mt := match serie with
  | none => ts
  | some (t, _) => ts.map fun x => if x.value input = t.value input then x else { x with name := some c!"episode_title" }

/-- `fileparts` of `when` (title.py:297-298). -/
def titleParts (r : TitleRule) (s : Ms) : List Mt :=
  (markerSorted s.input s.live (named s.markers c!"path") (markerPredicate s.input)).filter (r.partFilter s)

/-- `TitleBaseRule.when` (title.py:290-341): the matches to append and those to remove. -/
def titleWhen (kin : Kin) (r : TitleRule) (type : Option Str) (s : Ms) : Except PyErr (List Mt × List Mt) :=
  if (named s.live r.name).any fun m => m.tagged c!"expected" then .ok ([], [])
  else match serieTitle kin r type s (titleParts r s) with
    | .error e => .error e
    | .ok serie =>
      let st : List Mt × List Mt := match serie with
        | some (t, rm) => ([t], rm)
        | none => ([], [])
      match firstTitled r type s (titleParts r s) with
      | .error e => .error e
      | .ok none => .ok st
      | .ok (some ((ts, rm), rest)) => match yearTitles r type s (rest.filter (hasYear s)) with
        | .error e => .error e
        | .ok y => .ok (st.1 ++ renameUnless s.input serie ts ++ y.1, st.2 ++ rm ++ y.2)

/-- `TitleBaseRule` with its consequences `[AppendMatch, RemoveMatch]` (title.py:53). -/
def titleRun (kin : Kin) (r : TitleRule) (type : Option Str) (s : Ms) : Except PyErr Ms := match titleWhen kin r type s with
  | .error e => .error e
  | .ok (add, rm) => .ok { s with live := removeAll s.input (appendAll s.input s.live add) rm }

/-- What `TitleBaseRule` and its subclasses take from outside. -/
structure TitleEnv where
  lower : Str → Str
  upper : Str → Bool
  nonSpecific : List MVal

/-- `formatters(cleanup, reorder_title)`, with the default arguments of `reorder_title` (formatters.py:118). -/
def TitleEnv.fmt (e : TitleEnv) (t : Str) : Str := reorderTitle e.lower [c!"the"] [c!",", c!", "] (cleanup t)

/-- `TitleFromPosition` (title.py:340-352), with the filters and `should_remove` of its base class (title.py:61-83,
153-164). -/
def titleFromPosition (e : TitleEnv) : TitleRule where
  name := c!"title"
  tags := [c!"title"]
  altName := some c!"alternative_title"
  fmt := e.fmt
  upper := e.upper
  nonSpecific := e.nonSpecific
  holeFilter := fun _ _ => true
  partFilter := fun _ _ => true
  shouldRemove := fun type m h =>
    if type = some c!"episode" ∧ m.name = some c!"episode_details" then decide (h.1 ≤ m.start) && decide (m.stop ≤ h.2) else true

/-- The names after which an episode title comes (episode_title.py:27-28). -/
def previousNames : List Str := [c!"episode", c!"episode_count", c!"season", c!"season_count", c!"date", c!"title", c!"year"]

/-- `EpisodeTitleFromPosition` (episode_title.py:124-158): its filters, and `should_remove`. -/
def episodeTitleFromPosition (kin : Kin) (e : TitleEnv) : TitleRule where
  name := c!"episode_title"
  tags := [c!"title"]
  altName := none
  fmt := e.fmt
  upper := e.upper
  nonSpecific := e.nonSpecific
  holeFilter := fun s h =>
    (firstTrue (previous s.live (titleMt (titleFromPosition e) [] h) fun m => m.goesBy kin previousNames)).isSome ||
      !(named s.live c!"crc32").isEmpty
  partFilter := fun s part => !(rangeOf s.input s.live part.start part.stop fun m => m.name = some c!"title").isEmpty
  shouldRemove := fun type m h =>
    if m.name = some c!"episode_details" then false else (titleFromPosition e).shouldRemove type m h

/-- `EpisodeTitleFromPosition.when` (episode_title.py:155-158): nothing is done when an episode title is known. -/
def episodeTitleRun (kin : Kin) (e : TitleEnv) (type : Option Str) (s : Ms) : Except PyErr Ms :=
  if (named s.live c!"episode_title").isEmpty then titleRun kin (episodeTitleFromPosition kin e) type s else .ok s

end Guessit
