[
 {
  "file": "Model/Title.lean",
  "definition": "isIgnored",
  "old": "!(decide (3 < m.stop - m.start) && upper (m.raw input)) &&",
  "new": "",
  "edit": "upper case words are ignorable too",
  "claim": "C73: titles run only over ignorable matches"
 },
 {
  "file": "Model/Title.lean",
  "definition": "isIgnored",
  "old": "[c!\"language\", c!\"country\", c!\"episode_details\"]",
  "new": "[c!\"language\", c!\"country\", c!\"episode_details\", c!\"other\"]",
  "edit": "other properties are ignorable",
  "claim": "C73"
 },
 {
  "file": "Model/Title.lean",
  "definition": "titleHoles",
  "old": "(min (maxEnd s.input s.live) (part.stop + 1) - part.start)",
  "new": "(min (maxEnd s.input s.live) (part.stop + 2) - part.start)",
  "edit": "the search runs two characters past the part",
  "claim": "C73: titles lie in one part"
 },
 {
  "file": "Model/Title.lean",
  "definition": "titleHoles",
  "old": "isIgnored r.upper s.input m || extra m)",
  "new": "isIgnored r.upper s.input m || extra m || m.priv)",
  "edit": "private matches do not stop a title",
  "claim": "C73"
 },
 {
  "file": "Model/Title.lean",
  "definition": "skim",
  "old": "if bad g then h :: skim bad rest else",
  "new": "if bad g then skim bad rest else",
  "edit": "the element after a removed one is removed too",
  "claim": "C73: a title enters no bracketed group"
 },
 {
  "file": "Model/Title.lean",
  "definition": "spansPart",
  "old": "decide (p.start = g.start) && decide (p.stop = g.stop)",
  "new": "decide (p.start = g.start)",
  "edit": "a group at the start of a part counts as the whole part",
  "claim": "C73: groups that are not a whole part are not entered"
 },
 {
  "file": "Model/Title.lean",
  "definition": "cropPiece",
  "old": "if c.2 < p.2 then [(c.2, p.2)] else []",
  "new": "if c.2 < p.2 then [(c.1, p.2)] else []",
  "edit": "the piece after the group starts with the group",
  "claim": "C73"
 },
 {
  "file": "Model/Title.lean",
  "definition": "cropPiece",
  "old": "if p.1 < c.1 then [(p.1, c.1)] else [],",
  "new": "[],",
  "edit": "the piece before a group inside is lost",
  "claim": "C76: a free word gives a title"
 },
 {
  "file": "Model/Title.lean",
  "definition": "holesProcess",
  "old": "holes.flatMap (cropAll (cropGroups s))",
  "new": "holes",
  "edit": "groups are not cropped",
  "claim": "C73"
 },
 {
  "file": "Model/Title.lean",
  "definition": "chainBefore",
  "old": "if (input[i]?).any isSep then chainBefore input l p i else none",
  "new": "chainBefore input l p i",
  "edit": "trailing matches are looked for past words",
  "claim": "C74/C76: words are lost between title and kept match"
 },
 {
  "file": "Model/Title.lean",
  "definition": "chainAfter",
  "old": "if (input[i]?).any isSep then chainAfter input l p f (i + 1) else none",
  "new": "chainAfter input l p f (i + 1)",
  "edit": "starting matches are looked for past words",
  "claim": "C76"
 },
 {
  "file": "Model/Title.lean",
  "definition": "trailStep",
  "old": "⟨(st.hole.1, m.start), st.kept ++ [m]⟩",
  "new": "⟨(st.hole.1, m.stop), st.kept ++ [m]⟩",
  "edit": "the hole still contains the kept match",
  "claim": "C74: what a title runs over is dropped"
 },
 {
  "file": "Model/Title.lean",
  "definition": "trailStep",
  "old": "⟨(st.hole.1, m.start), st.kept ++ [m]⟩",
  "new": "⟨(st.hole.1, m.start), st.kept⟩",
  "edit": "the kept match is not recorded",
  "claim": "C74: nothing else is lost"
 },
 {
  "file": "Model/Title.lean",
  "definition": "leadStep",
  "old": "⟨(m.stop, st.hole.2), st.kept ++ [m]⟩",
  "new": "⟨(m.start, st.hole.2), st.kept ++ [m]⟩",
  "edit": "the hole still contains the kept match",
  "claim": "C74"
 },
 {
  "file": "Model/Title.lean",
  "definition": "leadStep",
  "old": "  if !st.kept.any (Mt.eqv s.input m) &&\n",
  "new": "  if true &&\n",
  "edit": "a match kept at the end is taken at the start as well",
  "claim": "C77: the rule does not raise"
 },
 {
  "file": "Model/Title.lean",
  "definition": "ignoredInHole",
  "old": "rangeOf s.input s.live h.1 h.2 (isIgnored r.upper s.input)",
  "new": "rangeOf s.input s.live h.1 (h.2 - 1) (isIgnored r.upper s.input)",
  "edit": "misses the match at the end of the hole",
  "claim": "C74_inside"
 },
 {
  "file": "Model/Title.lean",
  "definition": "notTitleSep",
  "old": "!(input[i]?).any titleSeps.contains",
  "new": "!(input[i]?).any seps.contains",
  "edit": "titles are split at every separator",
  "claim": "C78/C73 value"
 },
 {
  "file": "Model/Title.lean",
  "definition": "splitHole",
  "old": ".filter fun p => !(r.fmt (sliceOf input p)).isEmpty",
  "new": ".filter fun p => true",
  "edit": "blank pieces become titles",
  "claim": "C73: a title contains a word"
 },
 {
  "file": "Model/Title.lean",
  "definition": "dashed",
  "old": "decide (sliceOf input (a.2, b.1) = c!\"-\") && ",
  "new": "decide (sliceOf input (a.2, b.1) ≠ []) && ",
  "edit": "any separator joins two titles",
  "claim": "C73: only single dashes"
 },
 {
  "file": "Model/Title.lean",
  "definition": "dashed",
  "old": "(sliceOf input b).head?.any (fun c => !isSep c)",
  "new": "true",
  "edit": "a dash followed by a space joins two titles",
  "claim": "C73"
 },
 {
  "file": "Model/Title.lean",
  "definition": "joinTitles",
  "old": "joinTitles input (cur.1, n.2) rest else",
  "new": "joinTitles input cur rest else",
  "edit": "the joined title is dropped",
  "claim": "C78: complete titles"
 },
 {
  "file": "Model/Title.lean",
  "definition": "titlesOf",
  "old": "titleMt r r.name t :: ts.map (titleMt r alt)",
  "new": "[titleMt r r.name t]",
  "edit": "alternative titles are lost",
  "claim": "C78_whole"
 },
 {
  "file": "Model/Title.lean",
  "definition": "titlesOf",
  "old": "titleMt r r.name t :: ts.map (titleMt r alt)",
  "new": "titleMt r alt t :: ts.map (titleMt r r.name)",
  "edit": "names are swapped",
  "claim": "C76_found, C78_leftmost"
 },
 {
  "file": "Model/Title.lean",
  "definition": "removedIn",
  "old": "removeAll s.input ((ignoredInHole r s h).filter fun m => r.shouldRemove type m st.hole) st.kept",
  "new": "(ignoredInHole r s h).filter fun m => r.shouldRemove type m st.hole",
  "edit": "kept matches are removed",
  "claim": "C74: only what a title runs over"
 },
 {
  "file": "Model/Title.lean",
  "definition": "removedIn",
  "old": "fun m => r.shouldRemove type m st.hole) st.kept",
  "new": "fun m => !r.shouldRemove type m st.hole) st.kept",
  "edit": "should_remove is negated",
  "claim": "C74_inside"
 },
 {
  "file": "Model/Title.lean",
  "definition": "checkHole",
  "old": "if h.2 ≤ h.1 || !r.holeFilter s h then .ok none",
  "new": "if h.2 ≤ h.1 + 3 || !r.holeFilter s h then .ok none",
  "edit": "short holes are skipped",
  "claim": "C76_found"
 },
 {
  "file": "Model/Title.lean",
  "definition": "checkHole",
  "old": "if st.hole.2 = st.hole.1 || (r.fmt (sliceOf s.input st.hole)).isEmpty then .ok none",
  "new": "if st.hole.2 = st.hole.1 then .ok none",
  "edit": "a blank hole ends the search",
  "claim": "C76_found"
 },
 {
  "file": "Model/Title.lean",
  "definition": "checkHole",
  "old": "if st.hole.2 < st.hole.1 then .error .valueError",
  "new": "if st.hole.2 ≤ st.hole.1 then .error .valueError",
  "edit": "an empty hole raises",
  "claim": "C77_total"
 },
 {
  "file": "Model/Title.lean",
  "definition": "firstFound",
  "old": "    | .ok none => firstFound f xs",
  "new": "    | .ok none => .ok none",
  "edit": "only the first hole is looked at",
  "claim": "C76_found"
 },
 {
  "file": "Model/Title.lean",
  "definition": "isSeasonPart",
  "old": "match rangeOf s.input s.live part.start part.stop fun m => !m.priv with\n  | [m]",
  "new": "match rangeOf s.input s.live part.start part.stop fun m => !m.priv with\n  | m :: _",
  "edit": "other matches may be in the season directory",
  "claim": "C73/C76: only season directories"
 },
 {
  "file": "Model/Title.lean",
  "definition": "serieTitle",
  "old": "checkPart r type s weakTagged part with",
  "new": "checkPart r type s (fun m => weakTagged m || m.priv) part with",
  "edit": "private matches are ignored for the name of a series",
  "claim": "C73"
 },
 {
  "file": "Model/Title.lean",
  "definition": "firstTitled",
  "old": "    | .ok none => firstTitled r type s rest",
  "new": "    | .ok none => .ok none",
  "edit": "only the first part is looked at",
  "claim": "C76_found"
 },
 {
  "file": "Model/Title.lean",
  "definition": "hasYear",
  "old": "fun m => m.name = some c!\"year\"",
  "new": "fun m => m.name = some c!\"date\"",
  "edit": "parts with a date instead of a year",
  "claim": "C76_first"
 },
 {
  "file": "Model/Title.lean",
  "definition": "titleParts",
  "old": "(markerSorted s.input s.live (named s.markers c!\"path\") (markerPredicate s.input))",
  "new": "(named s.markers c!\"path\")",
  "edit": "parts are taken from left to right",
  "claim": "C76_first"
 },
 {
  "file": "Model/Title.lean",
  "definition": "titleWhen",
  "old": "if (named s.live r.name).any fun m => m.tagged c!\"expected\" then .ok ([], [])",
  "new": "if (named s.live r.name).any fun m => m.tagged c!\"forced\" then .ok ([], [])",
  "edit": "looks for another tag",
  "claim": "C75_expected"
 },
 {
  "file": "Model/Title.lean",
  "definition": "titleWhen",
  "old": "yearTitles r type s (rest.filter (hasYear s)) with",
  "new": "yearTitles r type s rest with",
  "edit": "titles of all the remaining parts",
  "claim": "C76_first"
 },
 {
  "file": "Model/Title.lean",
  "definition": "titleWhen",
  "old": ".ok (st.1 ++ renameUnless s.input serie ts ++ y.1, st.2 ++ rm ++ y.2)",
  "new": ".ok (st.1 ++ renameUnless s.input serie ts ++ y.1, st.2 ++ y.2)",
  "edit": "removals of the first part are forgotten",
  "claim": "C74_inside"
 },
 {
  "file": "Model/Title.lean",
  "definition": "titleWhen",
  "old": ".ok (st.1 ++ renameUnless s.input serie ts ++ y.1, st.2 ++ rm ++ y.2)",
  "new": ".ok (renameUnless s.input serie ts ++ y.1, st.2 ++ rm ++ y.2)",
  "edit": "the name of the series is forgotten",
  "claim": "C76_found, C74_removed"
 },
 {
  "file": "Model/Title.lean",
  "definition": "titleRun",
  "old": "removeAll s.input (appendAll s.input s.live add) rm",
  "new": "appendAll s.input (removeAll s.input s.live rm) []",
  "edit": "titles are not added",
  "claim": "C76_found"
 },
 {
  "file": "Model/Title.lean",
  "definition": "titleFromPosition",
  "old": "decide (h.1 ≤ m.start) && decide (m.stop ≤ h.2) else true",
  "new": "decide (h.1 ≤ m.start) && decide (m.stop < h.2) else true",
  "edit": "episode details at the end of a title are kept",
  "claim": "C74_inside"
 }
]