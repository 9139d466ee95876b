[
 {
  "file": "Model/Processors.lean",
  "definition": "markerPredicate",
  "old": "m.name = some c!\"proper_count\" || m.name = some c!\"title\"",
  "new": "m.name = some c!\"title\"",
  "edit": "proper_count counts for a part",
  "claim": "C34 weight"
 },
 {
  "file": "Model/Processors.lean",
  "definition": "markerPredicate",
  "old": " && m.tags.contains c!\"extension\")",
  "new": ")",
  "edit": "any container ignored",
  "claim": "C34 weight"
 },
 {
  "file": "Model/Processors.lean",
  "definition": "markerPredicate",
  "old": "!m.priv && ",
  "new": "",
  "edit": "private matches count",
  "claim": "C34 weight"
 },
 {
  "file": "Model/Processors.lean",
  "definition": "countDistinct",
  "old": "if x ∈ xs then countDistinct xs else countDistinct xs + 1",
  "new": "countDistinct xs + 1",
  "edit": "duplicates counted",
  "claim": "C34 distinct names"
 },
 {
  "file": "Model/Processors.lean",
  "definition": "markerLt",
  "old": "(markerWeight input live b p : Int) - markerWeight input live a p",
  "new": "(markerWeight input live a p : Int) - markerWeight input live b p",
  "edit": "ascending weights",
  "claim": "C34 order"
 },
 {
  "file": "Model/Processors.lean",
  "definition": "markerLt",
  "old": "(markerIndex input markers b : Int) - markerIndex input markers a < 0",
  "new": "(markerIndex input markers a : Int) - markerIndex input markers b < 0",
  "edit": "leftmost preferred",
  "claim": "C34 order"
 },
 {
  "file": "Model/Processors.lean",
  "definition": "enlargeStarting",
  "old": "(g.start + 1)",
  "new": "g.start",
  "edit": "wrong adjacent position",
  "claim": "C38 moved iff group starts right before"
 },
 {
  "file": "Model/Processors.lean",
  "definition": "enlargeEnding",
  "old": "(g.stop - 1)",
  "new": "g.stop",
  "edit": "wrong adjacent position at the end",
  "claim": "C38 moved iff group ends right after"
 },
 {
  "file": "Model/Processors.lean",
  "definition": "enlargeStart",
  "old": "{ m' with rawStart := some (m'.rawA + 1) }",
  "new": "m'",
  "edit": "raw_start not compensated",
  "claim": "C38 raw text unchanged"
 },
 {
  "file": "Model/Processors.lean",
  "definition": "enlargeEnd",
  "old": "{ m with stop := m.stop + 1 }",
  "new": "{ m with stop := m.stop }",
  "edit": "end not moved",
  "claim": "C38 end moves"
 },
 {
  "file": "Model/Processors.lean",
  "definition": "enlargeEnd",
  "old": "some (m'.rawB - 1)",
  "new": "some (m'.rawB)",
  "edit": "raw_end not compensated",
  "claim": "C38 raw text unchanged"
 },
 {
  "file": "Model/Processors.lean",
  "definition": "enlargeGroupMatches",
  "old": "((enlargeStarting s).foldl (enlargeStart s.input) s.live)",
  "new": "s.live",
  "edit": "starts not moved",
  "claim": "C38 start moves"
 },
 {
  "file": "Model/Processors.lean",
  "definition": "ambMatch",
  "old": "if st.values.contains (m.name, m.value input) then st else { st with toRemove := st.toRemove ++ [m] }",
  "new": "{ st with toRemove := st.toRemove ++ [m] }",
  "edit": "equal values removed too",
  "claim": "C33: only other values go"
 },
 {
  "file": "Model/Processors.lean",
  "definition": "ambMatch",
  "old": "then st else { st with toRemove := st.toRemove ++ [m] }",
  "new": "then { st with toRemove := st.toRemove ++ [m] } else st",
  "edit": "inverted test",
  "claim": "C33"
 },
 {
  "file": "Model/Processors.lean",
  "definition": "ambPart",
  "old": "{ st' with previous := st'.previous ++ ms.map Mt.name }",
  "new": "st'",
  "edit": "previous names not recorded",
  "claim": "C33: other values are removed"
 },
 {
  "file": "Model/Processors.lean",
  "definition": "removeAmbiguous",
  "old": "markerSorted s.input s.live (named s.markers c!\"path\") (markerPredicate s.input)\n  { s with live := removeAll",
  "new": "(named s.markers c!\"path\")\n  { s with live := removeAll",
  "edit": "parts not sorted",
  "claim": "C33: most valuable part"
 },
 {
  "file": "Model/Processors.lean",
  "definition": "removeLessSpecific",
  "old": "(named s.markers c!\"path\").reverse",
  "new": "(named s.markers c!\"path\")",
  "edit": "not reversed",
  "claim": "C53 leftmost order"
 },
 {
  "file": "Model/Processors.lean",
  "definition": "removeLessSpecific",
  "old": "m.name = some name && m.tags.contains c!\"SxxExx\")",
  "new": "m.name = some name)",
  "edit": "tag ignored",
  "claim": "C53 tagged first"
 },
 {
  "file": "Model/Processors.lean",
  "definition": "removeLessSpecific",
  "old": "(fun m => m.name = some name) parts",
  "new": "(fun _ => true) parts",
  "edit": "other properties touched",
  "claim": "C33 less specific"
 },
 {
  "file": "Model/Processors.lean",
  "definition": "seasonYears",
  "old": "if b then",
  "new": "if !b then",
  "edit": "inverted validity",
  "claim": "C35 plausible year"
 },
 {
  "file": "Model/Processors.lean",
  "definition": "seasonYear",
  "old": "named s.live c!\"year\" = [] then",
  "new": "True then",
  "edit": "year added although one was found",
  "claim": "C35 only when no year"
 },
 {
  "file": "Model/Processors.lean",
  "definition": "seasonYear",
  "old": "seasonYears s.input (named s.live c!\"season\")",
  "new": "seasonYears s.input (named s.live c!\"episode\")",
  "edit": "episode instead of season",
  "claim": "C35"
 },
 {
  "file": "Model/Processors.lean",
  "definition": "yearSeason",
  "old": " ∧ named s.live c!\"episode\" ≠ [] then",
  "new": " then",
  "edit": "season added without episode",
  "claim": "C35 season"
 },
 {
  "file": "Model/Processors.lean",
  "definition": "yearSeason",
  "old": "named s.live c!\"season\" = [] ∧ ",
  "new": "",
  "edit": "season added although found",
  "claim": "C35 season"
 },
 {
  "file": "Model/Processors.lean",
  "definition": "preferredString",
  "old": "if t.istitle a && !t.istitle b then .ok a",
  "new": "if t.istitle a && !t.istitle b then .ok b",
  "edit": "title loses",
  "claim": "C36 preferred"
 },
 {
  "file": "Model/Processors.lean",
  "definition": "preferredString",
  "old": "else if !t.isupper a && t.isupper b then .ok a",
  "new": "else if !t.isupper a && t.isupper b then .ok b",
  "edit": "upper wins",
  "claim": "C36 preferred"
 },
 {
  "file": "Model/Processors.lean",
  "definition": "preferredString",
  "old": "then .ok a else .ok b",
  "new": "then .ok a else .ok []",
  "edit": "empty text returned",
  "claim": "C36 one of the two"
 },
 {
  "file": "Model/Processors.lean",
  "definition": "equivalentStep",
  "old": "if u.lower h = u.lower v then",
  "new": "if h.length = v.length then",
  "edit": "compares lengths",
  "claim": "C36 related values only"
 },
 {
  "file": "Model/Processors.lean",
  "definition": "equivalentStep",
  "old": "name := some name, tags := [c!\"equivalent\"]",
  "new": "tags := [c!\"equivalent\"]",
  "edit": "hole not named",
  "claim": "C36 name"
 },
 {
  "file": "Model/Processors.lean",
  "definition": "equivalentStep",
  "old": "let m := if v ≠ new then { m with val := some (.str new) } else m",
  "new": "let m := { m with val := some (.str new), start := hole.start }",
  "edit": "span of the match moved",
  "claim": "C36 spans stay"
 },
 {
  "file": "Model/Processors.lean",
  "definition": "equivalentStep",
  "old": "if m.tags.contains c!\"equivalent-ignore\" then .ok (hole, m, false)\n        else match",
  "new": "match",
  "edit": "ignore tag ignored",
  "claim": "C36 (completeness only speaks of unignored)"
 },
 {
  "file": "Model/Processors.lean",
  "definition": "equivalentHolesFor",
  "old": "if taken then .ok (left, live, hole' :: new)",
  "new": "if taken then .ok (left, live, new)",
  "edit": "taken holes dropped",
  "claim": "C36 complete"
 },
 {
  "file": "Model/Processors.lean",
  "definition": "equivalentParts",
  "old": "holesOf input live part.start part.stop",
  "new": "holesOf input live 0 part.stop",
  "edit": "holes outside the part",
  "claim": "C36 inside the part"
 },
 {
  "file": "Model/Processors.lean",
  "definition": "equivalentHoles",
  "old": "appendAll s.input live new",
  "new": "live",
  "edit": "nothing appended",
  "claim": "C36 complete"
 },
 {
  "file": "Model/Processors.lean",
  "definition": "stripStartOnce",
  "old": "(raw[2]?).any",
  "new": "(raw[1]?).any",
  "edit": "wrong look-ahead",
  "claim": "C37 acronym"
 },
 {
  "file": "Model/Processors.lean",
  "definition": "stripStartOnce",
  "old": "rawStart := some (m.rawA + 1)",
  "new": "start := m.start + 1",
  "edit": "span moved instead of raw",
  "claim": "C37 span unchanged"
 },
 {
  "file": "Model/Processors.lean",
  "definition": "stripEndOnce",
  "old": "raw.length - 3",
  "new": "raw.length - 2",
  "edit": "wrong look-behind",
  "claim": "C37 / fails iff"
 },
 {
  "file": "Model/Processors.lean",
  "definition": "stripEndOnce",
  "old": "rawStop := some (m.rawB - 1)",
  "new": "rawStop := some (m.rawB - 2)",
  "edit": "strips two at once",
  "claim": "C37 at most two"
 },
 {
  "file": "Model/Processors.lean",
  "definition": "stripMatch",
  "old": "| .ok m => stripEndOnce input m",
  "new": "| .ok m => .ok m",
  "edit": "second end pass missing",
  "claim": "C37 fails iff"
 },
 {
  "file": "Model/Processors.lean",
  "definition": "stripStartOnce",
  "old": "(decide (raw.length < 3) || (raw[2]?)",
  "new": "((raw[2]?)",
  "edit": "short text not stripped",
  "claim": "C37 fails iff"
 },
 {
  "file": "Model/Rules.lean",
  "definition": "typeWhen",
  "old": "else if has s c!\"film\" then c!\"movie\"\n",
  "new": "",
  "edit": "film ignored",
  "claim": "C31"
 },
 {
  "file": "Model/Rules.lean",
  "definition": "typeWhen",
  "old": "has s c!\"date\" && !has s c!\"year\"",
  "new": "has s c!\"date\"",
  "edit": "date with year is an episode",
  "claim": "C31"
 },
 {
  "file": "Model/Rules.lean",
  "definition": "typeWhen",
  "old": "|| has s c!\"absolute_episode\"",
  "new": "",
  "edit": "absolute episode ignored",
  "claim": "C31"
 },
 {
  "file": "Model/Rules.lean",
  "definition": "typeWhen",
  "old": "m.tags.contains c!\"anime\"",
  "new": "!m.tags.contains c!\"anime\"",
  "edit": "anime test inverted",
  "claim": "C31"
 },
 {
  "file": "Model/Rules.lean",
  "definition": "typeProcessor",
  "old": "s.live ++ [endMatch s c!\"type\"",
  "new": "[endMatch s c!\"type\"",
  "edit": "other matches dropped",
  "claim": "C31 nothing else changes"
 },
 {
  "file": "Model/Rules.lean",
  "definition": "inGroup",
  "old": "m.name = some c!\"group\"",
  "new": "m.name = some c!\"path\"",
  "edit": "path marker taken for a group",
  "claim": "C40"
 },
 {
  "file": "Model/Rules.lean",
  "definition": "keepMarkedPart",
  "old": "ungroup ++ group.drop 1",
  "new": "ungroup ++ group.drop 2",
  "edit": "second bracketed year kept",
  "claim": "C40"
 },
 {
  "file": "Model/Rules.lean",
  "definition": "keepMarkedPart",
  "old": "ungroup ++ group.drop 1",
  "new": "group.drop 1",
  "edit": "bare years kept",
  "claim": "C40"
 },
 {
  "file": "Model/Rules.lean",
  "definition": "keepMarkedPart",
  "old": "ungroup.take 1 ++ (if ungroup.length > 2 then ungroup.drop 2 else [])",
  "new": "ungroup.drop 1",
  "edit": "first bare year kept",
  "claim": "C40"
 },
 {
  "file": "Model/Rules.lean",
  "definition": "keepMarkedPart",
  "old": "ungroup.take 1 ++",
  "new": "ungroup.take 2 ++",
  "edit": "two removed",
  "claim": "C40 never the last"
 },
 {
  "file": "Model/Rules.lean",
  "definition": "keepMarkedPart",
  "old": "years.length > 1",
  "new": "years.length > 0",
  "edit": "single year removed",
  "claim": "C40 single year"
 },
 {
  "file": "Model/Rules.lean",
  "definition": "keepMarkedWhen",
  "old": "(named s.live c!\"year\").length > 1",
  "new": "(named s.live c!\"year\").length > 2",
  "edit": "two years not handled",
  "claim": "C40"
 },
 {
  "file": "Model/Rules.lean",
  "definition": "onlyOnePart",
  "old": "then sizes.drop 1 else []",
  "new": "then sizes.drop 2 else []",
  "edit": "two sizes kept",
  "claim": "C39"
 },
 {
  "file": "Model/Rules.lean",
  "definition": "onlyOnePart",
  "old": "countDistinct (sizes.map (Mt.value s.input)) > 1",
  "new": "true",
  "edit": "equal sizes removed",
  "claim": "C39 agreeing sizes stay"
 },
 {
  "file": "Model/Rules.lean",
  "definition": "onlyOnePart",
  "old": "c!\"screen_size\").reverse",
  "new": "c!\"screen_size\")",
  "edit": "first kept",
  "claim": "C39 keeps last"
 },
 {
  "file": "Model/Rules.lean",
  "definition": "putRaw",
  "old": "(k', m) :: rest",
  "new": "(k', m') :: rest",
  "edit": "first of a spelling counts",
  "claim": "C41"
 },
 {
  "file": "Model/Rules.lean",
  "definition": "properWeight",
  "old": "then 2 else 1",
  "new": "then 1 else 1",
  "edit": "real counts one",
  "claim": "C41"
 },
 {
  "file": "Model/Rules.lean",
  "definition": "properStop",
  "old": "if b < m.stop then some m.stop else some b",
  "new": "if b < m.stop then some b else some b",
  "edit": "end not extended",
  "claim": "C54"
 },
 {
  "file": "Model/Rules.lean",
  "definition": "properStart",
  "old": "if a > m.start then some m.start",
  "new": "if a < m.start then some m.start",
  "edit": "latest start",
  "claim": "C54"
 },
 {
  "file": "Model/Rules.lean",
  "definition": "properCount",
  "old": "m.value s.input = .str c!\"Proper\"",
  "new": "m.value s.input = .str c!\"Rip\"",
  "edit": "wrong value",
  "claim": "C41"
 },
 {
  "file": "Model/Matches.lean",
  "definition": "rangeOf",
  "old": "decide (m.stop > a)",
  "new": "decide (m.stop ≥ a)",
  "edit": "range includes touching matches",
  "claim": "C33/C34 overlap"
 },
 {
  "file": "Model/Matches.lean",
  "definition": "removeMatch",
  "old": "if Mt.eqv input m x then xs",
  "new": "if Mt.eqv input m x then x :: xs",
  "edit": "nothing removed",
  "claim": "C33/C39"
 },
 {
  "file": "Model/Matches.lean",
  "definition": "appendAll",
  "old": "if hasMatch input l m then l else l ++ [m]",
  "new": "l",
  "edit": "nothing appended",
  "claim": "C35"
 },
 {
  "file": "Model/Matches.lean",
  "definition": "insertBy",
  "old": "if lt x y then x :: y :: ys",
  "new": "if lt y x then x :: y :: ys",
  "edit": "descending sort",
  "claim": "C34 order"
 },
 {
  "file": "Model/Matches.lean",
  "definition": "Mt.key",
  "old": "m.name, m.parent⟩",
  "new": "none, m.parent⟩",
  "edit": "names not compared",
  "claim": "C33 (other names untouched)"
 },
 {
  "file": "Model/Matches.lean",
  "definition": "Mt.value",
  "old": "if v.truthy then v else m.fmt (m.raw input)",
  "new": "v",
  "edit": "falsy values reported",
  "claim": "C41 counterexample"
 },
 {
  "file": "Model/Matches.lean",
  "definition": "runsFrom",
  "old": "| false, some a => (a, i) :: runsFrom p f (i + 1) none",
  "new": "| false, some a => (a, i + 1) :: runsFrom p f (i + 1) none",
  "edit": "hole one too long",
  "claim": "C36 hole uncovered"
 },
 {
  "file": "Model/Matches.lean",
  "definition": "atSpan",
  "old": "atIndex l (b - 1)",
  "new": "atIndex l b",
  "edit": "last character off by one",
  "claim": "C40 brackets"
 }
]