[
 {
  "file": "Model/Episodes.lean",
  "definition": "copiesBetween",
  "old": "some (copiesFor n (a + 1) b)",
  "new": "some (copiesFor n a b)",
  "edit": "range starts at the first end (duplicate)",
  "claim": "C32 once"
 },
 {
  "file": "Model/Episodes.lean",
  "definition": "copiesBetween",
  "old": "some (copiesFor n (a + 1) b)",
  "new": "some (copiesFor n (a + 1) (b - 1))",
  "edit": "range stops one early",
  "claim": "C32 every number"
 },
 {
  "file": "Model/Episodes.lean",
  "definition": "copiesBetween",
  "old": "some (copiesFor n (a + 1) b)",
  "new": "some (copiesFor n (a + 2) b)",
  "edit": "range skips the first number",
  "claim": "C32 every number"
 },
 {
  "file": "Model/Episodes.lean",
  "definition": "copiesBetween",
  "old": "some (copiesFor n (a + 1) b)",
  "new": "some (copiesFor p (a + 1) b)",
  "edit": "copies of the previous match instead of the next",
  "claim": "C32 order of report"
 },
 {
  "file": "Model/Episodes.lean",
  "definition": "copiesBetween",
  "old": "some (copiesFor n (a + 1) b)",
  "new": "some (copiesFor n (b + 1) a)",
  "edit": "ends swapped",
  "claim": "C32 every number"
 },
 {
  "file": "Model/Episodes.lean",
  "definition": "sepStep",
  "old": "([n, sep], c ++ [n])",
  "new": "([n, sep], c)",
  "edit": "second end dropped",
  "claim": "C32 ends kept"
 },
 {
  "file": "Model/Episodes.lean",
  "definition": "sepStep",
  "old": "([n, sep], c ++ [n])",
  "new": "([sep], c ++ [n])",
  "edit": "second end not removed before re-adding: order",
  "claim": "C32 reported in order"
 },
 {
  "file": "Model/Episodes.lean",
  "definition": "sepStep",
  "old": "([n, sep], c ++ [n])",
  "new": "([n], c ++ [n])",
  "edit": "separator kept",
  "claim": "C32 no separator"
 },
 {
  "file": "Model/Episodes.lean",
  "definition": "sepStep",
  "old": "else some ([sep], [])\n  | _, _ => some ([sep], [])",
  "new": "else some ([sep], [])\n  | _, _ => some ([], [])",
  "edit": "separator without ends kept",
  "claim": "C32 no separator"
 },
 {
  "file": "Model/Episodes.lean",
  "definition": "sepStep",
  "old": "if isRangeSep s.input rs sep then (copiesBetween s.input p n).map fun c => ([n, sep], c ++ [n])",
  "new": "if true then (copiesBetween s.input p n).map fun c => ([n, sep], c ++ [n])",
  "edit": "every separator is a range separator",
  "claim": "C32 nothing else"
 },
 {
  "file": "Model/Episodes.lean",
  "definition": "textJoins",
  "old": "drop p.istop",
  "new": "drop p.stop",
  "edit": "uses match end rather than pattern end",
  "claim": "C32 whole range"
 },
 {
  "file": "Model/Episodes.lean",
  "definition": "textJoins",
  "old": "rs.contains separator\n\n",
  "new": "!rs.contains separator\n\n",
  "edit": "negated",
  "claim": "C32"
 },
 {
  "file": "Model/Episodes.lean",
  "definition": "pairStep",
  "old": "else some ([n], [n])",
  "new": "else some ([n], [])",
  "edit": "unrelated number lost",
  "claim": "C32 ends kept"
 },
 {
  "file": "Model/Episodes.lean",
  "definition": "pairStep",
  "old": "c ++ [{ id := 0, start := p.stop, stop := n.start - 1, name := some (sepName prop), priv := true }, n])",
  "new": "c ++ [n])",
  "edit": "no separator created",
  "claim": "(equivalent?)"
 },
 {
  "file": "Model/Episodes.lean",
  "definition": "pairLoop",
  "old": "(if n.start < n.stop then some n else none) rest with",
  "new": "(some p) rest with",
  "edit": "previous not updated",
  "claim": "C32 whole range"
 },
 {
  "file": "Model/Episodes.lean",
  "definition": "pairLoop",
  "old": "(if canStart n && n.start < n.stop then some n else none) rest",
  "new": "(if n.start < n.stop then some n else none) rest",
  "edit": "weak episodes may start",
  "claim": "C32"
 },
 {
  "file": "Model/Episodes.lean",
  "definition": "separatorRange",
  "old": "removeAll s.input s.live (a.1 ++ b.1)) (a.2 ++ b.2)",
  "new": "removeAll s.input s.live (a.1 ++ b.1)) a.2",
  "edit": "text ranges not added",
  "claim": "C32"
 },
 {
  "file": "Model/Episodes.lean",
  "definition": "separatorRange",
  "old": "removeAll s.input s.live (a.1 ++ b.1)) (a.2 ++ b.2)",
  "new": "removeAll s.input s.live a.1) (a.2 ++ b.2)",
  "edit": "text pair ends not removed",
  "claim": "C32 order"
 },
 {
  "file": "Model/Episodes.lean",
  "definition": "episodeRange",
  "old": "!m.tags.contains c!\"weak-episode\"",
  "new": "m.tags.contains c!\"weak-episode\"",
  "edit": "negated weak test",
  "claim": "C32",
  "tightened": [
   "C32_episodes"
  ]
 },
 {
  "file": "Model/Episodes.lean",
  "definition": "seasonRange",
  "old": "separatorRange rs c!\"season\" (fun _ => true)",
  "new": "separatorRange rs c!\"episode\" (fun _ => true)",
  "edit": "wrong property",
  "claim": "C32 seasons",
  "tightened": [
   "C32_seasons"
  ]
 },
 {
  "file": "Model/Episodes.lean",
  "definition": "seeStep",
  "old": "copiesFor n (a + 1) (b + 1)",
  "new": "copiesFor n (a + 1) b",
  "edit": "second end lost",
  "claim": "C57"
 },
 {
  "file": "Model/Episodes.lean",
  "definition": "seeStep",
  "old": "copiesFor n (a + 1) (b + 1)",
  "new": "copiesFor n a (b + 1)",
  "edit": "first end twice",
  "claim": "C57 nothing else"
 },
 {
  "file": "Model/Episodes.lean",
  "definition": "seeStep",
  "old": "some ([n, sep], copiesFor",
  "new": "some ([sep], copiesFor",
  "edit": "second end stays: order/dup",
  "claim": "C57"
 },
 {
  "file": "Model/Episodes.lean",
  "definition": "seeStep",
  "old": "(nextOf s.input s.live season (see c!\"episode\"))",
  "new": "(nextOf s.input s.live sep (see c!\"episode\"))",
  "edit": "looks for the episode after the separator",
  "claim": "C57"
 },
 {
  "file": "Model/Episodes.lean",
  "definition": "countValidator",
  "old": "(counts.filter fun c => countOf s c = none)",
  "new": "counts",
  "edit": "all counts removed",
  "claim": "C58"
 },
 {
  "file": "Model/Episodes.lean",
  "definition": "countValidator",
  "old": "l1 (counts.filter fun c => countOf s c = some c!\"episode\")",
  "new": "l1 (counts.filter fun c => countOf s c = some c!\"season\")",
  "edit": "swapped",
  "claim": "C58"
 },
 {
  "file": "Model/Episodes.lean",
  "definition": "countValidator",
  "old": "renameAll s.input c!\"season_count\" l2",
  "new": "renameAll s.input c!\"episode_count\" l2",
  "edit": "season count renamed episode_count",
  "claim": "C58"
 },
 {
  "file": "Model/Episodes.lean",
  "definition": "countOf",
  "old": "(previous s.live count fun",
  "new": "(nextOf s.input s.live count fun",
  "edit": "looks after",
  "claim": "C58"
 },
 {
  "file": "Model/Episodes.lean",
  "definition": "countOf",
  "old": " || m.name = some c!\"season\")).bind",
  "new": ")).bind",
  "edit": "seasons ignored",
  "claim": "C58"
 },
 {
  "file": "Model/Episodes.lean",
  "definition": "breaksAt",
  "old": "> maxRange",
  "new": "> maxRange + 1",
  "edit": "boundary",
  "claim": "C60"
 },
 {
  "file": "Model/Episodes.lean",
  "definition": "breaksAt",
  "old": "(b - a).natAbs",
  "new": "(b - a)",
  "edit": "no absolute value",
  "claim": "C60"
 },
 {
  "file": "Model/Episodes.lean",
  "definition": "chainBreaker",
  "old": "breaksAt episodeMax episodes || breaksAt seasonMax seasons",
  "new": "breaksAt episodeMax episodes",
  "edit": "seasons unchecked",
  "claim": "C60"
 },
 {
  "file": "Model/Episodes.lean",
  "definition": "chainBreaker",
  "old": "breaksAt seasonMax seasons",
  "new": "breaksAt episodeMax seasons",
  "edit": "wrong bound",
  "claim": "C60"
 },
 {
  "file": "Model/Episodes.lean",
  "definition": "isSorted",
  "old": "decide (a ≤ b) && isSorted (b :: l)",
  "new": "decide (a ≤ b)",
  "edit": "only first pair",
  "claim": "C59"
 },
 {
  "file": "Model/Episodes.lean",
  "definition": "consecutiveFrom",
  "old": "v - p ≤ gap + 1",
  "new": "v - p ≤ gap + 2",
  "edit": "boundary",
  "claim": "C59"
 },
 {
  "file": "Model/Episodes.lean",
  "definition": "consecutiveFrom",
  "old": "!(decide (0 < v - p) &&",
  "new": "!(decide (0 ≤ v - p) &&",
  "edit": "boundary",
  "claim": "C59"
 },
 {
  "file": "Model/Episodes.lean",
  "definition": "consecutiveFrom",
  "old": "!isRange sp && isWeak sp",
  "new": "isWeak sp",
  "edit": "range separators checked",
  "claim": "C59"
 },
 {
  "file": "Model/Episodes.lean",
  "definition": "consecutiveFrom",
  "old": "then false else valid",
  "new": "then false else true",
  "edit": "later good pair resets",
  "claim": "C59"
 },
 {
  "file": "Model/Episodes.lean",
  "definition": "consecutiveFrom",
  "old": "if isStrong sp then true else",
  "new": "if isStrong sp then valid else",
  "edit": "strong separator does not reset",
  "claim": "C59 strong",
  "tightened": [
   "C59_accepted_iff_strong"
  ]
 },
 {
  "file": "Model/Episodes.lean",
  "definition": "orderingValidator",
  "old": "isSorted (dedupInts (seasons.map Prod.snd)) && ",
  "new": "",
  "edit": "seasons order unchecked",
  "claim": "C59"
 },
 {
  "file": "Model/Episodes.lean",
  "definition": "orderingValidator",
  "old": " && consecutiveFrom isRange isWeak isStrong gap true none seasons",
  "new": "",
  "edit": "seasons gap unchecked",
  "claim": "C59"
 },
 {
  "file": "Model/Episodes.lean",
  "definition": "chainGrow",
  "old": "then chainGrow episodeMax seasonMax acc gs",
  "new": "then acc",
  "edit": "chain stops at the first far number",
  "claim": "C60 (search goes on)"
 }
]