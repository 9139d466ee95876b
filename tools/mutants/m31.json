[
 {
  "file": "Model/Declared.lean",
  "definition": "plainNumber",
  "old": "else if [c!\"season\", c!\"episode\", c!\"version\", c!\"count\"].contains name",
  "new": "else if [c!\"season\", c!\"episode\", c!\"count\"].contains name",
  "edit": "the formatter of the chains leaves out the version, which stays a text",
  "claim": "C163"
 },
 {
  "file": "Model/MoreChains.lean",
  "definition": "LooseChain.moreRe",
  "old": "| .ep => .seq (.grp 5 (E.words [c!\"ep\", c!\"e\", c!\"x\", c!\"-\"])) (.grp 2 (digitsRe E.u 1 4))",
  "new": "| .ep => .seq (.grp 5 (E.words [c!\"ep\", c!\"e\", c!\"x\", c!\"-\"])) (.grp 8 (digitsRe E.u 1 4))",
  "edit": "the second number of ep 1-2 is captured as a version",
  "claim": "C163"
 },
 {
  "file": "Model/SeasonWords.lean",
  "definition": "numeralPattern",
  "old": "groups := [(2, c!\"episode\"), (8, c!\"version\"), (9, c!\"count\")]",
  "new": "groups := [(2, c!\"episode\"), (9, c!\"version\"), (8, c!\"count\")]",
  "edit": "version and count are swapped in the pattern of numerals",
  "claim": "C163"
 },
 {
  "file": "Model/Families.lean",
  "definition": "chainGroups",
  "old": "(8, c!\"version\"), (9, c!\"count\")",
  "new": "(9, c!\"version\"), (8, c!\"count\")",
  "edit": "version and count are swapped in the chains",
  "claim": "C163"
 },
 {
  "file": "Model/EpisodeWords.lean",
  "definition": "versionPattern",
  "old": "{ re := E.versionRe, name := [], groups := [(8, c!\"version\")], children := true",
  "new": "{ re := .alt E.versionRe (.cat [E.letter 'r', .grp 8 E.digits]), name := [], groups := [(8, c!\"version\")], children := true",
  "edit": "r2 is a version too",
  "claim": "C163"
 },
 {
  "file": "Model/Families.lean",
  "definition": "hitBuds",
  "old": "some { name := some g.2, start := a, stop := b,",
  "new": "some { name := some g.2, start := a, stop := b - 1,",
  "edit": "the children of a chain lose their last character",
  "claim": "C163"
 },
 {
  "file": "Model/EpisodeWords.lean",
  "definition": "RxEnv.countRe",
  "old": ".cat [dashRe, E.words ws, dashRe, .grp 9 E.digits]",
  "new": ".cat [dashRe, .opt (E.words ws), dashRe, .grp 9 E.digits]",
  "edit": "`of` before a count is optional",
  "claim": "C164"
 },
 {
  "file": "Model/SeasonWords.lean",
  "definition": "wordedKept",
  "old": "(hs.filter (validSeasonHit E s))",
  "new": "hs",
  "edit": "numerals of season words are not validated",
  "claim": "C164"
 },
 {
  "file": "Model/Declared.lean",
  "definition": "wordNumber",
  "old": "if [c!\"season\", c!\"count\"].contains name then",
  "new": "if [c!\"season\"].contains name then",
  "edit": "a count of seasons stays a text",
  "claim": "C164"
 },
 {
  "file": "Model/SeasonWords.lean",
  "definition": "RxEnv.nextSeason",
  "old": "dashRe, .grp 1 E.digits]",
  "new": "dashRe, .grp 9 E.digits]",
  "edit": "the later seasons of a list are captured as counts",
  "claim": "C164"
 },
 {
  "file": "Model/Episodes.lean",
  "definition": "countValidator",
  "old": "renameAll s.input c!\"season_count\" l2 (counts.filter fun c => countOf s c = some c!\"season\")",
  "new": "renameAll s.input c!\"season_count\" l2 (named s.live c!\"season\")",
  "edit": "seasons instead of their counts get the name season_count",
  "claim": "C164"
 }
]