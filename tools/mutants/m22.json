[
 {
  "file": "Model/EpisodeWords.lean",
  "definition": "defaultEpisodeWords",
  "old": "c!\"ep\", c!\"episodio\"",
  "new": "c!\"episodio\"",
  "edit": "ep is no word for episodes",
  "claim": "C129"
 },
 {
  "file": "Model/EpisodeWords.lean",
  "definition": "defaultEpisodeWords",
  "old": "[c!\"of\", c!\"sur\"]",
  "new": "[c!\"on\", c!\"sur\"]",
  "edit": "of is no word",
  "claim": "C129"
 },
 {
  "file": "Model/EpisodeWords.lean",
  "definition": "defaultEpisodeWords",
  "old": "allWords := [c!\"all\"]",
  "new": "allWords := [c!\"al\"]",
  "edit": "al is enough",
  "claim": "C130"
 },
 {
  "file": "Model/EpisodeWords.lean",
  "definition": "countRe",
  "old": "E.words ws, dashRe, .grp 9",
  "new": "E.words ws, .grp 9",
  "edit": "no separator between of and the count",
  "claim": "C129"
 },
 {
  "file": "Model/EpisodeWords.lean",
  "definition": "countRe",
  "old": ".cat [dashRe, E.words ws",
  "new": ".cat [E.words ws",
  "edit": "no separator before of",
  "claim": "C129"
 },
 {
  "file": "Model/EpisodeWords.lean",
  "definition": "countRe",
  "old": ".grp 9 E.digits",
  "new": ".grp 9 E.digit",
  "edit": "the count is one digit",
  "claim": "C129"
 },
 {
  "file": "Model/EpisodeWords.lean",
  "definition": "wordedPattern",
  "old": ".cat [E.words W.episodeWords, dashRe, .grp 2 E.digits, .opt E.versionRe",
  "new": ".cat [.opt (E.words W.episodeWords), dashRe, .grp 2 E.digits, .opt E.versionRe",
  "edit": "the word may be missing",
  "claim": "C129"
 },
 {
  "file": "Model/EpisodeWords.lean",
  "definition": "wordedPattern",
  "old": ".opt E.versionRe, .opt (E.countRe W.ofWords)",
  "new": ".opt (E.countRe W.ofWords), .opt E.versionRe",
  "edit": "the version comes after the count",
  "claim": "C129"
 },
 {
  "file": "Model/EpisodeWords.lean",
  "definition": "wordedPattern",
  "old": "(8, c!\"version\"), (9, c!\"count\")], children := true, validateAll := true,\n    format := fun _ => pyInt E.u, parentValid := surrounded",
  "new": "(9, c!\"version\"), (8, c!\"count\")], children := true, validateAll := true,\n    format := fun _ => pyInt E.u, parentValid := surrounded",
  "edit": "version and count swapped",
  "claim": "C129"
 },
 {
  "file": "Model/EpisodeWords.lean",
  "definition": "wordedPattern",
  "old": "[(2, c!\"episode\"), (8, c!\"version\"), (9, c!\"count\")], children := true, validateAll := true,\n    format := fun _ => pyInt E.u, parentValid := surrounded",
  "new": "[(2, c!\"episode\"), (8, c!\"version\"), (9, c!\"count\")], children := true, validateAll := true,\n    format := fun _ => pyInt E.u, parentValid := fun _ _ => true",
  "edit": "not validated",
  "claim": "C129"
 },
 {
  "file": "Model/EpisodeWords.lean",
  "definition": "wordedPattern",
  "old": "(8, c!\"version\"), (9, c!\"count\")], children := true, validateAll := true,",
  "new": "(8, c!\"version\"), (9, c!\"count\")], children := true, validateAll := false,",
  "edit": "the parent is not validated",
  "claim": "C129"
 },
 {
  "file": "Model/EpisodeWords.lean",
  "definition": "allPattern",
  "old": ".cat [.opt (E.letter 's'),",
  "new": ".cat [(E.letter 's'),",
  "edit": "S is needed",
  "claim": "C130"
 },
 {
  "file": "Model/EpisodeWords.lean",
  "definition": "allPattern",
  "old": "c!\"xe\", c!\"ex\", c!\"e\", c!\"x\"",
  "new": "c!\"xe\", c!\"e\", c!\"x\"",
  "edit": "ex joins no more",
  "claim": "C130"
 },
 {
  "file": "Model/EpisodeWords.lean",
  "definition": "allPattern",
  "old": ".str c!\"Complete\"",
  "new": ".str c!\"complete\"",
  "edit": "the value is in lower case",
  "claim": "C130"
 },
 {
  "file": "Model/EpisodeWords.lean",
  "definition": "allPattern",
  "old": "if name = c!\"other\" then",
  "new": "if name = c!\"season\" then",
  "edit": "season and other swapped",
  "claim": "C130"
 },
 {
  "file": "Model/EpisodeWords.lean",
  "definition": "allPattern",
  "old": "[(1, c!\"season\"), (7, c!\"other\")]",
  "new": "[(1, c!\"season\")]",
  "edit": "other is not reported",
  "claim": "C130"
 },
 {
  "file": "Model/EpisodeWords.lean",
  "definition": "versionPattern",
  "old": "re := E.versionRe",
  "new": "re := .opt E.versionRe",
  "edit": "empty versions",
  "claim": "C131"
 },
 {
  "file": "Model/EpisodeWords.lean",
  "definition": "versionPattern",
  "old": "name := [], groups := [(8, c!\"version\")], children := true, validateAll := true,",
  "new": "name := [], groups := [(8, c!\"version\")], children := true, validateAll := false,",
  "edit": "the version need not be surrounded",
  "claim": "C131"
 },
 {
  "file": "Model/EpisodeWords.lean",
  "definition": "stripStart",
  "old": "i + ((s.drop i).takeWhile",
  "new": "i + 1 + ((s.drop i).takeWhile",
  "edit": "strip goes one too far",
  "claim": "C132"
 },
 {
  "file": "Model/EpisodeWords.lean",
  "definition": "stripStop",
  "old": "then stripStop s j else j + 1",
  "new": "then stripStop s j else j",
  "edit": "strip goes one too far at the end",
  "claim": "C132"
 },
 {
  "file": "Model/EpisodeWords.lean",
  "definition": "stripStop",
  "old": "then stripStop s j else j + 1",
  "new": "then j else j + 1",
  "edit": "only one separator is stripped at the end",
  "claim": "C132"
 },
 {
  "file": "Model/EpisodeWords.lean",
  "definition": "detachedPattern",
  "old": "E.countRe W.ofWords, dashRe, .opt (E.words W.episodeWords)]",
  "new": ".opt (E.countRe W.ofWords), dashRe, .opt (E.words W.episodeWords)]",
  "edit": "of may be missing",
  "claim": "C132"
 },
 {
  "file": "Model/EpisodeWords.lean",
  "definition": "detachedPattern",
  "old": "dashRe, .opt (E.words W.episodeWords)]",
  "new": ".opt (E.words W.episodeWords)]",
  "edit": "no separator before the word",
  "claim": "C132"
 },
 {
  "file": "Model/EpisodeWords.lean",
  "definition": "detachedPattern",
  "old": "[(2, c!\"episode\"), (9, c!\"count\")]",
  "new": "[(9, c!\"episode\"), (2, c!\"count\")]",
  "edit": "episode and count swapped",
  "claim": "C132"
 },
 {
  "file": "Model/EpisodeWords.lean",
  "definition": "detachedPattern",
  "old": "(stripStart s m.start) (stripStop s m.stop)",
  "new": "m.start m.stop",
  "edit": "not stripped before it is validated",
  "claim": "C132"
 },
 {
  "file": "Model/EpisodeWords.lean",
  "definition": "formatPattern",
  "old": ".opt (E.letter 's')]",
  "new": "(E.letter 's')]",
  "edit": "only the plural",
  "claim": "C133"
 },
 {
  "file": "Model/EpisodeWords.lean",
  "definition": "formatPattern",
  "old": ".ok c!\"Minisode\"",
  "new": ".ok c!\"Minisodes\"",
  "edit": "plural value",
  "claim": "C133"
 },
 {
  "file": "Model/EpisodeWords.lean",
  "definition": "formatPattern",
  "old": "validateAll := true,\n    format := fun _ _ => .ok c!\"Minisode\", parentValid := surrounded",
  "new": "validateAll := true,\n    format := fun _ _ => .ok c!\"Minisode\", parentValid := fun _ _ => true",
  "edit": "not surrounded",
  "claim": "C133"
 },
 {
  "file": "Model/EpisodeWords.lean",
  "definition": "detailWords",
  "old": "c!\"Pilot\", c!\"Unaired\"",
  "new": "c!\"Pilot\"",
  "edit": "Unaired missed",
  "claim": "C133"
 },
 {
  "file": "Model/EpisodeWords.lean",
  "definition": "detailPattern",
  "old": "format := fun _ _ => .ok w",
  "new": "format := fun _ t => .ok t",
  "edit": "the text is reported",
  "claim": "C133"
 },
 {
  "file": "Model/Text.lean",
  "definition": "seps",
  "old": "+*|=-_~#/\\\\\\\\.,;:\"\n\n/-- `seps_no_groups`",
  "new": "+*|=-_~#/\\\\\\\\.,;\"\n\n/-- `seps_no_groups`",
  "edit": ": separates no words",
  "claim": "C134"
 },
 {
  "file": "Model/Text.lean",
  "definition": "sepsNoGroups",
  "old": "def sepsNoGroups : Str := c!\" +",
  "new": "def sepsNoGroups : Str := c!\" ]+",
  "edit": "a bracket left",
  "claim": "C134"
 },
 {
  "file": "Model/Text.lean",
  "definition": "sepsNoFs",
  "old": "c ≠ '/' ∧ c ≠ '\\\\'",
  "new": "c ≠ '/'",
  "edit": "backslash left",
  "claim": "C134"
 },
 {
  "file": "Model/Text.lean",
  "definition": "titleSeps",
  "old": "c!\"-+/\\\\|\"",
  "new": "c!\"-+/|\"",
  "edit": "backslash missed",
  "claim": "C134"
 },
 {
  "file": "Model/Text.lean",
  "definition": "stripSeps",
  "old": "stripChars seps s",
  "new": "stripChars sepsNoFs s",
  "edit": "slashes not stripped",
  "claim": "C05 and others"
 },
 {
  "file": "Model/Chain.lean",
  "definition": "EpisodeConfig.weak",
  "old": "!C.rangeSeparators.contains w",
  "new": "true",
  "edit": "range separators are weak separators",
  "claim": "C134"
 },
 {
  "file": "Model/Chain.lean",
  "definition": "EpisodeConfig.separators",
  "old": "C.discreteSeparators ++ C.weak ++ C.rangeSeparators",
  "new": "C.discreteSeparators ++ C.weak",
  "edit": "range separators missed",
  "claim": "C134"
 },
 {
  "file": "Model/Numeral.lean",
  "definition": "digitsValue",
  "old": "s.foldl (fun n c => n * 10 +",
  "new": "s.foldl (fun n c => n * 16 +",
  "edit": "base 16",
  "claim": "C134"
 },
 {
  "file": "Model/Date.lean",
  "definition": "azIgnoreCase",
  "old": "('A' ≤ c && c ≤ 'Z') || ",
  "new": "",
  "edit": "capital letters missed",
  "claim": "dates",
  "tightened": [
   "C28_seen",
   "Spec.MonthLetter"
  ]
 }
]