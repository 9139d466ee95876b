[
 {
  "file": "Model/Website.lean",
  "definition": "siteAround",
  "old": ".alt E.notAlnum .bol, .grp 1 body",
  "new": "E.notAlnum, .grp 1 body",
  "edit": "a website at the start of the name is not found",
  "claim": "C124"
 },
 {
  "file": "Model/Website.lean",
  "definition": "siteAround",
  "old": ".grp 1 body, .alt E.notAlnum .eol]",
  "new": ".grp 1 body]",
  "edit": "no boundary after a website",
  "claim": "C124"
 },
 {
  "file": "Model/Website.lean",
  "definition": "knownSite",
  "old": ".cat [.rep (E.wordDot C.subdomains) 1 none, .rep E.labelDot 1 none",
  "new": ".cat [.rep (E.wordDot C.subdomains) 0 none, .rep E.labelDot 1 none",
  "edit": "the subdomain is optional in the first pattern",
  "claim": "C124"
 },
 {
  "file": "Model/Website.lean",
  "definition": "knownSite",
  "old": ".rep E.labelDot 1 none, E.words C.tlds",
  "new": ".rep E.labelDot 1 none, E.words C.safeTlds",
  "edit": "safe extensions used in the first pattern",
  "claim": "C124"
 },
 {
  "file": "Model/Website.lean",
  "definition": "safeSite",
  "old": ".cat [.rep (E.wordDot C.subdomains) 0 none, E.labelDot, E.words C.safeTlds]",
  "new": ".cat [.rep (E.wordDot C.subdomains) 0 none, E.labelDot, E.words C.tlds]",
  "edit": "any extension accepted after a bare label",
  "claim": "C124"
 },
 {
  "file": "Model/Website.lean",
  "definition": "prefixedSite",
  "old": ".rep (E.wordDot C.prefixes) 1 none",
  "new": ".rep (E.wordDot C.prefixes) 0 none",
  "edit": "the safe prefix is optional",
  "claim": "C124"
 },
 {
  "file": "Model/Website.lean",
  "definition": "labelDot",
  "old": "(siteAlnum ++ c!\"-\")",
  "new": "siteAlnum",
  "edit": "no hyphen in labels",
  "claim": "C124"
 },
 {
  "file": "Model/Website.lean",
  "definition": "readTlds",
  "old": ".drop 1",
  "new": "",
  "edit": "the comment line of the file is kept",
  "claim": "C124"
 },
 {
  "file": "Model/Website.lean",
  "definition": "sitesFound",
  "old": "[E.knownSite C, E.safeSite C, E.prefixedSite C]",
  "new": "[E.knownSite C, E.safeSite C]",
  "edit": "third pattern forgotten",
  "claim": "C124"
 },
 {
  "file": "Model/Chain.lean",
  "definition": "Re.run",
  "old": "some (j, c) => ⟨i, j, c⟩ :: Re.run r s fuel j",
  "new": "some (j, c) => [⟨i, j, c⟩]",
  "edit": "the repeater matches once only",
  "claim": "C125, C127"
 },
 {
  "file": "Model/Chain.lean",
  "definition": "chainOf",
  "old": "first.re.run s (first.max.getD s.length - 1) h.stop",
  "new": "first.re.run s (first.max.getD s.length) h.stop",
  "edit": "the bound of the first repeater is one too large",
  "claim": "C127"
 },
 {
  "file": "Model/Chain.lean",
  "definition": "chainsFrom",
  "old": "chainsFrom s first rest fuel (lastStop b (chainOf s first rest ⟨a, b, c⟩))",
  "new": "[]",
  "edit": "only the first chain of a name is found",
  "claim": "C125"
 },
 {
  "file": "Model/Chain.lean",
  "definition": "defaultEpisodes",
  "old": "seasonMarkers := [c!\"s\"]",
  "new": "seasonMarkers := [c!\"e\"]",
  "edit": "wrong season marker",
  "claim": "C125"
 },
 {
  "file": "Model/Chain.lean",
  "definition": "seasonEpisode",
  "old": "dashRe, .grp 4 (E.words (C.episodeMarkers ++ C.discMarkers)), dashRe, .grp 2 E.digits]",
  "new": "dashRe, .grp 4 (E.words C.episodeMarkers), dashRe, .grp 2 E.digits]",
  "edit": "disc markers forgotten",
  "claim": "C125"
 },
 {
  "file": "Model/Chain.lean",
  "definition": "seasonEpisode",
  "old": ".grp 1 E.digits, dashRe, .grp 4 (E.words (C.e",
  "new": ".grp 1 E.digits, .grp 4 (E.words (C.e",
  "edit": "no separator between the season and the episode marker",
  "claim": "C125"
 },
 {
  "file": "Model/Chain.lean",
  "definition": "moreEpisodes",
  "old": ".grp 5 (E.words ws), .grp 2 E.digits]",
  "new": ".opt (.grp 5 (E.words ws)), .grp 2 E.digits]",
  "edit": "separator optional in lists",
  "claim": "C125"
 },
 {
  "file": "Model/Chain.lean",
  "definition": "crossed",
  "old": ".grp 1 E.digits, dashRe, .grp 4 (E.words C.seasonEpMarkers), dashRe, .grp 2 E.digits]",
  "new": ".grp 2 E.digits, dashRe, .grp 4 (E.words C.seasonEpMarkers), dashRe, .grp 1 E.digits]",
  "edit": "season and episode swapped",
  "claim": "C126"
 },
 {
  "file": "Model/Chain.lean",
  "definition": "first",
  "old": "| .seasons => ⟨E.seasonOnly C, some 1⟩",
  "new": "| .seasons => ⟨E.seasonOnly C, none⟩",
  "edit": "S01S02 matched by the first pattern (no season separator)",
  "claim": "C127"
 },
 {
  "file": "Model/Chain.lean",
  "definition": "rest",
  "old": "⟨E.moreEpisodes (C.episodeMarkers ++ C.discMarkers ++ C.separators), none⟩",
  "new": "⟨E.moreEpisodes (C.episodeMarkers ++ C.discMarkers ++ C.separators), some 1⟩",
  "edit": "at most one more episode",
  "claim": "C125"
 },
 {
  "file": "Model/Chain.lean",
  "definition": "rest",
  "old": "⟨E.moreEpisodes (C.episodeMarkers ++ C.discMarkers ++ C.separators), none⟩",
  "new": "⟨E.moreEpisodes (C.episodeMarkers ++ C.discMarkers), none⟩",
  "edit": "separators forgotten in lists of episodes",
  "claim": "C125"
 },
 {
  "file": "Model/Chain.lean",
  "definition": "rest",
  "old": "⟨E.moreSeasons (C.seasonMarkers ++ C.separators), none⟩",
  "new": "⟨E.moreSeasons (C.episodeMarkers ++ C.separators), none⟩",
  "edit": "S01E02 read as two seasons",
  "claim": "C127"
 },
 {
  "file": "Model/Chain.lean",
  "definition": "rest",
  "old": "[⟨E.extras, some 1⟩, ",
  "new": "[",
  "edit": "Extras forgotten",
  "claim": "C127"
 },
 {
  "file": "Model/Chain.lean",
  "definition": "groupNumber",
  "old": "pyInt E.u ((s.take x.2).drop x.1) with",
  "new": "pyInt E.u ((s.take x.2).drop (x.1 + 1)) with",
  "edit": "the first digit is not read",
  "claim": "C125"
 },
 {
  "file": "Model/Chain.lean",
  "definition": "brokenChain",
  "old": "chainBreaker C.episodeMax C.seasonMax",
  "new": "chainBreaker C.seasonMax C.episodeMax",
  "edit": "maxima swapped",
  "claim": "C125"
 },
 {
  "file": "Model/Chain.lean",
  "definition": "keepHits",
  "old": "if broken (acc ++ [h]) then keepHits broken acc hs",
  "new": "if broken (acc ++ [h]) then []",
  "edit": "a break empties the chain",
  "claim": "C125"
 },
 {
  "file": "Model/Chain.lean",
  "definition": "keepHits",
  "old": "if broken (acc ++ [h]) then keepHits broken acc hs else keepHits broken (acc ++ [h]) hs",
  "new": "keepHits broken (acc ++ [h]) hs",
  "edit": "chain breaker never consulted",
  "claim": "C125 (closeness)"
 },
 {
  "file": "Model/Chain.lean",
  "definition": "validChain",
  "old": "sepsSurround s h.start (lastStop h.start (h :: hs)) &&",
  "new": "sepsSurround s h.start h.stop &&",
  "edit": "only the first match must be surrounded",
  "claim": "C125"
 },
 {
  "file": "Model/Chain.lean",
  "definition": "validChain",
  "old": "sepsSurround s h.start (lastStop h.start (h :: hs)) &&",
  "new": "",
  "edit": "no surrounding separators asked",
  "claim": "C125"
 },
 {
  "file": "Model/Chain.lean",
  "definition": "validChain",
  "old": "(chainSeasons E s (h :: hs)) (chainEpisodes E s (h :: hs))",
  "new": "(chainSeasons E s (h :: hs)) (chainSeasons E s (h :: hs))",
  "edit": "order of episodes not checked",
  "claim": "C125 (order)"
 },
 {
  "file": "Model/Chain.lean",
  "definition": "trimChain",
  "old": "else trimChain valid r",
  "new": "else []",
  "edit": "an invalid chain is rejected at once",
  "claim": "C125_complete"
 },
 {
  "file": "Model/Chain.lean",
  "definition": "numbersOf",
  "old": "[(1, c!\"season\"), (2, c!\"episode\")]",
  "new": "[(2, c!\"season\"), (1, c!\"episode\")]",
  "edit": "names swapped",
  "claim": "C125"
 },
 {
  "file": "Model/Chain.lean",
  "definition": "extrasFound",
  "old": "h.caps.lookup 7",
  "new": "h.caps.lookup 1",
  "edit": "Extras at the place of the season",
  "claim": "C127"
 }
]