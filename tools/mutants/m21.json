[
 {
  "file": "Model/Chain.lean",
  "definition": "versionRe",
  "old": ".cat [E.letter 'v', .grp 8 E.digits]",
  "new": ".cat [.opt (E.letter 'v'), .grp 8 E.digits]",
  "edit": "a version needs no v",
  "claim": "C128"
 },
 {
  "file": "Model/Chain.lean",
  "definition": "versionRe",
  "old": ".cat [E.letter 'v', .grp 8 E.digits]",
  "new": ".cat [E.letter 'v', .grp 8 (digitsRe E.u 1 1)]",
  "edit": "a version has one digit",
  "claim": "C128"
 },
 {
  "file": "Model/Chain.lean",
  "definition": "Numbering.firstRe",
  "old": "| .two => .grp 2 (digitsRe E.u 2 2)",
  "new": "| .two => .grp 2 (digitsRe E.u 1 2)",
  "edit": "one digit is read as an episode by the chain 12",
  "claim": "C128"
 },
 {
  "file": "Model/Chain.lean",
  "definition": "Numbering.firstRe",
  "old": "| .long => .grp 2 (digitsRe E.u 3 4)",
  "new": "| .long => .grp 2 (digitsRe E.u 3 3)",
  "edit": "four digits are not read as an episode",
  "claim": "C128"
 },
 {
  "file": "Model/Chain.lean",
  "definition": "Numbering.firstRe",
  "old": "| .one => .grp 2 (digitsRe E.u 1 1)",
  "new": "| .one => .grp 2 (digitsRe E.u 1 2)",
  "edit": "two digits are read by the chain 1",
  "claim": "C128"
 },
 {
  "file": "Model/Chain.lean",
  "definition": "Numbering.firstRe",
  "old": ".opt (.grp 1 (digitsRe E.u 1 2)), .grp 4",
  "new": ".grp 1 (digitsRe E.u 1 2), .grp 4",
  "edit": "the season before e is required",
  "claim": "C128"
 },
 {
  "file": "Model/Chain.lean",
  "definition": "Numbering.firstRe",
  "old": ".grp 4 (E.word c!\"e\"), .grp 2 (digitsRe E.u 1 4)]",
  "new": ".grp 4 (E.word c!\"x\"), .grp 2 (digitsRe E.u 1 4)]",
  "edit": "x rather than e marks the episode",
  "claim": "C128"
 },
 {
  "file": "Model/Chain.lean",
  "definition": "Numbering.firstRe",
  "old": ".seq (.grp 1 (digitsRe E.u 1 2)) (.grp 2 (digitsRe E.u 2 2))",
  "new": ".seq (.grp 2 (digitsRe E.u 1 2)) (.grp 1 (digitsRe E.u 2 2))",
  "edit": "102 is read with season and episode swapped",
  "claim": "C128"
 },
 {
  "file": "Model/Chain.lean",
  "definition": "Numbering.firstRe",
  "old": ".seq (.grp 1 (digitsRe E.u 1 2)) (.grp 2 (digitsRe E.u 2 2))",
  "new": ".seq (.grp 1 (digitsRe E.u 1 2)) (.grp 2 (digitsRe E.u 1 2))",
  "edit": "the episode of 102 has one or two digits",
  "claim": "C128"
 },
 {
  "file": "Model/Chain.lean",
  "definition": "Numbering.words",
  "old": "| .marked => [c!\"e\", c!\"x\", c!\"-\"]",
  "new": "| .marked => [c!\"x\", c!\"-\"]",
  "edit": "e does not join two episodes",
  "claim": "C128",
  "tightened": [
   "C128_list",
   "C128_sound"
  ]
 },
 {
  "file": "Model/Chain.lean",
  "definition": "Numbering.words",
  "old": "| _ => [c!\"x\", c!\"-\"]",
  "new": "| _ => [c!\"x\"]",
  "edit": "a dash does not join two numbers",
  "claim": "C128"
 },
 {
  "file": "Model/Chain.lean",
  "definition": "Numbering.least",
  "old": "  | .two => 2\n  | .long => 3\n",
  "new": "  | .two => 1\n  | .long => 3\n",
  "edit": "12-3 is read as a list",
  "claim": "C128",
  "tightened": [
   "C128_list",
   "C128_sound"
  ]
 },
 {
  "file": "Model/Chain.lean",
  "definition": "Numbering.most",
  "old": "  | .one => 2\n",
  "new": "  | .one => 1\n",
  "edit": "1-12 is not read as a list",
  "claim": "C128",
  "tightened": [
   "C128_list",
   "C128_sound"
  ]
 },
 {
  "file": "Model/Chain.lean",
  "definition": "Numbering.most",
  "old": "  | .long => 4\n",
  "new": "  | .long => 3\n",
  "edit": "112-1130 is not read as a list",
  "claim": "C128",
  "tightened": [
   "C128_list",
   "C128_sound"
  ]
 },
 {
  "file": "Model/Chain.lean",
  "definition": "Numbering.moreRe",
  "old": ".seq (.grp 5 (E.words k.words)) (.grp 2 (digitsRe E.u k.least k.most))",
  "new": ".seq (.grp 5 (E.words k.words)) (.grp 1 (digitsRe E.u k.least k.most))",
  "edit": "the other numbers are read as seasons",
  "claim": "C128"
 },
 {
  "file": "Model/Chain.lean",
  "definition": "EpisodeChain.rest",
  "old": "| .numbers k => [⟨E.versionRe, some 1⟩, ⟨k.moreRe E, none⟩]",
  "new": "| .numbers k => [⟨k.moreRe E, none⟩]",
  "edit": "no version is read",
  "claim": "C128"
 },
 {
  "file": "Model/Chain.lean",
  "definition": "EpisodeChain.rest",
  "old": "| .numbers k => [⟨E.versionRe, some 1⟩, ⟨k.moreRe E, none⟩]",
  "new": "| .numbers k => [⟨E.versionRe, some 1⟩, ⟨k.moreRe E, some 1⟩]",
  "edit": "at most two numbers are read",
  "claim": "C128"
 },
 {
  "file": "Model/Chain.lean",
  "definition": "EpisodeChain.rest",
  "old": "| .numbers k => [⟨E.versionRe, some 1⟩, ⟨k.moreRe E, none⟩]",
  "new": "| .numbers k => [⟨k.moreRe E, none⟩, ⟨E.versionRe, some 1⟩]",
  "edit": "the version is after the list",
  "claim": "C128"
 },
 {
  "file": "Model/Chain.lean",
  "definition": "EpisodeChain.first",
  "old": "| .numbers k => ⟨k.firstRe E, some 1⟩",
  "new": "| .numbers k => ⟨k.firstRe E, none⟩",
  "edit": "the first number may be repeated",
  "claim": "C128"
 },
 {
  "file": "Model/Chain.lean",
  "definition": "EpisodeChain.versions",
  "old": "(h.caps.lookup 8).map fun x => { name := c!\"version\"",
  "new": "(h.caps.lookup 2).map fun x => { name := c!\"version\"",
  "edit": "the episode is reported as the version",
  "claim": "C128"
 }
]