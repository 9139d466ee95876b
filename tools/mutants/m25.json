[
 {
  "file": "Model/MoreChains.lean",
  "definition": "LooseChain.firstRe",
  "old": ".zero => .seq (.chr fun c => c == '0') (.grp 2 (digitsRe E.u 1 2))",
  "new": ".zero => .grp 2 (.seq (.chr fun c => c == '0') (digitsRe E.u 1 2))",
  "edit": "the zero is in the group",
  "claim": "C143: the chain reports nothing"
 },
 {
  "file": "Model/MoreChains.lean",
  "definition": "LooseChain.firstRe",
  "old": ".ep => .cat [E.word c!\"ep\", dashRe, .grp 2 (digitsRe E.u 1 4)]",
  "new": ".ep => .cat [.grp 4 (E.word c!\"ep\"), dashRe, .grp 2 (digitsRe E.u 1 4)]",
  "edit": "ep is in a group",
  "claim": "C144: ep need not begin a word; a separator before the number"
 },
 {
  "file": "Model/MoreChains.lean",
  "definition": "LooseChain.firstRe",
  "old": ".ep => .cat [E.word c!\"ep\", dashRe,",
  "new": ".ep => .cat [E.word c!\"ep\",",
  "edit": "no separator after ep",
  "claim": "C144"
 },
 {
  "file": "Model/MoreChains.lean",
  "definition": "LooseChain.firstRe",
  "old": "dashRe, .grp 2 (digitsRe E.u 1 4)]",
  "new": "dashRe, .grp 2 (digitsRe E.u 1 3)]",
  "edit": "three digits at most",
  "claim": "C144"
 },
 {
  "file": "Model/MoreChains.lean",
  "definition": "LooseChain.firstRe",
  "old": "dashRe, .grp 2 (digitsRe E.u 1 4)]",
  "new": "dashRe, .grp 1 (digitsRe E.u 1 4)]",
  "edit": "the number is a season",
  "claim": "C144"
 },
 {
  "file": "Model/MoreChains.lean",
  "definition": "LooseChain.firstRe",
  "old": ".cap => .cat [.grp 3 (E.word c!\"cap\"), dashRe,",
  "new": ".cap => .cat [E.word c!\"cap\", dashRe,",
  "edit": "cap is in no group",
  "claim": "C145: cap follows a separator"
 },
 {
  "file": "Model/MoreChains.lean",
  "definition": "LooseChain.firstRe",
  "old": ".grp 3 (E.word c!\"cap\"), dashRe, .grp 1 (digitsRe E.u 1 2)",
  "new": ".grp 3 (E.word c!\"cap\"), .grp 1 (digitsRe E.u 1 2)",
  "edit": "no separator after cap",
  "claim": "C145"
 },
 {
  "file": "Model/MoreChains.lean",
  "definition": "LooseChain.firstRe",
  "old": "c!\"cap\"), dashRe, .grp 1 (digitsRe E.u 1 2), .grp 2 (digitsRe E.u 2 2)]",
  "new": "c!\"cap\"), dashRe, .grp 2 (digitsRe E.u 1 2), .grp 1 (digitsRe E.u 2 2)]",
  "edit": "season and episode swapped",
  "claim": "C145"
 },
 {
  "file": "Model/MoreChains.lean",
  "definition": "LooseChain.firstRe",
  "old": "c!\"cap\"), dashRe, .grp 1 (digitsRe E.u 1 2), .grp 2 (digitsRe E.u 2 2)]",
  "new": "c!\"cap\"), dashRe, .grp 1 (digitsRe E.u 1 2), .grp 2 (digitsRe E.u 1 2)]",
  "edit": "the episode may have one digit",
  "claim": "C145: last two digits"
 },
 {
  "file": "Model/MoreChains.lean",
  "definition": "LooseChain.moreRe",
  "old": "[c!\"ep\", c!\"e\", c!\"x\", c!\"-\"]",
  "new": "[c!\"e\", c!\"x\", c!\"-\"]",
  "edit": "ep does not separate",
  "claim": "C144_list"
 },
 {
  "file": "Model/MoreChains.lean",
  "definition": "LooseChain.moreRe",
  "old": "(.grp 2 (digitsRe E.u 1 4))",
  "new": "(.grp 2 (digitsRe E.u 1 2))",
  "edit": "two digits in the list",
  "claim": "C144_list"
 },
 {
  "file": "Model/MoreChains.lean",
  "definition": "LooseChain.moreRe",
  "old": ".cat [.grp 5 (.chr fun c => sepsNoFs.contains c), .grp 1",
  "new": ".cat [.grp 5 (E.words [c!\"-\"]), .grp 1",
  "edit": "a dash only",
  "claim": "C145_pair"
 },
 {
  "file": "Model/MoreChains.lean",
  "definition": "LooseChain.moreRe",
  "old": ".cat [.grp 5 (.chr fun c => sepsNoFs.contains c), .grp 1",
  "new": ".cat [.grp 5 (.chr fun c => seps.contains c), .grp 1",
  "edit": "slashes too",
  "claim": "C145_sound: separator but a slash"
 },
 {
  "file": "Model/MoreChains.lean",
  "definition": "LooseChain.rest",
  "old": ".cap => [⟨LooseChain.cap.moreRe E, some 1⟩]",
  "new": ".cap => [⟨LooseChain.cap.moreRe E, none⟩]",
  "edit": "any number of more numbers",
  "claim": "C145_sound: at most two"
 },
 {
  "file": "Model/MoreChains.lean",
  "definition": "LooseChain.rest",
  "old": "[⟨E.versionRe, some 1⟩, ⟨k.moreRe E, none⟩]",
  "new": "[⟨k.moreRe E, none⟩, ⟨E.versionRe, some 1⟩]",
  "edit": "the version comes after the list",
  "claim": "C144_list"
 },
 {
  "file": "Model/MoreChains.lean",
  "definition": "LooseChain.rest",
  "old": "⟨k.moreRe E, none⟩",
  "new": "⟨k.moreRe E, some 1⟩",
  "edit": "one more number only",
  "claim": "C144_list"
 },
 {
  "file": "Model/MoreChains.lean",
  "definition": "nearSeparator",
  "old": "!(decide (y.2 < z.2.2) && decide (z.2.2 ≤ x.1))",
  "new": "true",
  "edit": "a group between separator and number does not matter",
  "claim": "C145_pair: whatever the separators"
 },
 {
  "file": "Model/MoreChains.lean",
  "definition": "nearSeparator",
  "old": "decide (y.2 < z.2.2)",
  "new": "decide (y.2 ≤ z.2.2)",
  "edit": "the separator hides itself",
  "claim": "C144_list? (weak separators are not checked)"
 },
 {
  "file": "Model/MoreChains.lean",
  "definition": "validLoose",
  "old": "(childStart h)",
  "new": "h.start",
  "edit": "the chain begins at its first match",
  "claim": "C143, C144"
 },
 {
  "file": "Model/MoreChains.lean",
  "definition": "validLoose",
  "old": "(lastStop h.stop hs)",
  "new": "h.stop",
  "edit": "the end is the end of the first match",
  "claim": "C144_sound"
 },
 {
  "file": "Model/MoreChains.lean",
  "definition": "validLoose",
  "old": "sepsSurround s (childStart h) (lastStop h.stop hs) &&",
  "new": "",
  "edit": "no separators needed",
  "claim": "C143"
 },
 {
  "file": "Model/MoreChains.lean",
  "definition": "validLoose",
  "old": "(nearNumbers E s 1 6 (h :: hs)) (nearNumbers E s 2 5 (h :: hs))",
  "new": "(nearNumbers E s 1 6 (h :: hs)) []",
  "edit": "episodes may decrease",
  "claim": "C145_decreasing"
 },
 {
  "file": "Model/MoreChains.lean",
  "definition": "validLoose",
  "old": "(nearNumbers E s 1 6 (h :: hs)) (nearNumbers E s 2 5 (h :: hs))",
  "new": "[] (nearNumbers E s 2 5 (h :: hs))",
  "edit": "seasons may decrease",
  "claim": "C145_decreasing"
 },
 {
  "file": "Model/MoreChains.lean",
  "definition": "LooseChain.kept",
  "old": "⟨k.firstRe E, some 1⟩",
  "new": "⟨k.firstRe E, none⟩",
  "edit": "the first pattern is repeated",
  "claim": "C145_sound, C144_sound"
 },
 {
  "file": "Model/MoreChains.lean",
  "definition": "LooseChain.kept",
  "old": "(keepHits (brokenChain E C s) [] hs).reverse",
  "new": "hs.reverse",
  "edit": "the chain breaker is not used",
  "claim": "C145_sound: not further apart"
 },
 {
  "file": "Model/MoreChains.lean",
  "definition": "LooseChain.kept",
  "old": "(keepHits (brokenChain E C s) [] hs).reverse",
  "new": "(keepHits (brokenChain E C s) [] hs)",
  "edit": "parts are given up from the front",
  "claim": "C144/C145"
 },
 {
  "file": "Model/MoreChains.lean",
  "definition": "LooseChain.versions",
  "old": "(h.caps.lookup 8)",
  "new": "(h.caps.lookup 2)",
  "edit": "versions are episodes",
  "claim": "C143_nothing kept; C144_sound_version"
 },
 {
  "file": "Model/SeasonWords.lean",
  "definition": "numeralPattern",
  "old": ".cat [E.words W.episodeWords, dashRe, .grp 2 E.numeral,",
  "new": ".cat [E.words W.episodeWords, .grp 2 E.numeral,",
  "edit": "no separator after the word",
  "claim": "C142_complete"
 },
 {
  "file": "Model/SeasonWords.lean",
  "definition": "numeralPattern",
  "old": ".grp 2 E.numeral, .opt E.versionRe,",
  "new": ".grp 2 E.numeral,",
  "edit": "versions are not read",
  "claim": "C142_complete"
 },
 {
  "file": "Model/SeasonWords.lean",
  "definition": "numeralPattern",
  "old": ", .opt (E.countRe W.ofWords)]",
  "new": "]",
  "edit": "counts are not read",
  "claim": "C142_complete"
 },
 {
  "file": "Model/SeasonWords.lean",
  "definition": "numeralPattern",
  "old": ".opt E.versionRe, .opt (E.countRe W.ofWords)]",
  "new": ".opt (E.countRe W.ofWords), .opt E.versionRe]",
  "edit": "count before version",
  "claim": "C142_complete"
 },
 {
  "file": "Model/SeasonWords.lean",
  "definition": "numeralPattern",
  "old": "parentValid := surrounded",
  "new": "parentValid := fun _ _ => true",
  "edit": "anywhere in a word",
  "claim": "C142_sound"
 },
 {
  "file": "Model/SeasonWords.lean",
  "definition": "numeralPattern",
  "old": "!(m.name == c!\"episode\") || validateRoman E s (m.start, m.stop)",
  "new": "true",
  "edit": "Roman numerals need no separators",
  "claim": "C142_sound"
 },
 {
  "file": "Model/SeasonWords.lean",
  "definition": "numeralPattern",
  "old": "!(m.name == c!\"episode\") || validateRoman E s (m.start, m.stop)",
  "new": "validateRoman E s (m.start, m.stop)",
  "edit": "versions and counts are validated too (always valid: digits)",
  "claim": "none: equivalent"
 },
 {
  "file": "Model/SeasonWords.lean",
  "definition": "numeralPattern",
  "old": "(8, c!\"version\"), (9, c!\"count\")]",
  "new": "(9, c!\"version\"), (8, c!\"count\")]",
  "edit": "version and count swapped",
  "claim": "C142"
 },
 {
  "file": "Model/SeasonWords.lean",
  "definition": "numeralPattern",
  "old": "if name = c!\"episode\" then parseNumeral E.u t true true true true else pyInt E.u t",
  "new": "pyInt E.u t",
  "edit": "numerals are read as integers",
  "claim": "C142_complete"
 }
]