[
 {
  "file": "Model/Phrases.lean",
  "definition": "parseClass",
  "old": "some (.alt (.sym (.lit c.toLower)) p, r')",
  "new": "some (p, r')",
  "edit": "only the last character of a class counts",
  "claim": "C135-C140"
 },
 {
  "file": "Model/Phrases.lean",
  "definition": "Phrase.times",
  "old": "| n + 1 => .seq p (p.times n)",
  "new": "| n + 1 => .seq p (p.times (n-1))",
  "edit": "{n} repeats too few times",
  "claim": "C136"
 },
 {
  "file": "Model/Phrases.lean",
  "definition": "parseAlts",
  "old": "(.alt p x.1, x.2)",
  "new": "(.alt x.1 p, x.2)",
  "edit": "alternatives tried from the last",
  "claim": "C135"
 },
 {
  "file": "Model/Phrases.lean",
  "definition": "parseItem",
  "old": "some (.opt p, r)",
  "new": "some (p, r)",
  "edit": "? is ignored",
  "claim": "C135"
 },
 {
  "file": "Model/Phrases.lean",
  "definition": "Sym.is",
  "old": "| .dash, c => sepsNoFs.contains c",
  "new": "| .dash, c => seps.contains c",
  "edit": "the dash takes slashes too",
  "claim": "C135-C139"
 },
 {
  "file": "Model/Phrases.lean",
  "definition": "Sym.is",
  "old": "| .any, c => c != '\\n'",
  "new": "| .any, _ => true",
  "edit": "the dot takes line ends",
  "claim": "C135"
 },
 {
  "file": "Model/Phrases.lean",
  "definition": "Sym.is",
  "old": "| .lit l, c => E.same l c",
  "new": "| .lit l, c => l == c",
  "edit": "case is not ignored",
  "claim": "C135-C140"
 },
 {
  "file": "Model/Phrases.lean",
  "definition": "Phrase.re",
  "old": "| .opt a => .opt (a.re E)",
  "new": "| .opt a => .alt .eps (a.re E)",
  "edit": "? is lazy",
  "claim": "C135"
 },
 {
  "file": "Model/Phrases.lean",
  "definition": "Check.ok",
  "old": "| .apart => surrounded s m",
  "new": "| .apart => charsAfter seps s m.stop",
  "edit": "only what follows is looked at",
  "claim": "C135, C136"
 },
 {
  "file": "Model/Phrases.lean",
  "definition": "Check.ok",
  "old": "| .after => charsAfter seps s m.stop",
  "new": "| .after => true",
  "edit": "seps_after ignored",
  "claim": "C136"
 },
 {
  "file": "Model/Phrases.lean",
  "definition": "PhraseEntry.phrases",
  "old": "e.regexes.flatMap fun t",
  "new": "(e.regexes.drop 1).flatMap fun t",
  "edit": "the first expression of an entry is dropped",
  "claim": "C135-C139"
 },
 {
  "file": "Model/PhraseTables.lean",
  "definition": "editionTable",
  "old": "⟨[c!\"Special\"], [c!\"se\"], [], .apart⟩",
  "new": "⟨[c!\"Special\"], [c!\"se\"], [], .none⟩",
  "edit": "SE anywhere",
  "claim": "C135"
 },
 {
  "file": "Model/PhraseTables.lean",
  "definition": "editionTable",
  "old": "c!\"director'?s?-cut\", ",
  "new": "c!\"directors?-cut\", ",
  "edit": "the apostrophe is not taken",
  "claim": "C135"
 },
 {
  "file": "Model/PhraseTables.lean",
  "definition": "otherTable",
  "old": "c!\"Re-?Enc(?:oded)?\"",
  "new": "c!\"Re-?Encoded\"",
  "edit": "Reenc missed",
  "claim": "C136"
 },
 {
  "file": "Model/Forms.lean",
  "definition": "Form.re",
  "old": "| .grp n a => .grp n (a.re E)",
  "new": "| .grp _ a => a.re E",
  "edit": "groups do not capture",
  "claim": "C140"
 },
 {
  "file": "Model/Forms.lean",
  "definition": "Form.re",
  "old": ".look (.alt .eol (.chr fun c => !x.is E c))",
  "new": ".eps",
  "edit": "(?!E) ignored",
  "claim": "C140"
 },
 {
  "file": "Model/Forms.lean",
  "definition": "Form.re",
  "old": "| .ahead p => .look (p.re E)",
  "new": "| .ahead p => p.re E",
  "edit": "the lookahead takes what it sees",
  "claim": "C140, C137"
 },
 {
  "file": "Model/Forms.lean",
  "definition": "formAtom",
  "old": "names.idxOf (untilAngle r).1 + 1",
  "new": "names.idxOf (untilAngle r).1",
  "edit": "group numbers off by one",
  "claim": "C140"
 },
 {
  "file": "Model/Forms.lean",
  "definition": "formItem",
  "old": "some (.opt p, r)",
  "new": "some (p, r)",
  "edit": "? is ignored",
  "claim": "C140"
 },
 {
  "file": "Model/Forms.lean",
  "definition": "optionalText",
  "old": "++ pattern ++ c!\")?\"",
  "new": "++ pattern ++ c!\")\"",
  "edit": "the suffix is not optional",
  "claim": "C140"
 },
 {
  "file": "Model/Forms.lean",
  "definition": "FormEntry.groups",
  "old": "(n + 1, e.names[n]?.getD [])",
  "new": "(n + 1, e.names[0]?.getD [])",
  "edit": "every group has the first name",
  "claim": "C140"
 },
 {
  "file": "Model/Forms.lean",
  "definition": "FormEntry.pattern",
  "old": "((e.values.lookup name).getD [])",
  "new": "((e.values.lookup e.name).getD [])",
  "edit": "all the parts get the value of the source",
  "claim": "C140"
 },
 {
  "file": "Model/Forms.lean",
  "definition": "FormEntry.pattern",
  "old": "parentValid := valid",
  "new": "parentValid := fun _ _ => true",
  "edit": "not validated",
  "claim": "C140, C136"
 },
 {
  "file": "Model/Forms.lean",
  "definition": "formsFound",
  "old": "e.regexes.flatMap fun t",
  "new": "(e.regexes.take 1).flatMap fun t",
  "edit": "only the first expression of a declaration",
  "claim": "C140"
 },
 {
  "file": "Model/Forms.lean",
  "definition": "eitherSide",
  "old": "charsBefore seps s m.start ||",
  "new": "charsBefore seps s m.start &&",
  "edit": "both sides have to be free",
  "claim": "C140"
 },
 {
  "file": "Model/Forms.lean",
  "definition": "sourceText",
  "old": "pre ++ c!\"(\" ++ pattern ++ c!\")\" ++ suf",
  "new": "suf ++ c!\"(\" ++ pattern ++ c!\")\" ++ pre",
  "edit": "prefix and suffix swapped",
  "claim": "C140"
 },
 {
  "file": "Model/Forms.lean",
  "definition": "ripSuffix",
  "old": "c!\"-?(?P<other>Rip)\"",
  "new": "c!\"-(?P<other>Rip)\"",
  "edit": "Rip needs a separator before it",
  "claim": "C140"
 },
 {
  "file": "Model/Forms.lean",
  "definition": "sourceTable",
  "old": "([c!\"TV\"].map must)",
  "new": "([c!\"TV\"].map may)",
  "edit": "TV alone is a source",
  "claim": "C140"
 },
 {
  "file": "Model/Forms.lean",
  "definition": "sourceTable",
  "old": "c!\"TV-?(?=Dub)\"",
  "new": "c!\"TV-?Dub\"",
  "edit": "Dub belongs to the source",
  "claim": "C140"
 },
 {
  "file": "Model/Forms.lean",
  "definition": "sourceTable",
  "old": "c!\"DVD-?R(?:$|(?!E))\"",
  "new": "c!\"DVD-?R\"",
  "edit": "DVD-R before e",
  "claim": "C140"
 },
 {
  "file": "Model/Forms.lean",
  "definition": "sourceTable",
  "old": "(c!\"another\", c!\"Reencoded\")] ([c!\"(?P<another>BR)\"].map must)",
  "new": "(c!\"another\", c!\"Rip\")] ([c!\"(?P<another>BR)\"].map must)",
  "edit": "BRRip is twice ripped",
  "claim": "C140"
 },
 {
  "file": "Model/Forms.lean",
  "definition": "sourceTable",
  "old": "c!\"DSR?\"",
  "new": "c!\"DSR\"",
  "edit": "DSRip missed",
  "claim": "C140"
 },
 {
  "file": "Model/Forms.lean",
  "definition": "hdRipEntry",
  "old": "(c!\"another\", c!\"Rip\")], regexes",
  "new": "(c!\"another\", c!\"HD\")], regexes",
  "edit": "wrong value",
  "claim": "C136"
 },
 {
  "file": "Model/Forms.lean",
  "definition": "hdRipFound",
  "old": "formsFound E surrounded",
  "new": "formsFound E eitherSide",
  "edit": "one side suffices",
  "claim": "C136"
 },
 {
  "file": "Model/Forms.lean",
  "definition": "hevcEntry",
  "old": "(?P<video_codec>hevc)(?P<color_depth>10)",
  "new": "(?P<color_depth>hevc)(?P<video_codec>10)",
  "edit": "groups swapped",
  "claim": "C139"
 },
 {
  "file": "Model/Extras.lean",
  "definition": "dtsText",
  "old": "c!\"DTS(?=-?MA)\"",
  "new": "c!\"DTS(?=-MA)\"",
  "edit": "DTSMA missed",
  "claim": "C137"
 },
 {
  "file": "Model/Extras.lean",
  "definition": "dtsPattern",
  "old": ".ok c!\"DTS-HD\"",
  "new": ".ok c!\"DTS\"",
  "edit": "wrong value",
  "claim": "C137"
 },
 {
  "file": "Model/Extras.lean",
  "definition": "lamePattern",
  "old": "E.digits, dashRe, E.digits]",
  "new": "E.digits, dashRe, .opt E.digits]",
  "edit": "one digit is enough",
  "claim": "C137"
 },
 {
  "file": "Model/Extras.lean",
  "definition": "lamePattern",
  "old": "E.digits, dashRe, E.digits]",
  "new": "E.digits, E.digits]",
  "edit": "no separator in the number",
  "claim": "C137"
 },
 {
  "file": "Model/Extras.lean",
  "definition": "itFound",
  "old": "findAll c!\"iT\" s",
  "new": "findAll c!\"it\" s",
  "edit": "lower case",
  "claim": "C138"
 },
 {
  "file": "Model/Extras.lean",
  "definition": "repackRe",
  "old": ".grp 1 (.rep E.digit 0 none)",
  "new": ".grp 1 (.rep E.digit 1 none)",
  "edit": "the count is needed",
  "claim": "C136"
 },
 {
  "file": "Model/Extras.lean",
  "definition": "repackRe",
  "old": ".rep E.digit 0 none",
  "new": ".rep E.digit 0 (some 1)",
  "edit": "one digit only",
  "claim": "C136"
 },
 {
  "file": "Model/Extras.lean",
  "definition": "repackFound",
  "old": "(repackRe E w).hits s).filter fun h => sepsSurround s h.start h.stop",
  "new": "(repackRe E w).hits s).filter fun _ => true",
  "edit": "not validated",
  "claim": "C136"
 },
 {
  "file": "Model/Extras.lean",
  "definition": "repackFound",
  "old": "if a < b then",
  "new": "if a ≤ b then",
  "edit": "empty counts",
  "claim": "C136"
 },
 {
  "file": "Model/Extras.lean",
  "definition": "completeText",
  "old": "c!\"(?P<completeWordsAfter>-\" ++",
  "new": "c!\"(?P<completeWordsAfter>-?\" ++",
  "edit": "CompleteSeason too",
  "claim": "C136"
 },
 {
  "file": "Model/Extras.lean",
  "definition": "completeValid",
  "old": "(h.caps.lookup 2).isSome ||",
  "new": "(h.caps.lookup 2).isSome &&",
  "edit": "words on both sides needed",
  "claim": "C136"
 },
 {
  "file": "Model/Extras.lean",
  "definition": "completeValid",
  "old": "(h.caps.lookup 2).isSome || (h.caps.lookup 3).isSome",
  "new": "(h.caps.lookup 1).isSome || (h.caps.lookup 2).isSome || (h.caps.lookup 3).isSome",
  "edit": "an article is enough",
  "claim": "C136"
 },
 {
  "file": "Model/Extras.lean",
  "definition": "completeFound",
  "old": "c!\"series?\"",
  "new": "c!\"series\"",
  "edit": "serie missed",
  "claim": "C136"
 }
]