[
 {
  "file": "Model/Amounts.lean",
  "definition": "RxEnv.decimal",
  "old": ".cat [E.digits, .lit '.', E.digits]",
  "new": ".cat [E.digits, .lit ',', E.digits]",
  "edit": "comma instead of point",
  "claim": "C119"
 },
 {
  "file": "Model/Amounts.lean",
  "definition": "RxEnv.sizeUnit",
  "old": "E.oneOf c!\"mgt\"",
  "new": "E.oneOf c!\"mg\"",
  "edit": "TB not a unit",
  "claim": "C119"
 },
 {
  "file": "Model/Amounts.lean",
  "definition": "RxEnv.rateUnit",
  "old": ".opt (E.letter 's')",
  "new": "E.letter 's'",
  "edit": "bits, not bit",
  "claim": "C119"
 },
 {
  "file": "Model/Amounts.lean",
  "definition": "RxEnv.rateUnit",
  "old": "E.oneOf c!\"kmg\"",
  "new": "E.oneOf c!\"kmgt\"",
  "edit": "Tbps accepted",
  "claim": "C119"
 },
 {
  "file": "Model/Amounts.lean",
  "definition": "amountPattern",
  "old": ".cat [mag, dashRe, unit]",
  "new": ".cat [mag, unit]",
  "edit": "no separator between number and unit",
  "claim": "C119"
 },
 {
  "file": "Model/Amounts.lean",
  "definition": "amountPattern",
  "old": "parentValid := surrounded",
  "new": "parentValid := fun _ _ => true",
  "edit": "no validator",
  "claim": "C119"
 },
 {
  "file": "Model/Amounts.lean",
  "definition": "amountsFound",
  "old": "(amountPattern E cap fl name cls E.whole unit).found s ++ (amountPattern E cap fl name cls E.decimal unit).found s",
  "new": "(amountPattern E cap fl name cls E.whole unit).found s",
  "edit": "decimals not recognised",
  "claim": "C119"
 },
 {
  "file": "Model/Amounts.lean",
  "definition": "sizesFound",
  "old": "c!\"size\" .size E.sizeUnit",
  "new": "c!\"size\" .bitRate E.sizeUnit",
  "edit": "sizes parsed as bit rates",
  "claim": "C119"
 },
 {
  "file": "Model/Amounts.lean",
  "definition": "bitRatesFound",
  "old": "c!\"audio_bit_rate\"",
  "new": "c!\"video_bit_rate\"",
  "edit": "wrong property name",
  "claim": "C119"
 },
 {
  "file": "Model/Strings.lean",
  "definition": "StrPattern.at",
  "old": "findAll (u.lower w) (u.lower s)",
  "new": "findAll w s",
  "edit": "case sensitive",
  "claim": "C120"
 },
 {
  "file": "Model/Strings.lean",
  "definition": "StrPattern.at",
  "old": "stop := i + w.length, value",
  "new": "stop := i + w.length - 1, value",
  "edit": "last character left out of the span",
  "claim": "C120"
 },
 {
  "file": "Model/Strings.lean",
  "definition": "StrPattern.found",
  "old": "(P.words.flatMap (P.at u s)).filter (P.valid s)",
  "new": "P.words.flatMap (P.at u s)",
  "edit": "validator not called",
  "claim": "C120"
 },
 {
  "file": "Model/Strings.lean",
  "definition": "extensionPattern",
  "old": "E.words exts, .eol]",
  "new": "E.words exts]",
  "edit": "extension anywhere",
  "claim": "C121"
 },
 {
  "file": "Model/Strings.lean",
  "definition": "extensionPattern",
  "old": ".cat [.lit '.', E.words",
  "new": "  .cat [E.words",
  "edit": "no point before the extension",
  "claim": "C121"
 },
 {
  "file": "Model/Strings.lean",
  "definition": "extensionPattern",
  "old": ".ok (stripChars seps t)",
  "new": ".ok t",
  "edit": "the point stays in the value",
  "claim": "C121"
 },
 {
  "file": "Model/Strings.lean",
  "definition": "extensionsFound",
  "old": "(c!\"info\", m)) ++",
  "new": "(c!\"subtitle\", m)) ++",
  "edit": "info files tagged as subtitles",
  "claim": "C121"
 },
 {
  "file": "Model/Strings.lean",
  "definition": "extensionsFound",
  "old": "((extensionPattern E C.nzb).found s)",
  "new": "((extensionPattern E C.torrent).found s)",
  "edit": "nzb list forgotten",
  "claim": "C121"
 },
 {
  "file": "Model/Strings.lean",
  "definition": "namedPattern",
  "old": ".ok (u.lower t), valid",
  "new": ".ok t, valid",
  "edit": "value not in lower case",
  "claim": "C120"
 },
 {
  "file": "Model/Strings.lean",
  "definition": "namedFound",
  "old": "!(w == c!\"sub\" || w == c!\"ass\")",
  "new": "!(w == c!\"sub\")",
  "edit": "ass accepted as a word",
  "claim": "C120"
 },
 {
  "file": "Model/Strings.lean",
  "definition": "namedFound",
  "old": "C.subtitles.filter fun w => !(w == c!\"sub\" || w == c!\"ass\")",
  "new": "C.subtitles",
  "edit": "sub and ass accepted as words",
  "claim": "C120"
 },
 {
  "file": "Model/Strings.lean",
  "definition": "defaultContainers",
  "old": "c!\"mkv\", ",
  "new": "",
  "edit": "mkv not an extension",
  "claim": "C121"
 },
 {
  "file": "Model/Screen.lean",
  "definition": "RateEntry.re",
  "old": ".opt (.cat [.lit '.', .rep (.lit '0') 1 (some 3)])",
  "new": ".opt (.cat [.lit '.', .rep (.lit '0') 1 (some 2)])",
  "edit": "two decimals at most",
  "claim": "C122/C123"
 },
 {
  "file": "Model/Screen.lean",
  "definition": "RateEntry.re",
  "old": ".opt (.cat [.lit '.', .rep (.lit '0') 1 (some 3)])",
  "new": ".cat [.lit '.', .rep (.lit '0') 1 (some 3)]",
  "edit": "decimals required",
  "claim": "C122/C123"
 },
 {
  "file": "Model/Screen.lean",
  "definition": "RateEntry.re",
  "old": "[E.word n, .lit '.', E.word f]",
  "new": "[E.word n, E.word f]",
  "edit": "23976 instead of 23.976",
  "claim": "C122/C123"
 },
 {
  "file": "Model/Screen.lean",
  "definition": "defaultScreen",
  "old": "progressive := [c!\"360\",",
  "new": "progressive := [c!\"36\", c!\"360\",",
  "edit": "36 listed as a height",
  "claim": "C122: plain configuration"
 },
 {
  "file": "Model/Screen.lean",
  "definition": "RxEnv.times",
  "old": ".alt (E.letter 'x') (.lit '*')",
  "new": "E.letter 'x'",
  "edit": "* not accepted between width and height",
  "claim": "C122"
 },
 {
  "file": "Model/Screen.lean",
  "definition": "RxEnv.resolution",
  "old": ".opt (.cat [.grp 1 (.rep E.digit 3 (some 4)), E.times])",
  "new": ".opt (.cat [.grp 1 (.rep E.digit 2 (some 4)), E.times])",
  "edit": "two digits for the width",
  "claim": "C122"
 },
 {
  "file": "Model/Screen.lean",
  "definition": "RxEnv.resolution",
  "old": ".opt (.cat [.grp 1 (.rep E.digit 3 (some 4)), E.times])",
  "new": ".cat [.grp 1 (.rep E.digit 3 (some 4)), E.times]",
  "edit": "width required",
  "claim": "C122"
 },
 {
  "file": "Model/Screen.lean",
  "definition": "RxEnv.interlacedRe",
  "old": ".grp 2 (E.words C.interlaced)",
  "new": ".grp 2 (E.words C.progressive)",
  "edit": "progressive heights for interlaced sizes",
  "claim": "C122"
 },
 {
  "file": "Model/Screen.lean",
  "definition": "RxEnv.interlacedRe",
  "old": ".grp 3 (E.letter 'i')",
  "new": ".grp 3 (E.letter 'p')",
  "edit": "p for interlaced",
  "claim": "C122"
 },
 {
  "file": "Model/Screen.lean",
  "definition": "RxEnv.progressiveRe",
  "old": ".grp 3 (E.letter 'p'), .opt (E.rates C)]",
  "new": ".grp 3 (E.letter 'p'), E.rates C]",
  "edit": "frame rate required",
  "claim": "C122"
 },
 {
  "file": "Model/Screen.lean",
  "definition": "RxEnv.hdRe",
  "old": "E.word c!\"hd\"",
  "new": "E.word c!\"h\"",
  "edit": "h instead of hd",
  "claim": "C122"
 },
 {
  "file": "Model/Screen.lean",
  "definition": "RxEnv.looseRe",
  "old": ".opt (E.letter 'x')]",
  "new": "E.letter 'x']",
  "edit": "x required",
  "claim": "C122"
 },
 {
  "file": "Model/Screen.lean",
  "definition": "RxEnv.looseRe",
  "old": ".opt (.grp 3 (E.letter 'p')), .opt (E.letter 'x')",
  "new": ".opt (E.letter 'p'), .opt (E.letter 'x')",
  "edit": "scan type not captured",
  "claim": "C122: children"
 },
 {
  "file": "Model/Screen.lean",
  "definition": "RxEnv.pixelsRe",
  "old": "dashRe, E.times, dashRe,",
  "new": "E.times,",
  "edit": "no separators around x",
  "claim": "C122"
 },
 {
  "file": "Model/Screen.lean",
  "definition": "RxEnv.pixelsRe",
  "old": "dashRe, E.times, dashRe, .grp 2 (.rep E.digit 3 (some 4))",
  "new": "dashRe, E.times, dashRe, .grp 2 (.rep E.digit 3 (some 3))",
  "edit": "three digits for the height",
  "claim": "C122"
 },
 {
  "file": "Model/Screen.lean",
  "definition": "screenPattern",
  "old": "(1, c!\"width\"), (2, c!\"height\")",
  "new": "(2, c!\"width\"), (1, c!\"height\")",
  "edit": "width and height exchanged",
  "claim": "C122: children"
 },
 {
  "file": "Model/Screen.lean",
  "definition": "screenPattern",
  "old": "format := rawText, parentValid := surrounded",
  "new": "format := rawText, parentValid := fun _ _ => true",
  "edit": "no validator",
  "claim": "C122"
 },
 {
  "file": "Model/Screen.lean",
  "definition": "RxPattern.foundWithin",
  "old": "(P.parent s h, P.kids s h)",
  "new": "(P.parent s h, [])",
  "edit": "children lost",
  "claim": "C122"
 },
 {
  "file": "Model/Screen.lean",
  "definition": "screenRes",
  "old": "E.looseRe C, E.pixelsRe]",
  "new": "E.looseRe C]",
  "edit": "the last pattern is not registered",
  "claim": "C122"
 },
 {
  "file": "Model/Screen.lean",
  "definition": "ratePattern",
  "old": ".alt (E.letter 'p') (E.word c!\"fps\")",
  "new": "E.word c!\"fps\"",
  "edit": "p not accepted",
  "claim": "C123"
 },
 {
  "file": "Model/Screen.lean",
  "definition": "ratePattern",
  "old": "[E.rates C, dashRe, .alt",
  "new": "[E.rates C, .alt",
  "edit": "no separator",
  "claim": "C123"
 },
 {
  "file": "Model/Screen.lean",
  "definition": "ratePattern",
  "old": "fromString (qenv E cap fl) .frameRate t",
  "new": "fromString (qenv E cap fl) .size t",
  "edit": "parsed as a size",
  "claim": "C123"
 },
 {
  "file": "Model/Screen.lean",
  "definition": "ratePattern",
  "old": "format := fun _ t => fromString (qenv E cap fl) .frameRate t, parentValid := surrounded",
  "new": "format := fun _ t => fromString (qenv E cap fl) .frameRate t, parentValid := fun _ _ => true",
  "edit": "no validator",
  "claim": "C123"
 }
]