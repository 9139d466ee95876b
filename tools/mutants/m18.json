[
 {
  "file": "Model/Recognise.lean",
  "definition": "crcPattern",
  "old": ".rep (.chr hexChar) 8 (some 8)",
  "new": ".rep (.chr hexChar) 7 (some 8)",
  "edit": "{7,8} instead of {8}",
  "claim": "C113"
 },
 {
  "file": "Model/Recognise.lean",
  "definition": "hexChar",
  "old": "'a' ≤ c && c ≤ 'f'",
  "new": "'a' ≤ c && c ≤ 'g'",
  "edit": "g is a hex digit",
  "claim": "C113"
 },
 {
  "file": "Model/Recognise.lean",
  "definition": "crcPattern",
  "old": "format := rawText, parentValid := surrounded",
  "new": "format := rawText, parentValid := fun _ _ => true",
  "edit": "validator dropped",
  "claim": "C113"
 },
 {
  "file": "Model/Recognise.lean",
  "definition": "yearPattern",
  "old": ".rep E.digit 4 (some 4)",
  "new": ".rep E.digit 2 (some 4)",
  "edit": "{2,4}",
  "claim": "C114"
 },
 {
  "file": "Model/Recognise.lean",
  "definition": "yearPattern",
  "old": "format := fun _ => pyInt E.u, parentValid := fun s m => surrounded s m && valueIs validYear m,\n    childValid := fun s m => surrounded s m && valueIs validYear m }",
  "new": "format := fun _ => pyInt E.u, parentValid := fun _ m => valueIs validYear m,\n    childValid := fun s m => surrounded s m && valueIs validYear m }",
  "edit": "seps_surround dropped",
  "claim": "C114"
 },
 {
  "file": "Model/Recognise.lean",
  "definition": "weekPattern",
  "old": ".cat [E.words words, dashRe, .grp 1 (.rep E.digit 1 (some 2))]",
  "new": ".cat [E.words words, dashRe, .grp 1 (.rep E.digit 1 (some 3))]",
  "edit": "three digits",
  "claim": "C115"
 },
 {
  "file": "Model/Recognise.lean",
  "definition": "weekPattern",
  "old": "childValid := fun s m => surrounded s m && valueIs validWeek m }",
  "new": "childValid := fun s m => valueIs validWeek m }",
  "edit": "seps_surround dropped for the number",
  "claim": "C115"
 },
 {
  "file": "Model/Recognise.lean",
  "definition": "weekPattern",
  "old": ".cat [E.words words, dashRe, .grp 1",
  "new": ".cat [E.words words, .grp 1",
  "edit": "separator not allowed",
  "claim": "C115"
 },
 {
  "file": "Model/Recognise.lean",
  "definition": "bonusPattern",
  "old": ".cat [E.letter 'x', .grp 1 E.digits]",
  "new": ".cat [.opt (E.letter 'x'), .grp 1 E.digits]",
  "edit": "x optional",
  "claim": "C116"
 },
 {
  "file": "Model/Recognise.lean",
  "definition": "bonusPattern",
  "old": "name := c!\"bonus\", groups := [(1, c!\"bonus\")],\n    children := true, validateAll := true",
  "new": "name := c!\"bonus\", groups := [(1, c!\"bonus\")],\n    children := true, validateAll := false",
  "edit": "validate_all dropped",
  "claim": "C116"
 },
 {
  "file": "Model/Recognise.lean",
  "definition": "filmPattern",
  "old": ".cat [E.letter 'f', .grp 1 (.rep E.digit 1 (some 2))]",
  "new": ".cat [E.letter 'f', .grp 1 (.rep E.digit 1 none)]",
  "edit": "any number of digits",
  "claim": "C116"
 },
 {
  "file": "Model/Recognise.lean",
  "definition": "filmPattern",
  "old": "name := c!\"film\", groups := [(1, c!\"film\")],\n    children := true",
  "new": "name := c!\"film\", groups := [(1, c!\"film\")],\n    children := false",
  "edit": "the whole match is reported",
  "claim": "C116"
 },
 {
  "file": "Model/Recognise.lean",
  "definition": "underHundred",
  "old": "0 < n && n < 100",
  "new": "0 ≤ n && n < 100",
  "edit": "zero allowed",
  "claim": "C117"
 },
 {
  "file": "Model/Recognise.lean",
  "definition": "underHundred",
  "old": "0 < n && n < 100",
  "new": "0 < n && n ≤ 100",
  "edit": "100 allowed",
  "claim": "C117"
 },
 {
  "file": "Model/Recognise.lean",
  "definition": "cdPattern",
  "old": "groups := [(1, c!\"cd\"), (2, c!\"cd_count\")]",
  "new": "groups := [(2, c!\"cd\"), (1, c!\"cd_count\")]",
  "edit": "names swapped",
  "claim": "C117"
 },
 {
  "file": "Model/Recognise.lean",
  "definition": "cdPattern",
  "old": ".opt (.cat [dashRe, E.word c!\"of\", dashRe, .grp 2 E.digits])",
  "new": ".cat [dashRe, E.word c!\"of\", dashRe, .grp 2 E.digits]",
  "edit": "count required",
  "claim": "C117"
 },
 {
  "file": "Model/Recognise.lean",
  "definition": "cdCountPattern",
  "old": ".cat [.grp 1 E.digits, dashRe, E.word c!\"cd\"",
  "new": ".cat [.grp 1 E.digits, E.word c!\"cd\"",
  "edit": "separator not allowed",
  "claim": "C117"
 },
 {
  "file": "Model/Recognise.lean",
  "definition": "RxPattern.accepts",
  "old": "(P.kids s h).all (P.childValid s)",
  "new": "(P.kids s h).any (P.childValid s)",
  "edit": "one valid child is enough",
  "claim": "C117"
 },
 {
  "file": "Model/Recognise.lean",
  "definition": "RxPattern.accepts",
  "old": "((P.children && !P.validateAll) || P.parentValid s (P.parent s h))",
  "new": "(!P.validateAll || P.parentValid s (P.parent s h))",
  "edit": "the parent is validated only with validate_all",
  "claim": "C113 C114"
 },
 {
  "file": "Model/Recognise.lean",
  "definition": "RxPattern.kids",
  "old": "if a < b then some",
  "new": "if a ≤ b + 1 then some",
  "edit": "(equivalent here) empty groups reported",
  "claim": "C118"
 },
 {
  "file": "Model/Recognise.lean",
  "definition": "Re.hitsFrom",
  "old": "⟨a, b, c⟩ :: Re.hitsFrom r s fuel b",
  "new": "⟨a, b, c⟩ :: Re.hitsFrom r s fuel (b + 1)",
  "edit": "the scan skips a character after a match",
  "claim": "C113 (adjacent) C116"
 },
 {
  "file": "Model/Recognise.lean",
  "definition": "Re.hitsFrom",
  "old": "⟨a, b, c⟩ :: Re.hitsFrom r s fuel b",
  "new": "[⟨a, b, c⟩]",
  "edit": "only the first match",
  "claim": "C113"
 },
 {
  "file": "Model/Recognise.lean",
  "definition": "dashRe",
  "old": ".opt (.chr fun c => sepsNoFs.contains c)",
  "new": ".opt (.chr fun c => seps.contains c)",
  "edit": "slashes allowed",
  "claim": "C115 C117 C118"
 },
 {
  "file": "Model/Recognise.lean",
  "definition": "dashRe",
  "old": ".opt (.chr fun c => sepsNoFs.contains c)",
  "new": ".rep (.chr fun c => sepsNoFs.contains c) 0 none",
  "edit": "-* instead of -?",
  "claim": "C115 C117 C118"
 },
 {
  "file": "Model/Part.lean",
  "definition": "RxEnv.romanPlace",
  "old": ".rep (E.letter o) 0 (some 3)",
  "new": ".rep (E.letter o) 0 (some 4)",
  "edit": "IIII accepted",
  "claim": "C118"
 },
 {
  "file": "Model/Part.lean",
  "definition": "RxEnv.romanPlace",
  "old": ".alts [E.word [o, t], E.word [o, f],",
  "new": ".alts [E.word [o, f],",
  "edit": "IX not accepted",
  "claim": "C118"
 },
 {
  "file": "Model/Part.lean",
  "definition": "RxEnv.romanNumeral",
  "old": "E.romanPlace 'x' 'l' 'c', E.romanPlace 'i' 'v' 'x'",
  "new": "E.romanPlace 'x' 'l' 'c'",
  "edit": "units dropped",
  "claim": "C118"
 },
 {
  "file": "Model/Part.lean",
  "definition": "RxEnv.wordNumeral",
  "old": "englishWords ++ frenchWords ++ frenchAltWords",
  "new": "englishWords ++ frenchAltWords",
  "edit": "French list dropped",
  "claim": "C118"
 },
 {
  "file": "Model/Part.lean",
  "definition": "RxEnv.wordNumeral",
  "old": "englishWords ++ frenchWords ++ frenchAltWords",
  "new": "frenchWords ++ frenchAltWords ++ englishWords",
  "edit": "French first",
  "claim": "C118 (order harmless?)"
 },
 {
  "file": "Model/Part.lean",
  "definition": "RxEnv.numeral",
  "old": ".alts [.rep E.digit 1 (some 4), E.romanNumeral, E.wordNumeral]",
  "new": ".alts [.rep E.digit 1 (some 4), E.wordNumeral, E.romanNumeral]",
  "edit": "words before Roman numerals",
  "claim": "C118"
 },
 {
  "file": "Model/Part.lean",
  "definition": "RxEnv.numeral",
  "old": ".rep E.digit 1 (some 4)",
  "new": ".rep E.digit 1 (some 3)",
  "edit": "three digits",
  "claim": "C118"
 },
 {
  "file": "Model/Part.lean",
  "definition": "partPattern",
  "old": "(intCoercable E.u ((s.take m.stop).drop m.start) || surrounded s m)",
  "new": "surrounded s m",
  "edit": "part2 needs a separator",
  "claim": "C118"
 },
 {
  "file": "Model/Part.lean",
  "definition": "partPattern",
  "old": "(intCoercable E.u ((s.take m.stop).drop m.start) || surrounded s m) &&",
  "new": "",
  "edit": "partII accepted",
  "claim": "C118"
 },
 {
  "file": "Model/Part.lean",
  "definition": "partPattern",
  "old": "children := true, validateAll := true",
  "new": "children := true, validateAll := false",
  "edit": "parent not validated",
  "claim": "C118"
 },
 {
  "file": "Model/Part.lean",
  "definition": "partPattern",
  "old": "parseNumeral E.u t true true true true",
  "new": "parseNumeral E.u t true false true true",
  "edit": "Roman numerals not read",
  "claim": "C118"
 },
 {
  "file": "Model/Part.lean",
  "definition": "partPrefixes",
  "old": "[c!\"pt\", c!\"part\"]",
  "new": "[c!\"part\"]",
  "edit": "pt dropped",
  "claim": "C118"
 },
 {
  "file": "Model/Advanced.lean",
  "definition": "Detailed.advanced",
  "old": "(if d.raw.isEmpty then [] else [(.str c!\"raw\", .str d.raw)])",
  "new": "[(.str c!\"raw\", .str d.raw)]",
  "edit": "raw always reported",
  "claim": "C112"
 },
 {
  "file": "Model/Advanced.lean",
  "definition": "Detailed.advanced",
  "old": "(.str c!\"value\", d.value)",
  "new": "(.str c!\"value\", .str d.raw)",
  "edit": "raw as value",
  "claim": "C112"
 },
 {
  "file": "Model/Advanced.lean",
  "definition": "Detailed.advanced",
  "old": "[(.str c!\"start\", .int d.start), (.str c!\"end\", .int d.stop)]",
  "new": "[(.str c!\"start\", .int d.stop), (.str c!\"end\", .int d.start)]",
  "edit": "start and end swapped",
  "claim": "C112"
 },
 {
  "file": "Model/Advanced.lean",
  "definition": "Detailed.advanced",
  "old": "[(.str c!\"start\", .int d.start), (.str c!\"end\", .int d.stop)]",
  "new": "[(.str c!\"start\", .int d.start)]",
  "edit": "end dropped",
  "claim": "C112"
 },
 {
  "file": "Model/Advanced.lean",
  "definition": "Detailed.out",
  "old": "if details then { d.plain with value := d.advanced } else d.plain",
  "new": "{ d.plain with value := d.advanced }",
  "edit": "option ignored",
  "claim": "C112"
 },
 {
  "file": "Model/Advanced.lean",
  "definition": "toDictFull",
  "old": "toDict first enforce",
  "new": "toDict enforce first",
  "edit": "options swapped",
  "claim": "C112"
 },
 {
  "file": "Model/Advanced.lean",
  "definition": "encodeDetailed",
  "old": "| v => .ok v\n    match v",
  "new": "| _ => .ok .none\n    match v",
  "edit": "other values lost",
  "claim": "C112/C14"
 },
 {
  "file": "Model/Advanced.lean",
  "definition": "guessDetailed",
  "old": "truthy (opts.getD (.str c!\"advanced\"))",
  "new": "truthy (opts.getD (.str c!\"single_value\"))",
  "edit": "wrong option",
  "claim": "C112"
 }
]