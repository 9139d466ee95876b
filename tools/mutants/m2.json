[
 {
  "file": "Model/Numeral.lean",
  "definition": "romanRe",
  "old": ".text c!\"CM\", .text c!\"CD\"",
  "new": ".text c!\"CM\"",
  "edit": "CD not recognised",
  "claim": "C25: 400 parses"
 },
 {
  "file": "Model/Numeral.lean",
  "definition": "romanRe",
  "old": "(.rep (.lit 'I') 0 (some 3))",
  "new": "(.rep (.lit 'I') 0 (some 4))",
  "edit": "IIII accepted",
  "claim": "C25: only valid numerals"
 },
 {
  "file": "Model/Numeral.lean",
  "definition": "romanRe",
  "old": ".look (.rep (.chr fun c => c!\"MCDLXVI\".contains c) 1 none),",
  "new": ".eps,",
  "edit": "empty text accepted as roman",
  "claim": "C25: only valid numerals"
 },
 {
  "file": "Model/Numeral.lean",
  "definition": "romanRe",
  "old": ".rep (.lit 'M') 0 (some 4)",
  "new": ".rep (.lit 'M') 0 (some 3)",
  "edit": "at most MMM",
  "claim": "C25: 4000..4999"
 },
 {
  "file": "Model/Numeral.lean",
  "definition": "romanRe",
  "old": "    .eol]",
  "new": "    .eps]",
  "edit": "no end anchor",
  "claim": "C25: only valid numerals"
 },
 {
  "file": "Model/Numeral.lean",
  "definition": "romanMap",
  "old": "(c!\"XL\", 40)",
  "new": "(c!\"XL\", 60)",
  "edit": "XL worth 60",
  "claim": "C25: value"
 },
 {
  "file": "Model/Numeral.lean",
  "definition": "romanMap",
  "old": "(c!\"M\", 1000), (c!\"CM\", 900)",
  "new": "(c!\"CM\", 900), (c!\"M\", 1000)",
  "edit": "table order of M and CM swapped (no observable effect?)",
  "claim": "C25: value"
 },
 {
  "file": "Model/Numeral.lean",
  "definition": "romanMap",
  "old": "(c!\"V\", 5), (c!\"IV\", 4), (c!\"I\", 1)",
  "new": "(c!\"V\", 5), (c!\"I\", 1), (c!\"IV\", 4)",
  "edit": "I eaten before IV",
  "claim": "C25: value"
 },
 {
  "file": "Model/Numeral.lean",
  "definition": "romanLoop",
  "old": "(acc + r.1 * k)",
  "new": "(acc + k)",
  "edit": "each symbol counted once",
  "claim": "C25: value"
 },
 {
  "file": "Model/Numeral.lean",
  "definition": "eat",
  "old": "if num.isPrefixOf s then",
  "new": "if num.isPrefixOf s ∧ s ≠ num then",
  "edit": "last occurrence not consumed",
  "claim": "C25: value"
 },
 {
  "file": "Model/Numeral.lean",
  "definition": "englishWords",
  "old": "c!\"twelve\", c!\"thirteen\"",
  "new": "c!\"thirteen\", c!\"twelve\"",
  "edit": "twelve and thirteen swapped",
  "claim": "C26: words",
  "tightened": [
   "C26_reading",
   "C26_words (independent word table in Spec)"
  ]
 },
 {
  "file": "Model/Numeral.lean",
  "definition": "frenchWords",
  "old": "c!\"dix-sept\", c!\"dix-huit\"",
  "new": "c!\"dix-huit\", c!\"dix-sept\"",
  "edit": "17 and 18 swapped",
  "claim": "C26: words",
  "tightened": [
   "C26_reading",
   "C26_words (independent word table in Spec)"
  ]
 },
 {
  "file": "Model/Numeral.lean",
  "definition": "frenchAltWords",
  "old": "c!\"zero\", c!\"une\"",
  "new": "c!\"une\"",
  "edit": "zero dropped from the list",
  "claim": "C26: words",
  "tightened": [
   "C26_reading",
   "C26_words (independent word table in Spec)"
  ]
 },
 {
  "file": "Model/Numeral.lean",
  "definition": "parseWord",
  "old": "[englishWords, frenchWords, frenchAltWords]",
  "new": "[englishWords, frenchWords]",
  "edit": "alternative list not searched",
  "claim": "C26: words"
 },
 {
  "file": "Model/Numeral.lean",
  "definition": "parseWordIn",
  "old": "(u.lower value)",
  "new": "value",
  "edit": "case not ignored",
  "claim": "C26: case-insensitive words"
 },
 {
  "file": "Model/Numeral.lean",
  "definition": "cleanRe",
  "old": ".grp 1 (.rep (.chr u.isDigit) 1 none)",
  "new": ".grp 1 (.rep (.chr u.isDigit) 1 (some 1))",
  "edit": "only the first digit",
  "claim": "C26: first digit run"
 },
 {
  "file": "Model/Numeral.lean",
  "definition": "intBody",
  "old": "acc * 10 + d",
  "new": "acc + d",
  "edit": "digits summed",
  "claim": "C26: integer value"
 },
 {
  "file": "Model/Numeral.lean",
  "definition": "pyInt",
  "old": "fun n : Nat => -(n : Int)",
  "new": "fun n : Nat => (n : Int)",
  "edit": "sign lost",
  "claim": "C26: integer value",
  "tightened": [
   "C26_signed (added)"
  ]
 },
 {
  "file": "Model/Numeral.lean",
  "definition": "numeralInt",
  "old": "(s.take b).drop a",
  "new": "(s.take b).drop (a + 1)",
  "edit": "first digit lost",
  "claim": "C26: first digit run"
 },
 {
  "file": "Model/Numeral.lean",
  "definition": "parseNumeral",
  "old": "(if romanEnabled then numeralRoman u clean value else none)",
  "new": "(if wordEnabled then numeralRoman u clean value else none)",
  "edit": "wrong flag guards roman",
  "claim": "C26: flags"
 },
 {
  "file": "Model/Numeral.lean",
  "definition": "parseNumeral",
  "old": "(if intEnabled then numeralInt u clean value else none)",
  "new": "(numeralInt u clean value)",
  "edit": "int flag ignored",
  "claim": "C26: flags"
 },
 {
  "file": "Model/Numeral.lean",
  "definition": "numeralRoman",
  "old": "parseRoman (u.upper w)",
  "new": "parseRoman w",
  "edit": "words not uppercased",
  "claim": "C26: roman ignoring case"
 },
 {
  "file": "Model/Numeral.lean",
  "definition": "splitFrom",
  "old": "(if cur.isEmpty then splitFrom u [] s else cur.reverse :: splitFrom u [] s)",
  "new": "(if cur.isEmpty then splitFrom u [] s else cur :: splitFrom u [] s)",
  "edit": "word not reversed",
  "claim": "C26: words"
 },
 {
  "file": "Model/Numeral.lean",
  "definition": "firstOk",
  "old": "| .error _ => firstOk f ws",
  "new": "| .error _ => none",
  "edit": "stops at the first failing word",
  "claim": "C26: first parsable word"
 },
 {
  "file": "Model/Date.lean",
  "definition": "validYear",
  "old": "year < 2030",
  "new": "year ≤ 2030",
  "edit": "2030 accepted",
  "claim": "C27/C28: year range"
 },
 {
  "file": "Model/Date.lean",
  "definition": "validYear",
  "old": "1920 ≤ year",
  "new": "1900 ≤ year",
  "edit": "1900 accepted",
  "claim": "C27/C28: year range"
 },
 {
  "file": "Model/Date.lean",
  "definition": "validWeek",
  "old": "week < 53",
  "new": "week ≤ 53",
  "edit": "week 53 accepted",
  "claim": "C27: week range",
  "tightened": [
   "C27_week"
  ]
 },
 {
  "file": "Model/Date.lean",
  "definition": "validWeek",
  "old": "1 ≤ week",
  "new": "0 ≤ week",
  "edit": "week 0 accepted",
  "claim": "C27: week range",
  "tightened": [
   "C27_week"
  ]
 },
 {
  "file": "Model/Date.lean",
  "definition": "tryParses",
  "old": "if validYear date.year then .ok (some date) else tryParses parse text rest",
  "new": ".ok (some date)",
  "edit": "year not checked",
  "claim": "C28: year in range"
 },
 {
  "file": "Model/Date.lean",
  "definition": "beforeRe",
  "old": ".alt .bol (.chr fun c => !u.isDigit c)",
  "new": ".alt .bol .eps",
  "edit": "digit before allowed",
  "claim": "C28: span not preceded by a digit"
 },
 {
  "file": "Model/Date.lean",
  "definition": "afterRe",
  "old": ".alt .eol (.chr fun c => !u.isDigit c)",
  "new": ".alt .eol .eps",
  "edit": "digit after allowed",
  "claim": "C28: span not followed by a digit"
 },
 {
  "file": "Model/Date.lean",
  "definition": "dateRegexps",
  "old": "(compactRe u 8, 2), (compactRe u 6, 2)",
  "new": "(compactRe u 8, 2), (compactRe u 5, 2)",
  "edit": "five digits accepted",
  "claim": "C28: shapes"
 },
 {
  "file": "Model/Date.lean",
  "definition": "wordedRe",
  "old": ".rep (.chr azIgnoreCase) 3 (some 10)",
  "new": ".rep (.chr azIgnoreCase) 0 (some 10)",
  "edit": "month word may be empty",
  "claim": "C28: shapes"
 },
 {
  "file": "Model/Date.lean",
  "definition": "guessDayFirst",
  "old": "(intTest u f (f.take 4) validYear, false)",
  "new": "(intTest u f (f.take 4) validYear, true)",
  "edit": "year-first read day-first",
  "claim": "C51"
 },
 {
  "file": "Model/Date.lean",
  "definition": "guessDayFirst",
  "old": "(intTest u l (lastN 4 l) validYear, true)",
  "new": "(intTest u l (lastN 4 l) validYear, false)",
  "edit": "year-last read month-first",
  "claim": "C51"
 },
 {
  "file": "Model/Date.lean",
  "definition": "dayFirstFor",
  "old": "if yearFirst = some true ∧ dayFirst = none then some false else dayFirst",
  "new": "dayFirst",
  "edit": "year-first does not imply day-first off",
  "claim": "C51/C28"
 },
 {
  "file": "Model/Date.lean",
  "definition": "kwargsList",
  "old": "| none => [true, false] | some d => [d]",
  "new": "| none => [true, false] | some d => [d, !d]",
  "edit": "other reading also tried",
  "claim": "C28: the given flags are used"
 },
 {
  "file": "Model/Date.lean",
  "definition": "searchDateLoop",
  "old": "| .ok none => searchDateLoop u parse s yearFirst rest df",
  "new": "| .ok none => searchDateLoop u parse s yearFirst rest dayFirst",
  "edit": "(repair of the leak)",
  "claim": "C51: the leak disappears, so the counterexample must fail"
 },
 {
  "file": "Model/Date.lean",
  "definition": "searchDateLoop",
  "old": ".ok (some (a, b, date))",
  "new": ".ok (some (a, b + 1, date))",
  "edit": "span one too long",
  "claim": "C28: span"
 },
 {
  "file": "Model/Date.lean",
  "definition": "tryParses",
  "old": "| .error .typeError => tryParses parse text rest",
  "new": "| .error .typeError => .error .typeError",
  "edit": "TypeError escapes",
  "claim": "C28: parser failures are absorbed"
 },
 {
  "file": "Model/Quantity.lean",
  "definition": "quantityRe",
  "old": "(.cat [.lit '.', .rep (.chr u.isDigit) 1 none])",
  "new": "(.cat [.lit ',', .rep (.chr u.isDigit) 1 none])",
  "edit": "decimal comma",
  "claim": "C29/C30: decimals"
 },
 {
  "file": "Model/Quantity.lean",
  "definition": "parseUnits",
  "old": "env.u.upper (stripChars seps value)",
  "new": "stripChars seps value",
  "edit": "units not uppercased",
  "claim": "C30: units form"
 },
 {
  "file": "Model/Quantity.lean",
  "definition": "parseUnits",
  "old": "replaceText c!\"bit\" c!\"bps\" (replaceText c!\"bits\" c!\"bps\"",
  "new": "replaceText c!\"bits\" c!\"bps\" (replaceText c!\"bit\" c!\"bps\"",
  "edit": "replacement order swapped",
  "claim": "C30: Mbits becomes Mbps"
 },
 {
  "file": "Model/Quantity.lean",
  "definition": "parseUnits",
  "old": ".frameRate, _ => .ok c!\"fps\"",
  "new": ".frameRate, _ => .ok c!\"Fps\"",
  "edit": "Fps",
  "claim": "C30: frame rate unit"
 },
 {
  "file": "Model/Quantity.lean",
  "definition": "natTextF",
  "old": "[digitChar (n % 10)]",
  "new": "[digitChar (n / 10)]",
  "edit": "wrong digit",
  "claim": "C30: round trip"
 },
 {
  "file": "Model/Quantity.lean",
  "definition": "natTextF",
  "old": "if n < 10",
  "new": "if n ≤ 10",
  "edit": "10 printed as one character",
  "claim": "C30: round trip"
 },
 {
  "file": "Model/Quantity.lean",
  "definition": "Quantity.text",
  "old": "q.magnitude.text ++ q.units",
  "new": "q.units ++ q.magnitude.text",
  "edit": "units first",
  "claim": "C30: round trip"
 },
 {
  "file": "Model/Quantity.lean",
  "definition": "QObj.eq",
  "old": "| .qty q, .str s => q.text = s",
  "new": "| .qty q, .str s => q.units = s",
  "edit": "compares units only",
  "claim": "C29: equality with text"
 },
 {
  "file": "Model/Quantity.lean",
  "definition": "QObj.eq",
  "old": "a.cls = b.cls && a.magnitude",
  "new": "a.magnitude",
  "edit": "class ignored",
  "claim": "C29: different classes differ"
 },
 {
  "file": "Model/Quantity.lean",
  "definition": "QObj.eq",
  "old": "&& a.units = b.units",
  "new": "",
  "edit": "units ignored",
  "claim": "C29: equality"
 },
 {
  "file": "Model/Quantity.lean",
  "definition": "QObj.hash",
  "old": "| .qty q => hashStr q.text",
  "new": "| .qty q => hashStr q.units",
  "edit": "hash of units only",
  "claim": "C29: hash agrees with equality to text"
 },
 {
  "file": "Model/Quantity.lean",
  "definition": "intText",
  "old": "if n < 0 then '-' :: natText n.natAbs else natText n.natAbs",
  "new": "natText n.natAbs",
  "edit": "sign lost",
  "claim": "C30: text of negative magnitudes (unreachable by parsing)",
  "tightened": [
   "C29_text_faithful (added)"
  ]
 },
 {
  "file": "Model/Regex.lean",
  "definition": "repExec",
  "old": "((step i c).filter fun r => decide (r.1 ≠ i)).flatMap (fun r => repExec step f (m - 1) r.1 r.2) ++\n      (if m = 0 then [(i, c)] else [])",
  "new": "(if m = 0 then [(i, c)] else []) ++\n      ((step i c).filter fun r => decide (r.1 ≠ i)).flatMap (fun r => repExec step f (m - 1) r.1 r.2)",
  "edit": "lazy repetition",
  "claim": "C25/C30: greedy repetition"
 },
 {
  "file": "Model/Regex.lean",
  "definition": "Re.exec",
  "old": "(i + 1 = s.length ∧ s[i]? = some '\\n')",
  "new": "False",
  "edit": "$ only at the very end",
  "claim": "C25: trailing newline"
 }
]