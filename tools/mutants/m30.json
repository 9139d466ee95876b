[
 {
  "file": "Model/Declared.lean",
  "definition": "languageFamilies",
  "old": "      | .inl l => .obj (O.codes.language l)\n",
  "new": "      | .inl l => .obj (O.codes.language (l + 1))\n",
  "edit": "a language match has the number of another language",
  "claim": "C160"
 },
 {
  "file": "Model/Declared.lean",
  "definition": "countryFamilies",
  "old": "(textsOption g c!\"allowed_countries\") commonWords",
  "new": "(textsOption g c!\"allowed_languages\") commonWords",
  "edit": "countries are checked against the list of allowed languages",
  "claim": "C160"
 },
 {
  "file": "Model/Subtitles.lean",
  "definition": "suffixStep",
  "old": "removeMatch input l lang ++ [{ lang with name := some c!\"subtitle_language\" }]) else none",
  "new": "removeMatch input l lang ++ [{ lang with name := some c!\"subtitle_language\", val := none }]) else none",
  "edit": "a language renamed by its suffix loses its value",
  "claim": "C160"
 },
 {
  "file": "Model/Renamers.lean",
  "definition": "bitRateType",
  "old": "renameAll s.input c!\"video_bit_rate\" s.live",
  "new": "renameAll s.input c!\"size\" s.live",
  "edit": "a video bit rate is renamed to size",
  "claim": "C161"
 },
 {
  "file": "Model/Amounts.lean",
  "definition": "sizesFound",
  "old": ".size E.sizeUnit s",
  "new": ".size E.rateUnit s",
  "edit": "sizes are read with the units of bit rates",
  "claim": "C161"
 },
 {
  "file": "Model/Processors.lean",
  "definition": "enlargeEnd",
  "old": "rawStop := some (m'.rawB - 1) }]",
  "new": "rawStop := some m'.rawB }]",
  "edit": "the bracket that a match is enlarged over becomes part of its raw text, at the end",
  "claim": "C162"
 },
 {
  "file": "Model/Processors.lean",
  "definition": "enlargeStart",
  "old": "rawStart := some (m'.rawA + 1) }]",
  "new": "rawStart := some m'.rawA }]",
  "edit": "the bracket that a match is enlarged over becomes part of its raw text, at the start",
  "claim": "C162"
 },
 {
  "file": "Model/Processors.lean",
  "definition": "stripStartOnce",
  "old": "    if sepsNoGroups.contains c && (decide (raw.length < 3) || (raw[2]?)",
  "new": "    if sepsNoGroups.contains c || (decide (raw.length < 3) || (raw[2]?)",
  "edit": "the first character of a short match is stripped, separator or not",
  "claim": "C162"
 },
 {
  "file": "Model/Processors.lean",
  "definition": "stripEndOnce",
  "old": "    if sepsNoGroups.contains c && (decide (raw.length < 3) || (raw[raw.length - 3]?)",
  "new": "    if !sepsNoGroups.contains c && (decide (raw.length < 3) || (raw[raw.length - 3]?)",
  "edit": "the last character is stripped unless it is a separator",
  "claim": "C162"
 },
 {
  "file": "Model/Declared.lean",
  "definition": "othersDeclared",
  "old": "((weekPattern O.rx [c!\"week\"]).families MVal.int {",
  "new": "((weekPattern O.rx [c!\"week\"]).families (fun k => MVal.int (k + 1)) {",
  "edit": "weeks are counted from 0",
  "claim": "C162"
 },
 {
  "file": "Model/Families.lean",
  "definition": "RxPattern.families",
  "old": "priv := st.privateParent || st.priv, live := !P.children || st.privateParent }",
  "new": "priv := st.priv, live := !P.children || st.privateParent }",
  "edit": "the private parent of a number is not private",
  "claim": "C162"
 },
 {
  "file": "Model/Declared.lean",
  "definition": "othersDeclared",
  "old": "(cdPattern O.rx).families MVal.int (parentStyle none) s ++ (cdCountPattern O.rx).families",
  "new": "(cdPattern O.rx).families MVal.int {} s ++ (bonusPattern O.rx).families",
  "edit": "the count of discs is read by the pattern of bonuses",
  "claim": "C162"
 }
]