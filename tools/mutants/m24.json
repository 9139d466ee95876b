[
 {
  "file": "Model/SeasonWords.lean",
  "definition": "seasonWords",
  "old": "c!\"seasons\", ",
  "new": "",
  "edit": "the word seasons is not in the list: Seasons 1-3 is missed (read as season + s)",
  "claim": "C141 (list/complete quantify over the list: this is a configuration edit)"
 },
 {
  "file": "Model/SeasonWords.lean",
  "definition": "RxEnv.plainNumeral",
  "old": ".rep E.digit 1 (some 4)",
  "new": ".rep E.digit 1 (some 3)",
  "edit": "three digits at most",
  "claim": "C141: a four-digit season"
 },
 {
  "file": "Model/SeasonWords.lean",
  "definition": "RxEnv.plainNumeral",
  "old": ".rep E.digit 1 (some 4)",
  "new": ".rep E.digit 1 none",
  "edit": "any number of digits",
  "claim": "C141: at most four digits"
 },
 {
  "file": "Model/SeasonWords.lean",
  "definition": "RxEnv.plainNumeral",
  "old": "E.romanNumeral, ",
  "new": "",
  "edit": "Roman numerals are not read",
  "claim": "C141"
 },
 {
  "file": "Model/SeasonWords.lean",
  "definition": "RxEnv.plainNumeral",
  "old": "[.rep E.digit 1 (some 4), E.romanNumeral, E.words (englishWords ++ frenchWords ++ frenchAltWords)]",
  "new": "[.rep E.digit 1 (some 4), E.words (englishWords ++ frenchWords ++ frenchAltWords), E.romanNumeral]",
  "edit": "number words before Roman numerals",
  "claim": "C141_words_exception"
 },
 {
  "file": "Model/SeasonWords.lean",
  "definition": "RxEnv.plainNumeral",
  "old": "E.words (englishWords ++ frenchWords ++ frenchAltWords)",
  "new": "E.words englishWords",
  "edit": "French words are not read",
  "claim": "C141"
 },
 {
  "file": "Model/SeasonWords.lean",
  "definition": "RxEnv.seasonWord",
  "old": ".cat [.grp 3 (E.words ws), dashRe, .grp 1 E.plainNumeral]",
  "new": ".cat [.grp 3 (E.words ws), .grp 1 E.plainNumeral]",
  "edit": "no separator between word and numeral",
  "claim": "C141"
 },
 {
  "file": "Model/SeasonWords.lean",
  "definition": "RxEnv.ofCount",
  "old": ".cat [E.words ws, dashRe, .grp 9 E.plainNumeral]",
  "new": ".cat [E.words ws, .grp 9 E.plainNumeral]",
  "edit": "no separator after of",
  "claim": "C141_count"
 },
 {
  "file": "Model/SeasonWords.lean",
  "definition": "RxEnv.ofCount",
  "old": ".grp 9 E.plainNumeral",
  "new": ".grp 1 E.plainNumeral",
  "edit": "the count is a season",
  "claim": "C141_count"
 },
 {
  "file": "Model/SeasonWords.lean",
  "definition": "RxEnv.nextSeason",
  "old": ".cat [dashRe, .grp 6",
  "new": ".cat [.grp 6",
  "edit": "no separator before the word between seasons",
  "claim": "C141_list"
 },
 {
  "file": "Model/SeasonWords.lean",
  "definition": "RxEnv.nextSeason",
  "old": "C.rangeSeparators ++ (C.discreteSeparators ++ C.weak)",
  "new": "C.rangeSeparators ++ C.weak",
  "edit": "& and + do not separate seasons",
  "claim": "C141_list"
 },
 {
  "file": "Model/SeasonWords.lean",
  "definition": "RxEnv.nextSeason",
  "old": "dashRe, .grp 1 E.digits]",
  "new": ".grp 1 E.digits]",
  "edit": "no separator after the word between seasons",
  "claim": "C141_list"
 },
 {
  "file": "Model/SeasonWords.lean",
  "definition": "RxEnv.nextSeason",
  "old": ".grp 1 E.digits",
  "new": ".grp 1 E.plainNumeral",
  "edit": "Roman numerals in the list",
  "claim": "C141_sound"
 },
 {
  "file": "Model/SeasonWords.lean",
  "definition": "wordedValue",
  "old": "parseNumeral E.u ((s.take x.2).drop x.1) true true true true",
  "new": "parseNumeral E.u ((s.take x.2).drop x.1) true false true true",
  "edit": "Roman numerals are not parsed",
  "claim": "C141"
 },
 {
  "file": "Model/SeasonWords.lean",
  "definition": "wordedValue",
  "old": "parseNumeral E.u ((s.take x.2).drop x.1)",
  "new": "parseNumeral E.u ((s.take x.2).drop (x.1 + 1))",
  "edit": "the first character of the numeral is lost",
  "claim": "C141"
 },
 {
  "file": "Model/SeasonWords.lean",
  "definition": "validateRoman",
  "old": "intCoercable E.u ((s.take x.2).drop x.1) || sepsSurround",
  "new": "intCoercable E.u ((s.take x.2).drop x.1) && sepsSurround",
  "edit": "Roman numerals are never valid",
  "claim": "C141"
 },
 {
  "file": "Model/SeasonWords.lean",
  "definition": "validateRoman",
  "old": "|| sepsSurround s x.1 x.2",
  "new": "|| true",
  "edit": "Roman numerals inside words",
  "claim": "C141_sound"
 },
 {
  "file": "Model/SeasonWords.lean",
  "definition": "validSeasonHit",
  "old": "[1, 9].all",
  "new": "[1].all",
  "edit": "counts are not validated",
  "claim": "C141_sound: count is a numeral between separators"
 },
 {
  "file": "Model/SeasonWords.lean",
  "definition": "validSeasonHit",
  "old": "[1, 9].all",
  "new": "[9].all",
  "edit": "seasons are not validated",
  "claim": "C141_sound"
 },
 {
  "file": "Model/SeasonWords.lean",
  "definition": "validSeasonHit",
  "old": "[1, 9].all",
  "new": "[1, 9].any",
  "edit": "one valid number is enough",
  "claim": "C141_sound"
 },
 {
  "file": "Model/SeasonWords.lean",
  "definition": "wordedSeasons",
  "old": "(h.caps.lookup 6)",
  "new": "(h.caps.lookup 3)",
  "edit": "separators are not seen by the order",
  "claim": "C141_list"
 },
 {
  "file": "Model/SeasonWords.lean",
  "definition": "brokenSeasons",
  "old": "C.episodeMax C.seasonMax []",
  "new": "C.seasonMax C.episodeMax []",
  "edit": "limits swapped",
  "claim": "C141_list: with another configuration"
 },
 {
  "file": "Model/SeasonWords.lean",
  "definition": "childStart",
  "old": "foldl min h.stop",
  "new": "foldl max h.start",
  "edit": "the chain begins where its last group does",
  "claim": "C141_sound: begins after a separator"
 },
 {
  "file": "Model/SeasonWords.lean",
  "definition": "validSeasons",
  "old": "sepsSurround s (childStart h) (lastStop h.stop hs) &&",
  "new": "",
  "edit": "not between separators",
  "claim": "C141_sound"
 },
 {
  "file": "Model/SeasonWords.lean",
  "definition": "validSeasons",
  "old": "(lastStop h.stop hs)",
  "new": "h.stop",
  "edit": "only the first season is looked at",
  "claim": "C141_sound: ends before a separator"
 },
 {
  "file": "Model/SeasonWords.lean",
  "definition": "validSeasons",
  "old": "C.rangeSeparators.contains C.weak.contains C.discreteSeparators.contains",
  "new": "C.rangeSeparators.contains C.discreteSeparators.contains C.weak.contains",
  "edit": "weak and strong separators swapped",
  "claim": "C141_list"
 },
 {
  "file": "Model/SeasonWords.lean",
  "definition": "wordedKept",
  "old": "⟨E.ofCount ofs, some 1⟩, ⟨E.nextSeason C, none⟩",
  "new": "⟨E.nextSeason C, none⟩, ⟨E.ofCount ofs, some 1⟩",
  "edit": "the count comes after the list",
  "claim": "C141_count is kept, C141_sound changes order"
 },
 {
  "file": "Model/SeasonWords.lean",
  "definition": "wordedKept",
  "old": "⟨E.nextSeason C, none⟩",
  "new": "⟨E.nextSeason C, some 1⟩",
  "edit": "only one more season",
  "claim": "C141_list"
 },
 {
  "file": "Model/SeasonWords.lean",
  "definition": "wordedKept",
  "old": "(hs.filter (validSeasonHit E s))",
  "new": "(hs.takeWhile (validSeasonHit E s))",
  "edit": "the chain stops at a refused number",
  "claim": "C141_left_exception"
 },
 {
  "file": "Model/SeasonWords.lean",
  "definition": "wordedKept",
  "old": "(hs.filter (validSeasonHit E s))",
  "new": "hs",
  "edit": "numbers are not validated",
  "claim": "C141_sound"
 },
 {
  "file": "Model/SeasonWords.lean",
  "definition": "wordedNumbers",
  "old": "[(1, c!\"season\"), (9, c!\"count\")]",
  "new": "[(1, c!\"season\")]",
  "edit": "counts are not reported",
  "claim": "C141_count"
 },
 {
  "file": "Model/SeasonWords.lean",
  "definition": "wordedNumbers",
  "old": "start := x.1, stop",
  "new": "start := h.start, stop",
  "edit": "the whole match is the season",
  "claim": "C141"
 }
]