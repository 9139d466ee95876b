[
 {
  "file": "Model/Finders.lean",
  "definition": "idnumRe",
  "old": "(.chr idChar) 20 none",
  "new": "(.chr idChar) 19 none",
  "edit": "19 characters suffice",
  "claim": "C45 at least 20"
 },
 {
  "file": "Model/Finders.lean",
  "definition": "idnumRe",
  "old": "(.chr idChar) 20 none",
  "new": "(.chr idChar) 20 (some 40)",
  "edit": "at most 40 characters",
  "claim": "C45 maximal"
 },
 {
  "file": "Model/Finders.lean",
  "definition": "idChar",
  "old": "\n    decide (c = '-')",
  "new": "\n    decide (c = '_')",
  "edit": "underscore instead of dash",
  "claim": "C45 alphabet"
 },
 {
  "file": "Model/Finders.lean",
  "definition": "idStep",
  "old": "if some c ≠ s.lastLetter then s.switchLetterCount + 1 else s.switchLetterCount",
  "new": "s.switchLetterCount + 1",
  "edit": "every letter counts as a switch",
  "claim": "C45 letters vary"
 },
 {
  "file": "Model/Finders.lean",
  "definition": "idStep",
  "old": "if r.1 ≠ s.last then r.2.switchCount + 1",
  "new": "if r.1 = s.last then r.2.switchCount + 1",
  "edit": "switch counted when unchanged",
  "claim": "C45"
 },
 {
  "file": "Model/Finders.lean",
  "definition": "idStep",
  "old": "lastLetter := some c\n",
  "new": "lastLetter := s.lastLetter\n",
  "edit": "last letter not updated",
  "claim": "C45"
 },
 {
  "file": "Model/Finders.lean",
  "definition": "idProbable",
  "old": "5 * s.switchCount > 2 * text.length",
  "new": "5 * s.switchCount ≥ 2 * text.length",
  "edit": ">= instead of >",
  "claim": "C45 ratio"
 },
 {
  "file": "Model/Finders.lean",
  "definition": "idProbable",
  "old": "if s.letterCount > 0 then decide (5 * s.switchLetterCount > 2 * s.letterCount) else true",
  "new": "if s.letterCount > 0 then decide (5 * s.switchLetterCount > 2 * s.letterCount) else false",
  "edit": "no letters rejected",
  "claim": "C45"
 },
 {
  "file": "Model/Finders.lean",
  "definition": "findCountries",
  "old": "if commonWords.contains (u.lower w.2) then none",
  "new": "if commonWords.contains (u.lower s) then none",
  "edit": "common words tested on whole text",
  "claim": "C47 common words"
 },
 {
  "file": "Model/Finders.lean",
  "definition": "findCountries",
  "old": "|| (allowed.map u.lower).contains (u.lower (b.alpha2 c))",
  "new": "",
  "edit": "alpha2 not accepted",
  "claim": "C47 allowed by code"
 },
 {
  "file": "Model/Finders.lean",
  "definition": "findCountries",
  "old": "some (w.1.1, w.1.2, c)",
  "new": "some (w.1.1, w.1.2 + 1, c)",
  "edit": "end off by one",
  "claim": "C47 span"
 },
 {
  "file": "Model/Finders.lean",
  "definition": "findCountries",
  "old": "iterWords (u.lower (u.strip s))",
  "new": "iterWords (u.lower s)",
  "edit": "strip dropped",
  "claim": "C47 (leading whitespace shift disappears)"
 },
 {
  "file": "Model/Finders.lean",
  "definition": "findSubFrom",
  "old": "else findSubFrom s sub f (i + 1)",
  "new": "else findSubFrom s sub f (i + 2)",
  "edit": "skips positions",
  "claim": "C42 all occurrences"
 },
 {
  "file": "Model/Finders.lean",
  "definition": "findSubsFrom",
  "old": "(j + sub.length)",
  "new": "(j + sub.length + 1)",
  "edit": "skips adjacent occurrence",
  "claim": "C42"
 },
 {
  "file": "Model/Finders.lean",
  "definition": "findSubsFrom",
  "old": "(j + sub.length)",
  "new": "(j + 1)",
  "edit": "overlapping occurrences",
  "claim": "C42 disjoint"
 },
 {
  "file": "Model/Finders.lean",
  "definition": "findSubs",
  "old": "(u.lower s) (u.lower sub) ((u",
  "new": "s (u.lower sub) ((u",
  "edit": "text not lower-cased",
  "claim": "C42 case"
 },
 {
  "file": "Model/Finders.lean",
  "definition": "expectedFrom",
  "old": "⟨i, i + search'.length, some ((input'.take (i + search'.length)).drop i)⟩",
  "new": "⟨i, i + search'.length, some search'⟩",
  "edit": "value is the searched text",
  "claim": "C42 value"
 },
 {
  "file": "Model/Finders.lean",
  "definition": "expectedFrom",
  "old": "match findSubs u input' search', expectedFrom u rx input' rest with",
  "new": "match findSubs u input' search', expectedFrom u rx input rest with",
  "edit": "replaced input not kept",
  "claim": "C55"
 },
 {
  "file": "Model/Finders.lean",
  "definition": "expectedFrom",
  "old": "let search' := sepsToSpaces search",
  "new": "let search' := search",
  "edit": "separators of entry kept",
  "claim": "C42 separators equivalent"
 },
 {
  "file": "Model/Finders.lean",
  "definition": "expectedFrom",
  "old": "search.drop 3",
  "new": "search.drop 2",
  "edit": "prefix length",
  "claim": "C55",
  "tightened": [
   "C55_regex_entry"
  ]
 },
 {
  "file": "Model/Finders.lean",
  "definition": "reEscape",
  "old": "if reSpecial.contains c then ['\\\\', c] else [c]",
  "new": "[c]",
  "edit": "no escape",
  "claim": "C46 literal"
 },
 {
  "file": "Model/Finders.lean",
  "definition": "reSpecial",
  "old": "()[]{}?*+-|^$",
  "new": "()[]{}?*+-^$",
  "edit": "| not escaped",
  "claim": "C46"
 },
 {
  "file": "Model/Finders.lean",
  "definition": "buildOrLoop",
  "old": "else acc ++ c!\"|\"",
  "new": "else acc",
  "edit": "no bar",
  "claim": "C46"
 },
 {
  "file": "Model/Finders.lean",
  "definition": "buildOrLoop",
  "old": "c!\"P<\" ++ (c :: n) ++ c!\">\"",
  "new": "c!\"<\" ++ (c :: n) ++ c!\">\"",
  "edit": "group syntax",
  "claim": "C46 named group"
 },
 {
  "file": "Model/Finders.lean",
  "definition": "buildOrLoop",
  "old": "c!\"(?:\" ++ reEscape p ++ c!\")\"",
  "new": "reEscape p",
  "edit": "no group around entry",
  "claim": "C46 (weak: equivalent)"
 },
 {
  "file": "Model/Language.lean",
  "definition": "extended",
  "old": "separator = c!\"-\" ∧ separator ≠ nextSeparator",
  "new": "separator = c!\"-\"",
  "edit": "a-b-c extended",
  "claim": "C48/C49?"
 },
 {
  "file": "Model/Language.lean",
  "definition": "extended",
  "old": "⟨w.start, n.stop, replace",
  "new": "⟨w.start, w.stop, replace",
  "edit": "extended end",
  "claim": "C48 span"
 },
 {
  "file": "Model/Language.lean",
  "definition": "extended",
  "old": "(input.take n.stop).drop w.start",
  "new": "(input.take n.stop).drop n.start",
  "edit": "extended value",
  "claim": "C48"
 },
 {
  "file": "Model/Language.lean",
  "definition": "mkFinder",
  "old": "prefixes := (if subtitleDisabled then [] else",
  "new": "prefixes := (if subtitleDisabled then [(c!\"subtitle_language\", subPrefixes)] else",
  "edit": "prefix not disabled",
  "claim": "C56"
 },
 {
  "file": "Model/Language.lean",
  "definition": "mkFinder",
  "old": "suffixes := (if subtitleDisabled then [] else",
  "new": "suffixes := (if subtitleDisabled then [(c!\"subtitle_language\", subPrefixes)] else",
  "edit": "suffix not disabled",
  "claim": "C56"
 },
 {
  "file": "Model/Language.lean",
  "definition": "parseLanguage",
  "old": "f.allowed.contains (u.lower (b.alpha3 l)) then some l",
  "new": "true then some l",
  "edit": "allowed list ignored",
  "claim": "C47/C48 allowed"
 },
 {
  "file": "Model/Language.lean",
  "definition": "parseLanguage",
  "old": " || (b.alpha2 l).any (fun n => f.allowed.contains (u.lower n))",
  "new": "",
  "edit": "alpha2 ignored",
  "claim": "C48"
 },
 {
  "file": "Model/Language.lean",
  "definition": "findWord",
  "old": "  | some m => some m\n  | none => createMatch u b f key w",
  "new": "  | some m => some m\n  | none => none",
  "edit": "single word not tried",
  "claim": "C48"
 },
 {
  "file": "Model/Language.lean",
  "definition": "near",
  "old": "decide (a ≤ b + 1)",
  "new": "decide (a ≤ b + 2)",
  "edit": "fallback distance",
  "claim": "C49",
  "tightened": [
   "C61_readings"
  ]
 },
 {
  "file": "Model/Language.lean",
  "definition": "affixMatch",
  "old": "if near fb.start word.stop || near word.start fb.stop then findWord",
  "new": "if true then findWord",
  "edit": "fallback at any distance",
  "claim": "C49",
  "tightened": [
   "C61_readings"
  ]
 },
 {
  "file": "Model/Language.lean",
  "definition": "affixMatch",
  "old": "if f.weak.contains part then none else",
  "new": "if f.weak.contains part then none else if false then none else",
  "edit": "(equivalent edit)",
  "claim": "none (equivalent)"
 },
 {
  "file": "Model/Language.lean",
  "definition": "affixMatch",
  "old": "if f.weak.contains part then none else createMatch",
  "new": "createMatch",
  "edit": "weak affix gives und",
  "claim": "C49 weak affix"
 },
 {
  "file": "Model/Language.lean",
  "definition": "affixMatch",
  "old": "if !isAffix wordLang part then none",
  "new": "if false then none",
  "edit": "affix not tested",
  "claim": "C49"
 },
 {
  "file": "Model/Language.lean",
  "definition": "candidateMatches",
  "old": "fun s p => s.drop p.length",
  "new": "fun s p => s.drop (p.length + 1)",
  "edit": "prefix stripped too far",
  "claim": "C49",
  "tightened": [
   "C61_readings"
  ]
 },
 {
  "file": "Model/Language.lean",
  "definition": "candidateMatches",
  "old": "(findWord u b f input c!\"language\" w).toList",
  "new": "(findWord u b f input c!\"subtitle_language\" w).toList",
  "edit": "plain word is a subtitle",
  "claim": "C48/C56"
 },
 {
  "file": "Model/Language.lean",
  "definition": "candidatesOf",
  "old": "⟨w.1.1, w.1.2, w.2, rest⟩ :: candidatesOf rest",
  "new": "⟨w.1.1, w.1.2, w.2, []⟩ :: candidatesOf rest",
  "edit": "no next word",
  "claim": "C48 two-word languages"
 },
 {
  "file": "Model/Language.lean",
  "definition": "toOut",
  "old": "[c!\"weak-language\"]",
  "new": "[]",
  "edit": "tag dropped",
  "claim": "C49 weak tag"
 },
 {
  "file": "Model/Language.lean",
  "definition": "addMatch",
  "old": "else if m.lang = b.mul then { maps with multi := addTo m.prop m maps.multi }",
  "new": "else if m.lang = b.mul then { maps with undetermined := addTo m.prop m maps.undetermined }",
  "edit": "multi in undetermined",
  "claim": "C48"
 },
 {
  "file": "Model/Language.lean",
  "definition": "findLanguages",
  "old": "if !hasKey maps.regular e.1 then e.2 else []",
  "new": "e.2",
  "edit": "undetermined always kept",
  "claim": "C48 undetermined only alone"
 },
 {
  "file": "Model/Language.lean",
  "definition": "findLanguages",
  "old": "if hasKey maps.regular e.1 || !hasKey maps.undetermined e.1 then e.2 else []",
  "new": "e.2",
  "edit": "multi always kept",
  "claim": "C48"
 },
 {
  "file": "Model/Cli.lean",
  "definition": "argTable",
  "old": "⟨c!\"json\", .storeTrue, .none⟩",
  "new": "⟨c!\"json\", .storeTrue, .bool false⟩",
  "edit": "default False for json",
  "claim": "C44"
 },
 {
  "file": "Model/Cli.lean",
  "definition": "argTable",
  "old": "⟨c!\"advanced\", .storeTrue, .none⟩",
  "new": "⟨c!\"advanced\", .store, .none⟩",
  "edit": "flag stored as text",
  "claim": "C44 given flag",
  "tightened": [
   "C44_given_flag",
   "C44_kinds"
  ]
 },
 {
  "file": "Model/Cli.lean",
  "definition": "argTable",
  "old": "⟨c!\"expected_title\", .append, .none⟩",
  "new": "⟨c!\"expected_title\", .append, .list []⟩",
  "edit": "default [] for a list option",
  "claim": "C44"
 },
 {
  "file": "Model/Cli.lean",
  "definition": "applyOcc",
  "old": "| .storeTrue => ns.set (.str o.dest) (.bool true)",
  "new": "| .storeTrue => ns.set (.str o.dest) (.bool false)",
  "edit": "flag stores False",
  "claim": "C44 given flag"
 },
 {
  "file": "Model/Cli.lean",
  "definition": "applyOcc",
  "old": ".list (l ++ [.str o.arg])",
  "new": ".list [.str o.arg]",
  "edit": "append replaces",
  "claim": "C44 repeated option",
  "tightened": [
   "C44_given_list"
  ]
 },
 {
  "file": "Model/Cli.lean",
  "definition": "applyOcc",
  "old": "| .store => ns.set (.str o.dest) (.str o.arg)",
  "new": "| .store => ns",
  "edit": "store ignored",
  "claim": "C44 given option"
 },
 {
  "file": "Model/Cli.lean",
  "definition": "guessAllNames",
  "old": "(.guess name (.value v) :: r.1, r.2)",
  "new": "(r.1 ++ [.guess name (.value v)], r.2)",
  "edit": "reversed order",
  "claim": "C43 order"
 },
 {
  "file": "Model/Cli.lean",
  "definition": "guessAllNames",
  "old": "(_, out) => ([.guess name out], some out)",
  "new": "(_, out) => ([.guess name out], none)",
  "edit": "exception swallowed",
  "claim": "C43"
 },
 {
  "file": "Model/Cli.lean",
  "definition": "cliNames",
  "old": "given ++ lines.map (fun l => PyVal.str (u.strip l))",
  "new": "lines.map (fun l => PyVal.str (u.strip l)) ++ given",
  "edit": "file lines first",
  "claim": "C43 order"
 },
 {
  "file": "Model/Cli.lean",
  "definition": "cliNames",
  "old": ".ok ((given ++ lines.map (fun l => PyVal.str (u.strip l))).filter truthy)",
  "new": ".ok ((given ++ lines.map (fun l => PyVal.str (u.strip l))))",
  "edit": "empty names kept",
  "claim": "C43 non-empty"
 },
 {
  "file": "Model/Cli.lean",
  "definition": "cliNames",
  "old": "PyVal.str (u.strip l)",
  "new": "PyVal.str l",
  "edit": "lines not stripped",
  "claim": "C43 stripped"
 },
 {
  "file": "Model/Cli.lean",
  "definition": "cliMain",
  "old": "!showVersion && !showProps && names.isEmpty",
  "new": "!showVersion && names.isEmpty",
  "edit": "help after properties",
  "claim": "C43 help"
 },
 {
  "file": "Model/Cli.lean",
  "definition": "cliMain",
  "old": "!showVersion && !showProps && names.isEmpty",
  "new": "!showVersion && !showProps",
  "edit": "help although names",
  "claim": "C43 help"
 },
 {
  "file": "Model/Cli.lean",
  "definition": "cliMain",
  "old": "guessAllNames S env options st1 names",
  "new": "guessAllNames S env options st1 (names.drop 1)",
  "edit": "first name skipped",
  "claim": "C43 every name"
 }
]