[
 {
  "file": "Model/Options.lean",
  "definition": "appendNew",
  "old": "| .none :: vs => appendNew l vs",
  "new": "| .none :: vs => appendNew (l ++ [.none]) vs",
  "edit": "append None elements too",
  "claim": "C02: null elements are not appended"
 },
 {
  "file": "Model/Options.lean",
  "definition": "appendNew",
  "old": "if pyIn v l then appendNew l vs else appendNew (l ++ [v]) vs",
  "new": "appendNew (l ++ [v]) vs",
  "edit": "no duplicate check",
  "claim": "C02: no duplicate is appended"
 },
 {
  "file": "Model/Options.lean",
  "definition": "appendNew",
  "old": "else appendNew (l ++ [v]) vs",
  "new": "else appendNew (v :: l) vs",
  "edit": "prepend instead of append",
  "claim": "C02: earlier elements keep their place"
 },
 {
  "file": "Model/Options.lean",
  "definition": "mergeValue",
  "old": "| (_, .none) => .ok merged",
  "new": "| (k, .none) => .ok (merged.set k .none)",
  "edit": "None overrides",
  "claim": "C01: a null never erases an earlier value"
 },
 {
  "file": "Model/Options.lean",
  "definition": "mergeValue",
  "old": "if k = kPristine then .ok merged else",
  "new": "",
  "edit": "pristine entry copied into the result",
  "claim": "C04: pristine is never part of the result"
 },
 {
  "file": "Model/Options.lean",
  "definition": "mergeValue",
  "old": "| _ => .ok (merged.set k v)",
  "new": "| some w => .ok (merged.set k w)\n    | Option.none => .ok (merged.set k v)",
  "edit": "first scalar wins",
  "claim": "C01: last non-null value wins"
 },
 {
  "file": "Model/Options.lean",
  "definition": "mergeValue",
  "old": "match mergeInto d v with",
  "new": "match mergeInto [] v with",
  "edit": "nested dictionary replaced by merge over an empty one",
  "claim": "C05: nested merge"
 },
 {
  "file": "Model/Options.lean",
  "definition": "applyPristine",
  "old": "| .bool true => .ok []",
  "new": "| .bool true => .ok merged",
  "edit": "pristine: true ignored",
  "claim": "C04: pristine true discards everything"
 },
 {
  "file": "Model/Options.lean",
  "definition": "resetKeys",
  "old": "| .ok (some k) => resetKeys (merged.del k) ps",
  "new": "| .ok (some k) => .ok (merged.del k)",
  "edit": "only the first pristine name is reset",
  "claim": "C04: every listed name is discarded"
 },
 {
  "file": "Model/Options.lean",
  "definition": "mergeInto",
  "old": "| .ok base => mergeItems base items",
  "new": "| .ok _ => mergeItems merged items",
  "edit": "pristine result dropped",
  "claim": "C04"
 },
 {
  "file": "Model/Options.lean",
  "definition": "mergeRest",
  "old": "match mergeInto merged o with\n    | .error e => .error e\n    | .ok m => mergeRest m os",
  "new": "match mergeRest merged os with\n    | .error e => .error e\n    | .ok m => mergeInto m o",
  "edit": "later sources applied first",
  "claim": "C01: order of the sources"
 },
 {
  "file": "Model/Options.lean",
  "definition": "loadFiles",
  "old": ".ok (if truthy v then v :: vs else vs)",
  "new": ".ok (if truthy v then vs ++ [v] else vs)",
  "edit": "configuration files applied in reverse order",
  "claim": "C07: order of the sources"
 },
 {
  "file": "Model/Options.lean",
  "definition": "userFiles",
  "old": ".filter env.pathExists",
  "new": "",
  "edit": "missing user files are not skipped",
  "claim": "C07: only existing user files"
 },
 {
  "file": "Model/Options.lean",
  "definition": "allFiles",
  "old": "if truthy (options.getD kNoUser) then [] else userFiles env",
  "new": "if truthy (options.getD kNoDefault) then [] else userFiles env",
  "edit": "wrong flag guards the user files",
  "claim": "C07: no_user_config"
 },
 {
  "file": "Model/Options.lean",
  "definition": "allFiles",
  "old": ".ok (user ++ fs)",
  "new": ".ok (fs ++ user)",
  "edit": "--config files before user files",
  "claim": "C07: order"
 },
 {
  "file": "Model/Options.lean",
  "definition": "loadConfig",
  "old": "if truthy (options.getD kNoDefault) then [] else [env.defaults]",
  "new": "[env.defaults]",
  "edit": "no_default_config ignored",
  "claim": "C07"
 },
 {
  "file": "Model/Options.lean",
  "definition": "loadConfig",
  "old": "if (config.get? kAdvanced).isSome then .ok config\n        else",
  "new": "if (config.get? kAdvanced).isSome || config.isEmpty then .ok config\n        else",
  "edit": "advanced_config missing when nothing was configured",
  "claim": "C07: advanced_config always present"
 },
 {
  "file": "Model/Options.lean",
  "definition": "optionsFileLocations",
  "old": "[c!\"json\", c!\"yaml\", c!\"yml\"] else",
  "new": "[c!\"yaml\", c!\"json\", c!\"yml\"] else",
  "edit": "extension order swapped",
  "claim": "C07: location order"
 },
 {
  "file": "Model/Api.lean",
  "definition": "fixDict",
  "old": "| .ok (k, v) => fixDict (acc.set k v) rest",
  "new": "| .ok (k, v) => fixDict (if (acc.get? k).isSome then acc else acc.set k v) rest",
  "edit": "first duplicate key wins",
  "claim": "C52: the last entry wins",
  "tightened": [
   "C52_no_bytes",
   "C52_lookup",
   "C52_idempotent (added)"
  ]
 },
 {
  "file": "Model/Api.lean",
  "definition": "sameLoadOptions",
  "old": "[kConfig, kNoUser, kNoDefault].all",
  "new": "[kConfig, kNoUser].all",
  "edit": "no_default_config not compared",
  "claim": "C08: rules come from this call's configuration"
 },
 {
  "file": "Model/Api.lean",
  "definition": "chooseConfig",
  "old": ".ok ({ st with loadOpts := some options }, c')",
  "new": ".ok (st, c')",
  "edit": "loaded options not remembered",
  "claim": "C08"
 },
 {
  "file": "Model/Api.lean",
  "definition": "chooseConfig",
  "old": "if force || !sameLoadOptions lo options then reload",
  "new": "if !sameLoadOptions lo options then reload",
  "edit": "force ignored when reloading",
  "claim": "C10: forced calls reload"
 },
 {
  "file": "Model/Api.lean",
  "definition": "advChanged",
  "old": "a.isEmpty || !pyEq (.dict a) (.dict new)",
  "new": "a.isEmpty",
  "edit": "advanced configuration changes ignored",
  "claim": "C08"
 },
 {
  "file": "Model/Api.lean",
  "definition": "Api.configure",
  "old": "mergeOptions [config.getD kAdvanced, options.getD kAdvanced]",
  "new": "mergeOptions [options.getD kAdvanced, config.getD kAdvanced]",
  "edit": "configuration overrides the call options",
  "claim": "C08"
 },
 {
  "file": "Model/Api.lean",
  "definition": "Api.configure",
  "old": "else ({ st1 with config := some config }, .ok config)",
  "new": "else (st1, .ok config)",
  "edit": "config attribute not stored when the rules are kept",
  "claim": "C09: independence of history"
 },
 {
  "file": "Model/Api.lean",
  "definition": "Api.configure",
  "old": "if force || st1.rebulk.isNone || advChanged st1.adv adv then",
  "new": "if force || st1.rebulk.isNone then",
  "edit": "rules never rebuilt",
  "claim": "C08"
 },
 {
  "file": "Model/Api.lean",
  "definition": "Api.step",
  "old": "| .reset => (Api.init, .value .none)",
  "new": "| .reset => ({ st with rebulk := none }, .value .none)",
  "edit": "reset keeps the configuration",
  "claim": "C11: reset restores a fresh API"
 },
 {
  "file": "Model/Api.lean",
  "definition": "wrap",
  "old": "| .systemExit => .raised .systemExit\n  | _ => .guessitException name",
  "new": "| .systemExit => .raised .systemExit\n  | .keyError => .raised .keyError\n  | _ => .guessitException name",
  "edit": "KeyError not wrapped",
  "claim": "C12: failures surface as GuessitException"
 },
 {
  "file": "Model/Api.lean",
  "definition": "encodeMatches",
  "old": "| .str s => (asciiEncode s).map PyVal.bytes\n      | v => .ok v",
  "new": "| .str s => (Except.ok (PyVal.str s) : Except PyErr PyVal)\n      | v => .ok v",
  "edit": "values not encoded back",
  "claim": "C14: bytes in, bytes out"
 },
 {
  "file": "Model/Api.lean",
  "definition": "guessWith",
  "old": "if name.isBytes then encodeMatches ms else .ok ms",
  "new": "if name.isBytes then .ok ms else encodeMatches ms",
  "edit": "encoding test inverted",
  "claim": "C14"
 },
 {
  "file": "Model/Api.lean",
  "definition": "insertBySpan",
  "old": "(m.start = x.start \u2227 m.stop < x.stop)",
  "new": "(m.start = x.start \u2227 m.stop \u2264 x.stop)",
  "edit": "unstable sort",
  "claim": "C15: order of position"
 },
 {
  "file": "Model/Api.lean",
  "definition": "addValue",
  "old": "if first then d else",
  "new": "",
  "edit": "single_value ignored",
  "claim": "C15: single_value gives the first value"
 },
 {
  "file": "Model/Api.lean",
  "definition": "addValue",
  "old": "| true, v => d.set k (.list [v])",
  "new": "| true, v => d.set k v",
  "edit": "enforce_list ignored for a single value",
  "claim": "C15"
 },
 {
  "file": "Model/Api.lean",
  "definition": "addValue",
  "old": "| v => if pyEq v m.value then d else d.set k (.list [v, m.value])",
  "new": "| v => d.set k (.list [v, m.value])",
  "edit": "equal values duplicated",
  "claim": "C15: distinct values"
 },
 {
  "file": "Model/Api.lean",
  "definition": "addValue",
  "old": "d.set k (.list (l ++ [m.value]))",
  "new": "d.set k (.list (m.value :: l))",
  "edit": "later values first",
  "claim": "C15: order of position"
 },
 {
  "file": "Model/Api.lean",
  "definition": "withInput",
  "old": "(.str text) else d",
  "new": "(.str []) else d",
  "edit": "input_string empty",
  "claim": "C15/C14: input_string"
 },
 {
  "file": "Model/Api.lean",
  "definition": "notBareTitle",
  "old": "d.length != 2 ||",
  "new": "d.length != 1 ||",
  "edit": "wrong length",
  "claim": "C16"
 },
 {
  "file": "Model/Api.lean",
  "definition": "Api.suggestedExpected",
  "old": "(if notBareTitle d then t :: l else l)",
  "new": "(if notBareTitle d then l ++ [t] else l)",
  "edit": "order reversed",
  "claim": "C16: order of titles"
 },
 {
  "file": "Model/Text.lean",
  "definition": "isDisabled",
  "old": "else truthy (context.getD (.str c!\"includes\")) && !inOption",
  "new": "else !inOption",
  "edit": "empty includes disables everything",
  "claim": "C17"
 },
 {
  "file": "Model/Text.lean",
  "definition": "isDisabled",
  "old": "if truthy (context.getD (.str c!\"excludes\")) && inOption name (context.getD (.str c!\"excludes\")) then true",
  "new": "if false then true",
  "edit": "excludes ignored",
  "claim": "C17"
 },
 {
  "file": "Model/Text.lean",
  "definition": "potentialBefore",
  "old": "(pyAt s (i - 1)).any (fun c => !isSep c)",
  "new": "true",
  "edit": "separator before also counts",
  "claim": "C19/C20 acronyms"
 },
 {
  "file": "Model/Text.lean",
  "definition": "potentialAfter",
  "old": "decide (s[i + 2]? = s[i]?)",
  "new": "true",
  "edit": "any separator two places later",
  "claim": "C19: acronym separators",
  "tightened": [
   "C19_start_partial",
   "C19_end_partial",
   "C19_inner (via Spec.AcronymSep)"
  ]
 },
 {
  "file": "Model/Text.lean",
  "definition": "collapseFrom",
  "old": "(if prev then collapseFrom true s else",
  "new": "(if false then collapseFrom true s else",
  "edit": "spaces not collapsed",
  "claim": "C19: no double space"
 },
 {
  "file": "Model/Text.lean",
  "definition": "cleanup",
  "old": "(seps.filter fun c => !(dots s).contains c)",
  "new": "[]",
  "edit": "no stripping",
  "claim": "C19: ends"
 },
 {
  "file": "Model/Text.lean",
  "definition": "cleanChars",
  "old": "seps.filter fun c => !excludedCleanChars.contains c",
  "new": "seps",
  "edit": "every separator replaced",
  "claim": "C19: characterisation of cleaned text"
 },
 {
  "file": "Model/Text.lean",
  "definition": "reorderWith",
  "old": "c!\" \" ++",
  "new": "",
  "edit": "space dropped",
  "claim": "C21"
 },
 {
  "file": "Model/Text.lean",
  "definition": "reorderWith",
  "old": "pySlice title (-(suffix.length : Int) + sep.length) title.length",
  "new": "pySlice title (-(suffix.length : Int)) title.length",
  "edit": "separator kept with the article",
  "claim": "C21"
 },
 {
  "file": "Model/Text.lean",
  "definition": "iterWordsFrom",
  "old": "iterWordsFrom s (i + 1) (i + 1) false rest\n      else",
  "new": "iterWordsFrom s (i + 1) i false rest\n      else",
  "edit": "word starts on the separator",
  "claim": "C22"
 },
 {
  "file": "Model/Text.lean",
  "definition": "iterWordsFrom",
  "old": "| [] => if inside then",
  "new": "| [] => if false then",
  "edit": "last word lost",
  "claim": "C22"
 },
 {
  "file": "Model/Text.lean",
  "definition": "vAnd",
  "old": "| .ok false => .ok false\n    | .ok true => vAnd vs x",
  "new": "| .ok false => vAnd vs x\n    | .ok true => .ok true",
  "edit": "and_ behaves as or_",
  "claim": "C50"
 },
 {
  "file": "Model/Text.lean",
  "definition": "vOr",
  "old": "| [], _ => .ok false\n  | v :: vs, x => match v x with\n    | .error e => .error e\n    | .ok true => .ok true",
  "new": "| [], _ => .ok true\n  | v :: vs, x => match v x with\n    | .error e => .error e\n    | .ok true => .ok true",
  "edit": "or_ of nothing accepts",
  "claim": "C50"
 },
 {
  "file": "Model/Text.lean",
  "definition": "charsAfter",
  "old": "(input[stop]?).any chars.contains",
  "new": "(input[stop + 1]?).any chars.contains",
  "edit": "off by one after the match",
  "claim": "C50: seps_surround",
  "tightened": [
   "C50_surround (added)"
  ]
 },
 {
  "file": "Model/Markers.lean",
  "definition": "consecutive",
  "old": "(a + 1, b)",
  "new": "(a, b)",
  "edit": "path element includes the slash",
  "claim": "C23"
 },
 {
  "file": "Model/Markers.lean",
  "definition": "markPath",
  "old": "++ [(-1 : Int), (s.length : Int)]",
  "new": "++ [(-1 : Int)]",
  "edit": "last element lost",
  "claim": "C23"
 },
 {
  "file": "Model/Markers.lean",
  "definition": "markPath",
  "old": "++ (findAll c!\"\\\\\" s).map Int.ofNat",
  "new": "",
  "edit": "backslashes ignored",
  "claim": "C23"
 },
 {
  "file": "Model/Markers.lean",
  "definition": "groupsFrom",
  "old": "(a, i + 1) ::",
  "new": "(a, i) ::",
  "edit": "closing bracket left out",
  "claim": "C24"
 },
 {
  "file": "Model/Markers.lean",
  "definition": "groupsFrom",
  "old": "| [] => groupsFrom starting ending [] (i + 1) rest ",
  "new": "| [] => (0, i + 1) :: groupsFrom starting ending [] (i + 1) rest ",
  "edit": "unmatched closing bracket makes a group",
  "claim": "C24"
 },
 {
  "file": "Model/Markers.lean",
  "definition": "groupsFrom",
  "old": "| a :: st => (a, i + 1) :: groupsFrom starting ending st (i + 1) rest",
  "new": "| a :: st => (a, i + 1) :: groupsFrom starting ending (a :: st) (i + 1) rest",
  "edit": "opening not popped",
  "claim": "C24"
 }
]