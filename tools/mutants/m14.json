[
 {
  "file": "Model/Patterns.lean",
  "definition": "rsplitColon",
  "old": "| some (a, b) => some (x :: a, b)\n    | none => if x = ':' then some ([], xs) else none",
  "new": "| some (a, b) => if x = ':' then some ([], xs) else some (x :: a, b)\n    | none => if x = ':' then some ([], xs) else none",
  "edit": "split at the first colon",
  "claim": "C99"
 },
 {
  "file": "Model/Patterns.lean",
  "definition": "splitDots",
  "old": "if x = '.' then [] :: splitDots xs",
  "new": "if x = '.' then splitDots xs",
  "edit": "empty attribute skipped",
  "claim": "C99"
 },
 {
  "file": "Model/Patterns.lean",
  "definition": "refParts",
  "old": "if '.' ∈ value then match",
  "new": "if ':' ∈ value then match",
  "edit": "qualified tested with a colon",
  "claim": "C99"
 },
 {
  "file": "Model/Patterns.lean",
  "definition": "attrPath",
  "old": "| .ok o => attrPath W o as",
  "new": "| .ok o => .ok o",
  "edit": "only first attribute",
  "claim": "C99"
 },
 {
  "file": "Model/Patterns.lean",
  "definition": "importRef",
  "old": "List.lookup (m ++ c!\":\" ++ t) s.cache",
  "new": "List.lookup t s.cache",
  "edit": "cache keyed by target only (read)",
  "claim": "C99"
 },
 {
  "file": "Model/Patterns.lean",
  "definition": "importRef",
  "old": "cache := (m ++ c!\":\" ++ t, o) :: s.cache",
  "new": "cache := (m ++ c!\":\" ++ t, .none) :: s.cache",
  "edit": "stores wrong object",
  "claim": "C99"
 },
 {
  "file": "Model/Patterns.lean",
  "definition": "processExec",
  "old": "| some r => importRef W r dflt",
  "new": "| some r => importRef W r none",
  "edit": "default module not passed",
  "claim": "C98"
 },
 {
  "file": "Model/Patterns.lean",
  "definition": "processExec",
  "old": "| some r => LM.lift (W.evaluate r)",
  "new": "| some r => LM.lift (W.evaluate v)",
  "edit": "eval of text with prefix",
  "claim": "C98"
 },
 {
  "file": "Model/Patterns.lean",
  "definition": "processExec",
  "old": "|| (c!\"lambda:\").isPrefixOf v then",
  "new": "then",
  "edit": "lambda: not evaluated",
  "claim": "C98"
 },
 {
  "file": "Model/Patterns.lean",
  "definition": "execOption",
  "old": "|| k = .str c!\"formatter\"",
  "new": "",
  "edit": "formatter not processed",
  "claim": "C98"
 },
 {
  "file": "Model/Patterns.lean",
  "definition": "defaultModule",
  "old": "some c!\"guessit.rules.common.formatters\"",
  "new": "some c!\"guessit.rules.common.validators\"",
  "edit": "wrong default module",
  "claim": "C98"
 },
 {
  "file": "Model/Patterns.lean",
  "definition": "processItem",
  "old": "LM.pure (k, w)",
  "new": "LM.pure (k, v)",
  "edit": "dictionary option not replaced",
  "claim": "C98"
 },
 {
  "file": "Model/Patterns.lean",
  "definition": "updateDict",
  "old": "acc.set kv.1 kv.2",
  "new": "(if (acc.get? kv.1).isSome then acc else acc.set kv.1 kv.2)",
  "edit": "update does not override",
  "claim": "C98"
 },
 {
  "file": "Model/Patterns.lean",
  "definition": "loadPatterns",
  "old": "(updateDict (o.common.getD []) ((o.forKind kind).getD []))",
  "new": "(updateDict ((o.forKind kind).getD []) (o.common.getD []))",
  "edit": "swapped precedence",
  "claim": "C98"
 },
 {
  "file": "Model/Patterns.lean",
  "definition": "loadPatterns",
  "old": ".declare kind patterns opts",
  "new": ".declare .string patterns opts",
  "edit": "kind ignored",
  "claim": "C98"
 },
 {
  "file": "Model/Patterns.lean",
  "definition": "withText",
  "old": "d.set PatKind.regex.key (.list [.str r])",
  "new": "d.set PatKind.regex.key (.list [.str s])",
  "edit": "prefix kept",
  "claim": "C98"
 },
 {
  "file": "Model/Patterns.lean",
  "definition": "baseDecl",
  "old": "if (c!\"_\").isPrefixOf v then o.common.getD [] else",
  "new": "if v = c!\"_\" then o.common.getD [] else",
  "edit": "only _ itself has no value",
  "claim": "C98"
 },
 {
  "file": "Model/Patterns.lean",
  "definition": "dictDecl",
  "old": "(updateDict d e, .dict e)",
  "new": "(updateDict e d, .dict e)",
  "edit": "entry overridden by common options",
  "claim": "C98"
 },
 {
  "file": "Model/Patterns.lean",
  "definition": "dictDecl",
  "old": ".dict (Dict.del e kPattern)",
  "new": ".dict e",
  "edit": "pattern key not popped",
  "claim": "C100"
 },
 {
  "file": "Model/Patterns.lean",
  "definition": "loadKind",
  "old": "(decl.del PatKind.regex.key).del PatKind.string.key",
  "new": "decl.del PatKind.regex.key",
  "edit": "string key passed as option",
  "claim": "C98"
 },
 {
  "file": "Model/Patterns.lean",
  "definition": "loadEntry",
  "old": "LM.pure (.dict (Dict.del e kCallable))",
  "new": "LM.pure (.dict e)",
  "edit": "callable kept",
  "claim": "C100"
 },
 {
  "file": "Model/Patterns.lean",
  "definition": "callEntry",
  "old": "LM.bind (processExec W none spec)",
  "new": "LM.bind (LM.pure spec)",
  "edit": "callable not resolved",
  "claim": "C98"
 },
 {
  "file": "Model/Patterns.lean",
  "definition": "declareEntry",
  "old": "LM.bind (loadKind W o r.1 .regex) fun _ => LM.bind (loadKind W o r.1 .string)",
  "new": "LM.bind (loadKind W o r.1 .string) fun _ => LM.bind (loadKind W o r.1 .regex)",
  "edit": "kinds in other order",
  "claim": "C98"
 },
 {
  "file": "Model/Patterns.lean",
  "definition": "asList",
  "old": "| v => [v]",
  "new": "| _ => []",
  "edit": "single pattern ignored",
  "claim": "C98"
 },
 {
  "file": "Model/Patterns.lean",
  "definition": "loadItems",
  "old": "LM.bind (loadRaw W o k raw)",
  "new": "LM.bind (loadRaw W o kValue raw)",
  "edit": "key not passed",
  "claim": "C98"
 },
 {
  "file": "Model/Converters.lean",
  "definition": "assignAll",
  "old": "((u.lower s, v) :: d)",
  "new": "((s, v) :: d)",
  "edit": "synonym not lowered",
  "claim": "C101"
 },
 {
  "file": "Model/Converters.lean",
  "definition": "assignAll",
  "old": "((u.lower s, v) :: d) v ss",
  "new": "(d ++ [(u.lower s, v)]) v ss",
  "edit": "first synonym wins",
  "claim": "C101"
 },
 {
  "file": "Model/Converters.lean",
  "definition": "reverseCountry",
  "old": "b.country (u.upper name)",
  "new": "b.country name",
  "edit": "code not uppered",
  "claim": "C101"
 },
 {
  "file": "Model/Converters.lean",
  "definition": "reverseCountry",
  "old": "| none => b.countryName name",
  "new": "| none => none",
  "edit": "names not tried",
  "claim": "C101"
 },
 {
  "file": "Model/Converters.lean",
  "definition": "convertCountry",
  "old": "then some c!\"UK\"",
  "new": "then some c!\"GB\"",
  "edit": "GB text",
  "claim": "C101"
 },
 {
  "file": "Model/Converters.lean",
  "definition": "splitCode",
  "old": "if '_' ∈ rest then none else",
  "new": "if false then none else",
  "edit": "two underscores accepted",
  "claim": "C101"
 },
 {
  "file": "Model/Converters.lean",
  "definition": "firstReader",
  "old": "| none => firstReader n rs",
  "new": "| none => none",
  "edit": "only first reader",
  "claim": "C101"
 },
 {
  "file": "Model/Converters.lean",
  "definition": "reverseLanguage",
  "old": "firstReader (u.lower name) b.languages",
  "new": "firstReader name b.languages",
  "edit": "name not lowered",
  "claim": "C101"
 },
 {
  "file": "Model/Converters.lean",
  "definition": "languageExceptions",
  "old": "(assignAll u d c e.2) rest",
  "new": "(assignAll u d c []) rest",
  "edit": "language synonyms dropped",
  "claim": "C101"
 },
 {
  "file": "Model/Converters.lean",
  "definition": "Process.step",
  "old": "| .ok _ => some adv",
  "new": "| .ok _ => p.registry",
  "edit": "registry not updated",
  "claim": "C102"
 },
 {
  "file": "Model/Converters.lean",
  "definition": "Process.step",
  "old": "if j = i then r.1 else p.apis j",
  "new": "r.1",
  "edit": "objects share state",
  "claim": "C102"
 },
 {
  "file": "Model/Converters.lean",
  "definition": "Process.step",
  "old": "(p.apis i).step (S.sys reg) env c",
  "new": "(p.apis i).step (S.sys p.registry) env c",
  "edit": "guess before registering",
  "claim": "C102"
 },
 {
  "file": "Model/Converters.lean",
  "definition": "buildsFrom",
  "old": "force || st1.rebulk.isNone || advChanged st1.adv adv",
  "new": "force || st1.rebulk.isNone",
  "edit": "not registered when changed",
  "claim": "C102"
 }
]