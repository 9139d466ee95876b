[
 {
  "file": "Model/Schedule.lean",
  "definition": "extendSafe",
  "old": "if acc.any fun x => decide (x.cls = r.cls) then acc else acc ++ [r]",
  "new": "acc ++ [r]",
  "edit": "equal rules not skipped",
  "claim": "C110: first of class"
 },
 {
  "file": "Model/Schedule.lean",
  "definition": "extendSafe",
  "old": "then acc else acc ++ [r]",
  "new": "then acc else r :: acc",
  "edit": "prepended",
  "claim": "C108: effective rules are in registration order"
 },
 {
  "file": "Model/Schedule.lean",
  "definition": "extendSafe",
  "old": "decide (x.cls = r.cls) then acc else acc",
  "new": "decide (x.cls = r.cls \u2227 x.arg = r.arg) then acc else acc",
  "edit": "instances told apart by argument",
  "claim": "C110"
 },
 {
  "file": "Model/Schedule.lean",
  "definition": "Plug.off",
  "old": "!p.names.isEmpty && p.names.all (isDisabled context)",
  "new": "!p.names.isEmpty && p.names.any (isDisabled context)",
  "edit": "one name enough to disable",
  "claim": "C111/C109"
 },
 {
  "file": "Model/Schedule.lean",
  "definition": "Plug.off",
  "old": "!p.names.isEmpty && p.names.all",
  "new": "p.names.all",
  "edit": "unnamed plugs disabled",
  "claim": "C110"
 },
 {
  "file": "Model/Schedule.lean",
  "definition": "effectiveRules",
  "old": "if p.off context then acc else extendSafe acc p.rules",
  "new": "extendSafe acc p.rules",
  "edit": "disabled sub-rebulks kept",
  "claim": "C108 effective"
 },
 {
  "file": "Model/Schedule.lean",
  "definition": "byPriority",
  "old": "decide (b.priority < a.priority)",
  "new": "decide (a.priority < b.priority)",
  "edit": "ascending priorities",
  "claim": "C108 priority"
 },
 {
  "file": "Model/Schedule.lean",
  "definition": "byPriority",
  "old": "decide (b.priority < a.priority)) rs",
  "new": "decide (b.priority \u2264 a.priority)) rs",
  "edit": "sort not stable",
  "claim": "C108 ties"
 },
 {
  "file": "Model/Schedule.lean",
  "definition": "joinGroup",
  "old": "if r.priority = x.priority then (r :: x :: xs) :: gs",
  "new": "if r.priority = x.priority then (x :: xs) :: gs",
  "edit": "rule lost in grouping",
  "claim": "C108 once"
 },
 {
  "file": "Model/Schedule.lean",
  "definition": "joinGroup",
  "old": "else [r] :: (x :: xs) :: gs",
  "new": "else (r :: x :: xs) :: gs",
  "edit": "all in one group",
  "claim": "C108 priority"
 },
 {
  "file": "Model/Schedule.lean",
  "definition": "joinGroup",
  "old": "if r.priority = x.priority then (r :: x :: xs) :: gs else [r] :: (x :: xs) :: gs",
  "new": "[r] :: (x :: xs) :: gs",
  "edit": "every rule its own group",
  "claim": "C108 dependency"
 },
 {
  "file": "Model/Schedule.lean",
  "definition": "ruleGraph",
  "old": "decide (d \u2260 r.cls) && rs.any",
  "new": "rs.any",
  "edit": "self-dependency kept",
  "claim": "C108 circle: a rule depending on itself"
 },
 {
  "file": "Model/Schedule.lean",
  "definition": "ruleGraph",
  "old": "decide (d \u2260 r.cls) && rs.any fun x => decide (x.cls = d)",
  "new": "decide (d \u2260 r.cls)",
  "edit": "absent dependencies waited for",
  "claim": "C108 circle"
 },
 {
  "file": "Model/Schedule.lean",
  "definition": "ruleGraph",
  "old": "(r, r.deps.filter",
  "new": "(r, r.deps.tail.filter",
  "edit": "first dependency dropped",
  "claim": "C108 dependency"
 },
 {
  "file": "Model/Schedule.lean",
  "definition": "readyOf",
  "old": "x.2.isEmpty).map Prod.fst",
  "new": "x.2.length \u2264 1).map Prod.fst",
  "edit": "one pending dependency tolerated",
  "claim": "C108 dependency"
 },
 {
  "file": "Model/Schedule.lean",
  "definition": "dropReady",
  "old": "(data.filter fun x => decide (x.1 \u2209 ordered)).map",
  "new": "data.map",
  "edit": "done items stay",
  "claim": "C108 once"
 },
 {
  "file": "Model/Schedule.lean",
  "definition": "dropReady",
  "old": "x.2.filter fun d => !ordered.any fun o => decide (o.cls = d)",
  "new": "x.2",
  "edit": "dependencies never discharged",
  "claim": "C108 circle"
 },
 {
  "file": "Model/Schedule.lean",
  "definition": "dropReady",
  "old": "x.2.filter fun d => !ordered.any",
  "new": "x.2.filter fun d => ordered.any",
  "edit": "kept the discharged ones",
  "claim": "C108 dependency"
 },
 {
  "file": "Model/Schedule.lean",
  "definition": "layers",
  "old": "| 0, data => ([], !data.isEmpty)",
  "new": "| 0, data => ([], data.isEmpty)",
  "edit": "end of loop reported as cycle",
  "claim": "C108 circle"
 },
 {
  "file": "Model/Schedule.lean",
  "definition": "layers",
  "old": "if (readyOf data).isEmpty then ([], !data.isEmpty)",
  "new": "if (readyOf data).isEmpty then ([], false)",
  "edit": "cycle not reported",
  "claim": "C108 circle"
 },
 {
  "file": "Model/Schedule.lean",
  "definition": "hasDuplicate",
  "old": "|| hasDuplicate rs",
  "new": "&& hasDuplicate rs",
  "edit": "duplicates missed",
  "claim": "C108 (dead code for effective rules)"
 },
 {
  "file": "Model/Schedule.lean",
  "definition": "ruleIndex",
  "old": "all.findIdx fun x => decide (x.cls = r.cls)",
  "new": "all.length - all.findIdx fun x => decide (x.cls = r.cls)",
  "edit": "reverse registration order",
  "claim": "C108 ties"
 },
 {
  "file": "Model/Schedule.lean",
  "definition": "sortLayer",
  "old": "sortBy (fun a b => decide (ruleIndex all a < ruleIndex all b)) (shuffle layer)",
  "new": "shuffle layer",
  "edit": "layer in set order",
  "claim": "C108 deterministic"
 },
 {
  "file": "Model/Schedule.lean",
  "definition": "sortLayer",
  "old": "decide (ruleIndex all a < ruleIndex all b)",
  "new": "decide (ruleIndex all b < ruleIndex all a)",
  "edit": "last registered first",
  "claim": "C108 ties"
 },
 {
  "file": "Model/Schedule.lean",
  "definition": "runGroup",
  "old": "if hasDuplicate g then ([], some .duplicateClass)\n  else",
  "new": "if false then ([], some .duplicateClass)\n  else",
  "edit": "no duplicate check",
  "claim": "C108 (unreachable for effective rules)"
 },
 {
  "file": "Model/Schedule.lean",
  "definition": "runGroup",
  "old": "then some .cyclic else none)",
  "new": "then none else none)",
  "edit": "cycle swallowed",
  "claim": "C108 circle"
 },
 {
  "file": "Model/Schedule.lean",
  "definition": "runGroup",
  "old": "layers g.length (ruleGraph g)).1.map",
  "new": "layers (g.length - 1) (ruleGraph g)).1.map",
  "edit": "last layer lost",
  "claim": "C108 once"
 },
 {
  "file": "Model/Schedule.lean",
  "definition": "runGroups",
  "old": "| some e => ((runGroup shuffle all g).1, some e)",
  "new": "| some e => ([], some e)",
  "edit": "layers before the cycle lost",
  "claim": "C108 ties/example"
 },
 {
  "file": "Model/Schedule.lean",
  "definition": "runGroups",
  "old": "| some e => ((runGroup shuffle all g).1, some e)",
  "new": "| some _ => ((runGroup shuffle all g).1 ++ (runGroups shuffle all gs).1, (runGroups shuffle all gs).2)",
  "edit": "goes on after an error",
  "claim": "C108 circle"
 },
 {
  "file": "Model/Schedule.lean",
  "definition": "schedule",
  "old": "runGroups shuffle rs (groupRules (byPriority rs))",
  "new": "runGroups shuffle rs (groupRules rs)",
  "edit": "not sorted by priority",
  "claim": "C108 priority"
 },
 {
  "file": "Model/Schedule.lean",
  "definition": "episodesPlug",
  "old": "{ cls := RemoveDetachedEpisodeNumber, priority := 64, deps := [RemoveWeakIfSxxExx, RemoveWeakDuplicate] }",
  "new": "{ cls := RemoveDetachedEpisodeNumber, priority := 64, deps := [RemoveWeakIfSxxExx, RemoveWeak] }",
  "edit": "depends on a rule of lower priority",
  "claim": "C108 guessit"
 },
 {
  "file": "Model/Schedule.lean",
  "definition": "titlePlug",
  "old": "{ cls := PreferTitleWithYear, deps := [TitleFromPosition] }",
  "new": "{ cls := PreferTitleWithYear, priority := 64, deps := [TitleFromPosition] }",
  "edit": "priority raised above its dependency",
  "claim": "C108 guessit"
 },
 {
  "file": "Model/Schedule.lean",
  "definition": "languagePlug",
  "old": "{ cls := SubtitlePrefixLanguageRule },",
  "new": "{ cls := SubtitlePrefixLanguageRule, deps := [SubtitleSuffixLanguageRule] },",
  "edit": "circular dependency",
  "claim": "C108 guessit"
 },
 {
  "file": "Model/Schedule.lean",
  "definition": "processorsPlug",
  "old": "{ cls := RemoveLessSpecificSeasonEpisode, arg := c!\"season\", priority := postProcess },\n    { cls := RemoveLessSpecificSeasonEpisode, arg := c!\"episode\", priority := postProcess },",
  "new": "{ cls := RemoveLessSpecificSeasonEpisode, arg := c!\"episode\", priority := postProcess },\n    { cls := RemoveLessSpecificSeasonEpisode, arg := c!\"season\", priority := postProcess },",
  "edit": "registered the other way round",
  "claim": "C110"
 },
 {
  "file": "Model/Schedule.lean",
  "definition": "ruleEnabled",
  "old": "| TitleFromPosition => !isDisabled context c!\"alternative_title\"",
  "new": "| TitleFromPosition => !isDisabled context c!\"title\"",
  "edit": "guard repaired",
  "claim": "C111 counterexample"
 },
 {
  "file": "Model/Schedule.lean",
  "definition": "ruleEnabled",
  "old": "| RemoveLanguage => isDisabled context c!\"language\"",
  "new": "| RemoveLanguage => !isDisabled context c!\"language\"",
  "edit": "guard inverted",
  "claim": "C108 default order"
 },
 {
  "file": "Model/Schedule.lean",
  "definition": "ruleEnabled",
  "old": "| KeepMarkedYearInFilepart => !isDisabled context c!\"year\"",
  "new": "| KeepMarkedYearInFilepart => !isDisabled context c!\"date\"",
  "edit": "other name",
  "claim": "C111"
 },
 {
  "file": "Model/Schedule.lean",
  "definition": "rulesRun",
  "old": ".1.filter fun r => ruleEnabled context r.cls",
  "new": ".1.filter fun _ => true",
  "edit": "enabled not asked",
  "claim": "C111"
 }
]