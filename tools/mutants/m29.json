[
{"file": "Model/Text.lean", "definition": "reorderWith", "old": "some (pySlice title (-(suffix.length : Int) + sep.length) title.length ++ c!\" \" ++", "new": "some (article ++ c!\" \" ++", "edit": "the article of a reordered title is written as in the list, not as in the name", "claim": "C159"},
{"file": "Model/Text.lean", "definition": "reorderWith", "old": "        pySlice title 0 (-(suffix.length : Int)))", "new": "        title)", "edit": "a reordered title keeps its article at the end, too", "claim": "C159"},
{"file": "Model/EpisodeTitle.lean", "definition": "cleanHole", "old": "name := none, fmt := fun t => .str (cleanup t) }", "new": "name := none, fmt := fun t => .str (cleanup t ++ c!\".\") }", "edit": "the text of a hole ends with a period", "claim": "C159"},
{"file": "Model/Title.lean", "definition": "titleMt", "old": "name := some name, fmt := fun t => .str (r.fmt t), tags := r.tags }", "new": "name := some name, val := some (.str name), fmt := fun t => .str (r.fmt t), tags := r.tags }", "edit": "the value of a title is its name", "claim": "C159"},
{"file": "Model/ReleaseGroup.lean", "definition": "groupFor", "old": "name := some c!\"release_group\", fmt := fun t => .str (cleanGroup e t) }]", "new": "name := some c!\"release_group\", fmt := fun t => .int t.length }]", "edit": "the value of a release group is its length", "claim": "C159"},
{"file": "Model/Finders.lean", "definition": "expectedFrom", "old": "⟨i, i + search'.length, some ((input'.take (i + search'.length)).drop i)⟩", "new": "⟨i, i + search'.length, some search⟩", "edit": "the value of an expected text is the option, not what the name has", "claim": "C159"},
{"file": "Model/Declared.lean", "definition": "fromWordPattern", "old": "name := c!\"website\", format := rawText, valid := surrounded }", "new": "name := c!\"website\", format := fun _ _ => .ok c!\"site\", valid := surrounded }", "edit": "the word before a website has a constant value", "claim": "C159"},
{"file": "Model/Declared.lean", "definition": "titleFormat", "old": ".str (reorderTitle O.rx.u.lower [c!\"the\"] [c!\",\", c!\", \"] (cleanup t))", "new": ".str (reorderTitle O.rx.u.lower [c!\"the\"] [c!\",\", c!\", \"] (O.rx.u.lower (cleanup t)) ++ c!\"!\")", "edit": "an expected title ends with an exclamation mark", "claim": "C159"},
{"file": "Model/ReleaseGroup.lean", "definition": "cleanGroup", "old": "joinCredit e.u (e.u.strip (e.forbidden.foldl (dropForbidden e) (stripGroup e.ignored s)))", "new": "joinCredit e.u (e.u.strip (e.forbidden.foldl (dropForbidden e) (stripGroup e.ignored (s ++ s))))", "edit": "a release group is written twice", "claim": "C159"}
]
