[
{
"file": "Model/Declared.lean",
"definition": "othersDeclared",
"old": "declared [[c!\"container\"]] (containerFamilies O)",
"new": "declared [] (containerFamilies O)",
"edit": "the container is found although excluded",
"claim": "C154"
},
{
"file": "Model/Declared.lean",
"definition": "othersDeclared",
"old": "declared [[c!\"year\"]] ((yearPattern O.rx)",
"new": "declared [[c!\"date\"]] ((yearPattern O.rx)",
"edit": "the year obeys the exclusion of date",
"claim": "C154"
},
{
"file": "Model/Declared.lean",
"definition": "othersDeclared",
"old": "declared [[c!\"edition\"]] (styledFamilies O c!\"edition\" editionTable",
"new": "declared [[c!\"edition\"]] (styledFamilies O c!\"editions\" editionTable",
"edit": "the edition is reported under a misspelt name",
"claim": "C153"
},
{
"file": "Model/Declared.lean",
"definition": "othersDeclared",
"old": "declared [[c!\"audio_codec\"]] (audioCodecFamilies O)",
"new": "declared [[c!\"video_codec\"]] (audioCodecFamilies O)",
"edit": "the audio codec obeys the exclusion of video_codec",
"claim": "C154"
},
{
"file": "Model/Declared.lean",
"definition": "othersDeclared",
"old": "{ needs := [[c!\"country\"]], wanted",
"new": "{ needs := [[c!\"language\"]], wanted",
"edit": "the country obeys the exclusion of language",
"claim": "C154"
},
{
"file": "Model/Declared.lean",
"definition": "episodesDeclared",
"old": "declared [[c!\"version\"]] ((versionPattern E)",
"new": "declared [[c!\"episode\"]] ((versionPattern E)",
"edit": "the version obeys the exclusion of episode",
"claim": "C154"
},
{
"file": "Model/Declared.lean",
"definition": "episodesDeclared",
"old": "declared [[c!\"episode_details\"]] fun s",
"new": "declared [] fun s",
"edit": "the episode details are found although excluded",
"claim": "C154"
},
{
"file": "Model/Declared.lean",
"definition": "episodesDeclared",
"old": "declared [[c!\"season\"]] (wordedFamilies E) fun g",
"new": "declared [[c!\"episode\"]] (wordedFamilies E) fun g",
"edit": "season words obey the exclusion of episode",
"claim": "C154"
},
{
"file": "Model/Declared.lean",
"definition": "strippedRoot",
"old": "stop := stripStop s F.root.stop",
"new": "stop := F.root.stop + 1",
"edit": "the detached count takes one character more",
"claim": "C152"
},
{
"file": "Model/Declared.lean",
"definition": "affixPattern",
"old": "{ words := words, name := name,",
"new": "{ words := words, name := c!\"affix\",",
"edit": "the affixes have a name of their own",
"claim": "C153"
},
{
"file": "Model/Families.lean",
"definition": "Family.grow",
"old": "let ks := kidsFrom r (n + 1) F.real",
"new": "let ks := kidsFrom r n F.real",
"edit": "the first child has the identity of its parent",
"claim": "C152, C37"
},
{
"file": "Model/Families.lean",
"definition": "growFrom",
"old": "if F.root.start < F.root.stop then F.grow",
"new": "if F.root.start ≤ F.root.stop then F.grow",
"edit": "a match without characters is a match",
"claim": "C152"
},
{
"file": "Model/Families.lean",
"definition": "growFrom",
"old": "growFrom (n + 1 + F.real.length) fs else",
"new": "growFrom (n + 1) fs else",
"edit": "children share identities with the next family",
"claim": "C152, C37"
},
{
"file": "Model/Families.lean",
"definition": "Family.real",
"old": "decide (b.start < b.stop)",
"new": "decide (b.start ≤ b.stop)",
"edit": "a child without characters is a match",
"claim": "C152"
},
{
"file": "Model/Families.lean",
"definition": "Family.grow",
"old": "(if F.root.live then [r] else [])",
"new": "[r]",
"edit": "the parent is reported although its children are",
"claim": "C153"
},
{
"file": "Model/Families.lean",
"definition": "RxPattern.families",
"old": "priv := st.privateParent || st.priv, live := !P.children || st.privateParent",
"new": "priv := st.priv, live := !P.children || st.privateParent",
"edit": "the parents are public",
"claim": "C153"
},
{
"file": "Model/Families.lean",
"definition": "hitBuds",
"old": "priv := chainHidden.contains g.2,",
"new": "priv := false,",
"edit": "the separators and markers of a chain are public",
"claim": "C153"
},
{
"file": "Model/Families.lean",
"definition": "chainFamilies",
"old": "tags := tags, priv := true }",
"new": "tags := tags, priv := false }",
"edit": "the chain is public",
"claim": "C153"
},
{
"file": "Model/Families.lean",
"definition": "StrPattern.families",
"old": "start := m.start, stop := m.stop, fmt := formatted give P.format P.name, tags := st.tags, priv := st.priv }",
"new": "start := m.start, stop := m.stop + 1, fmt := formatted give P.format P.name, tags := st.tags, priv := st.priv }",
"edit": "a word is one character longer",
"claim": "C152"
},
{
"file": "Model/Families.lean",
"definition": "offspring",
"old": "decide (x.id = k.id) && decide (x.start < x.stop) &&",
"new": "decide (x.id = k.id) &&",
"edit": "a child may be without characters",
"claim": "C152"
},
{
"file": "Model/Program.lean",
"definition": "familiesOf",
"old": "if passes g d.needs && d.wanted g then",
"new": "if d.wanted g then",
"edit": "nothing can be excluded",
"claim": "C154"
},
{
"file": "Model/Program.lean",
"definition": "beginning",
"old": "marksOf g c!\"([{\" c!\")]}\" s }",
"new": "marksOf g c!\"([{\" c!\")]\" s }",
"edit": "the closing brace is no bracket",
"claim": "C152, C37"
},
{
"file": "Model/Program.lean",
"definition": "program",
"old": "engine (ruleEnvOf O base gs s) g (beginning g gs s)",
"new": ".ok (beginning g gs s)",
"edit": "no rule runs",
"claim": "C153 C155 C37"
},
{
"file": "Model/Program.lean",
"definition": "program",
"old": "engine (ruleEnvOf O base gs s) g (beginning",
"new": "engine (ruleEnvOf O base gs s) [] (beginning",
"edit": "the rules do not see the options",
"claim": "C154 C155"
},
{
"file": "Model/Whole.lean",
"definition": "outMatches",
"old": "name := n, value := pyOf",
"new": "name := n ++ c!\"s\", value := pyOf",
"edit": "the keys are in the plural",
"claim": "C153"
},
{
"file": "Model/Whole.lean",
"definition": "guessitSys",
"old": "| .ok s => .ok (outMatches obj s)",
"new": "| .ok _ => .ok []",
"edit": "nothing is returned",
"claim": "C155"
},
{
"file": "Model/Whole.lean",
"definition": "guessitSys",
"old": "match program O base options text with",
"new": "match program O base [] text with",
"edit": "the options are lost",
"claim": "C154"
}
]