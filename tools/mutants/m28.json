[
{
"file": "Model/Forms.lean",
"definition": "sourceTable",
"old": "sourceEntry c!\"Telesync\" [rip]",
"new": "sourceEntry c!\"TeleSync\" [rip]",
"edit": "the value of telesync has another case",
"claim": "C158"
},
{
"file": "Model/Forms.lean",
"definition": "sourceTable",
"old": "sourceEntry c!\"Satellite\" [rip] ([c!\"DSR\", c!\"DTH\"].map may)",
"new": "sourceEntry c!\"Satellite\" [] ([c!\"DSR\", c!\"DTH\"].map may)",
"edit": "the rip of DSRip has no value",
"claim": "C158"
},
{
"file": "Model/Forms.lean",
"definition": "hdRipEntry",
"old": "(c!\"another\", c!\"Rip\")], regexes := [c!\"(HD)",
"new": "(c!\"anothr\", c!\"Rip\")], regexes := [c!\"(HD)",
"edit": "the second value of HDRip has a misspelt name",
"claim": "C158"
},
{
"file": "Model/UltraHd.lean",
"definition": "promote",
"old": "some (.str c!\"Ultra HD Blu-ray\")",
"new": "some (.str c!\"UHD Blu-ray\")",
"edit": "the rule gives another text",
"claim": "C158"
},
{
"file": "Model/Declared.lean",
"definition": "repackPattern",
"old": "if name = c!\"other\" then c!\"Proper\" else t",
"new": "if name = c!\"other\" then t else t",
"edit": "repack keeps its text",
"claim": "C158"
},
{
"file": "Model/Declared.lean",
"definition": "plainNumber",
"old": "if name = c!\"other\" then .str c!\"Extras\"",
"new": "if name = c!\"other\" then .str t",
"edit": "Extras keeps its text",
"claim": "C158"
},
{
"file": "Model/PhraseTables.lean",
"definition": "editionTable",
"old": "\u27e8[c!\"Ultimate\", c!\"Collector\"], []",
"new": "\u27e8[c!\"Ultimate\", c!\"Collectors\"], []",
"edit": "the value of one phrase is misspelt in a list",
"claim": "C158"
},
{
"file": "Model/Declared.lean",
"definition": "apiPattern",
"old": ".ok c!\"DXVA\"",
"new": ".ok c!\"dxva2\"",
"edit": "the video api has another value",
"claim": "C158"
},
{
"file": "Model/EpisodeWords.lean",
"definition": "allPattern",
"old": ".ok (.str c!\"Complete\")",
"new": ".ok (.str c!\"All\")",
"edit": "S01xAll gives another value",
"claim": "C158"
},
{
"file": "Model/Extras.lean",
"definition": "itFound",
"old": ".ok c!\"iTunes\"",
"new": ".ok c!\"iT\"",
"edit": "iT keeps its text",
"claim": "C158"
},
{
"file": "Model/Processors.lean",
"definition": "equivalentStep",
"old": "      if u.lower h = u.lower v then",
"new": "      if (u.lower h).length = (u.lower v).length then",
"edit": "a hole as long as a value is taken for it",
"claim": "C158"
}
]