[
 {
  "file": "Model/EpisodeTitle.lean",
  "definition": "nextNames",
  "old": "c!\"streaming_service\", c!\"screen_size\"",
  "new": "c!\"screen_size\"",
  "edit": "streaming_service missing from next names",
  "claim": "C83"
 },
 {
  "file": "Model/EpisodeTitle.lean",
  "definition": "groupAt",
  "old": "m.name = some c!\"group\"",
  "new": "m.name = some c!\"path\"",
  "edit": "looks at path instead of group",
  "claim": "C83"
 },
 {
  "file": "Model/EpisodeTitle.lean",
  "definition": "hasHole",
  "old": "!blank s.input h.1 h.2 &&",
  "new": "true &&",
  "edit": "holes of separators count",
  "claim": "C83"
 },
 {
  "file": "Model/EpisodeTitle.lean",
  "definition": "hasHole",
  "old": "&& decide (group = groupAt s h.1 h.2)",
  "new": "",
  "edit": "group ignored",
  "claim": "C83"
 },
 {
  "file": "Model/EpisodeTitle.lean",
  "definition": "conflictsWithTitle",
  "old": "match lastIn s part.start m.start fun x => !x.priv",
  "new": "match firstIn s part.start m.start fun x => !x.priv",
  "edit": "first instead of last match before",
  "claim": "C83"
 },
 {
  "file": "Model/EpisodeTitle.lean",
  "definition": "conflictsWithTitle",
  "old": "firstIn s m.stop part.stop fun x => !x.priv with",
  "new": "firstIn s m.stop part.stop fun _ => true with",
  "edit": "private matches considered after",
  "claim": "C83"
 },
 {
  "file": "Model/EpisodeTitle.lean",
  "definition": "conflictsWithTitle",
  "old": "before.isOneOf previousNames && after.isOneOf nextNames",
  "new": "(before.isOneOf previousNames || after.isOneOf nextNames)",
  "edit": "or instead of and",
  "claim": "C83"
 },
 {
  "file": "Model/EpisodeTitle.lean",
  "definition": "conflictsWithTitle",
  "old": "hasHole s g before.stop m.start || hasHole s g m.stop after.start",
  "new": "hasHole s g before.stop m.start && hasHole s g m.stop after.start",
  "edit": "year needs both holes",
  "claim": "C83"
 },
 {
  "file": "Model/EpisodeTitle.lean",
  "definition": "conflictsWithTitle",
  "old": "if m.name = some c!\"part\" then",
  "new": "if m.name = some c!\"year\" then",
  "edit": "part/year swapped",
  "claim": "C83"
 },
 {
  "file": "Model/EpisodeTitle.lean",
  "definition": "conflictsWithTitle",
  "old": "hasHole s g before.stop m.start ||",
  "new": "hasHole s g before.start m.start ||",
  "edit": "hole counted from the start of the previous match",
  "claim": "C83 (no change: the previous match covers its own text unless free text precedes)"
 },
 {
  "file": "Model/EpisodeTitle.lean",
  "definition": "removeTitleConflicts",
  "old": "[c!\"part\", c!\"year\"]",
  "new": "[c!\"part\"]",
  "edit": "years not affected",
  "claim": "C83"
 },
 {
  "file": "Model/EpisodeTitle.lean",
  "definition": "removeTitleConflicts",
  "old": "m :: ((kin.ancestors m).take 1)",
  "new": "m :: ((kin.ancestors m).take 0)",
  "edit": "parent kept",
  "claim": "C83"
 },
 {
  "file": "Model/EpisodeTitle.lean",
  "definition": "renameEach",
  "old": "removeMatch input l m ++",
  "new": "l ++",
  "edit": "old match not removed",
  "claim": "C81,C82"
 },
 {
  "file": "Model/EpisodeTitle.lean",
  "definition": "renameEach",
  "old": "++ [{ m with name := some name }]",
  "new": "++ [m]",
  "edit": "name not changed",
  "claim": "C81,C82"
 },
 {
  "file": "Model/EpisodeTitle.lean",
  "definition": "titlesAfterEpisode",
  "old": "< 2 then []",
  "new": "< 1 then []",
  "edit": "one title suffices",
  "claim": "C81"
 },
 {
  "file": "Model/EpisodeTitle.lean",
  "definition": "titlesAfterEpisode",
  "old": "fun m => m.name = some c!\"episode\").isEmpty",
  "new": "fun m => m.name = some c!\"season\").isEmpty",
  "edit": "after a season",
  "claim": "C81"
 },
 {
  "file": "Model/EpisodeTitle.lean",
  "definition": "titlesAfterEpisode",
  "old": "!(previous s.live t",
  "new": "(previous s.live t",
  "edit": "condition negated",
  "claim": "C81"
 },
 {
  "file": "Model/EpisodeTitle.lean",
  "definition": "titleToEpisodeTitle",
  "old": "c!\"episode_title\" s.live",
  "new": "c!\"alternative_title\" s.live",
  "edit": "wrong new name",
  "claim": "C81"
 },
 {
  "file": "Model/EpisodeTitle.lean",
  "definition": "alternativeToReplace",
  "old": "if !(named s.live c!\"episode_title\").isEmpty then none",
  "new": "if false then none",
  "edit": "existing episode title not checked",
  "claim": "C82"
 },
 {
  "file": "Model/EpisodeTitle.lean",
  "definition": "alternativeToReplace",
  "old": "fun m => m.tagged c!\"title\"",
  "new": "fun m => m.tagged c!\"expected\"",
  "edit": "wrong tag in chain",
  "claim": "C82"
 },
 {
  "file": "Model/EpisodeTitle.lean",
  "definition": "alternativeToReplace",
  "old": "|| !(named s.live c!\"crc32\").isEmpty",
  "new": "",
  "edit": "checksum ignored",
  "claim": "C82"
 },
 {
  "file": "Model/EpisodeTitle.lean",
  "definition": "alternativeToReplace",
  "old": "alt.start) with",
  "new": "alt.stop) with",
  "edit": "chain from the end of the alternative title",
  "claim": "C82"
 },
 {
  "file": "Model/EpisodeTitle.lean",
  "definition": "replacedTitle",
  "old": "tags := alt.tags ++ [c!\"alternative-replaced\"]",
  "new": "tags := alt.tags",
  "edit": "tag missing",
  "claim": "C82"
 },
 {
  "file": "Model/EpisodeTitle.lean",
  "definition": "replacedTitle",
  "old": "name := some c!\"episode_title\"",
  "new": "name := some c!\"title\"",
  "edit": "wrong name",
  "claim": "C82"
 },
 {
  "file": "Model/EpisodeTitle.lean",
  "definition": "renameEpisodeTitleWhenMovie",
  "old": "!m.tagged c!\"alternative-replaced\"",
  "new": "m.tagged c!\"alternative-replaced\"",
  "edit": "tag negated",
  "claim": "C82"
 },
 {
  "file": "Model/EpisodeTitle.lean",
  "definition": "renameEpisodeTitleWhenMovie",
  "old": ".str c!\"episode\")) then",
  "new": ".str c!\"movie\")) then",
  "edit": "type movie instead of episode",
  "claim": "C82"
 },
 {
  "file": "Model/EpisodeTitle.lean",
  "definition": "renameEpisodeTitleWhenMovie",
  "old": "s.live (named s.live c!\"episode_title\")",
  "new": "s.live ((named s.live c!\"episode_title\").take 1)",
  "edit": "only the first is renamed",
  "claim": "C82"
 },
 {
  "file": "Model/EpisodeTitle.lean",
  "definition": "filepartIgnored",
  "old": "m.tagged c!\"weak-episode\" ||",
  "new": "",
  "edit": "weak episodes not ignored",
  "claim": "C80"
 },
 {
  "file": "Model/EpisodeTitle.lean",
  "definition": "filepartHole",
  "old": "titleSeps part.start part.stop",
  "new": "seps part.start part.stop",
  "edit": "all separators close holes",
  "claim": "C80"
 },
 {
  "file": "Model/EpisodeTitle.lean",
  "definition": "filepartHole",
  "old": "part.start part.stop).find?",
  "new": "part.start (part.stop + 1)).find?",
  "edit": "one too far",
  "claim": "C80"
 },
 {
  "file": "Model/EpisodeTitle.lean",
  "definition": "filepartHole",
  "old": ".find? fun h =>\n    !(cleanup (sliceOf s.input h)).isEmpty",
  "new": ".find? fun h => decide (h.1 < h.2)",
  "edit": "hole of separators accepted",
  "claim": "C80"
 },
 {
  "file": "Model/EpisodeTitle.lean",
  "definition": "filepart3",
  "old": "filename :: directory :: subdirectory :: _",
  "new": "filename :: subdirectory :: directory :: _",
  "edit": "directories swapped",
  "claim": "C80"
 },
 {
  "file": "Model/EpisodeTitle.lean",
  "definition": "filepart3",
  "old": "directory.stop fun m => m.name = some c!\"season\").isSome then",
  "new": "directory.stop fun m => m.name = some c!\"episode\").isSome then",
  "edit": "episode in the directory",
  "claim": "C80"
 },
 {
  "file": "Model/EpisodeTitle.lean",
  "definition": "filepart3",
  "old": "c!\"title\" s.live [cleanHole h]",
  "new": "c!\"episode_title\" s.live [cleanHole h]",
  "edit": "wrong name",
  "claim": "C80"
 },
 {
  "file": "Model/EpisodeTitle.lean",
  "definition": "filepart2",
  "old": "||\n            (firstIn s filename.start filename.stop fun m => m.name = some c!\"season\").isSome)",
  "new": "||\n            (firstIn s directory.start directory.stop fun m => m.name = some c!\"season\").isSome)",
  "edit": "season in the file name not considered",
  "claim": "C80"
 },
 {
  "file": "Model/EpisodeTitle.lean",
  "definition": "filepart2",
  "old": "[{ cleanHole h with tags := [c!\"filepart-title\"] }]",
  "new": "[cleanHole h]",
  "edit": "tag missing",
  "claim": "C80"
 },
 {
  "file": "Model/EpisodeTitle.lean",
  "definition": "filepart2",
  "old": "if s.live.any fun m => m.tagged c!\"filepart-title\" then s\n  else match (named s.markers c!\"path\").reverse with\n    | filename :: directory :: _",
  "new": "if false then s\n  else match (named s.markers c!\"path\").reverse with\n    | filename :: directory :: _",
  "edit": "runs twice",
  "claim": "C80"
 },
 {
  "file": "Model/EpisodeTitle.lean",
  "definition": "appendFirstHole",
  "old": "if h.1 < h.2 && !(cleanup (sliceOf s.input h)).isEmpty then",
  "new": "if h.1 < h.2 then",
  "edit": "hole of separators accepted",
  "claim": "C84,C85"
 },
 {
  "file": "Model/EpisodeTitle.lean",
  "definition": "numberAndPart",
  "old": ".filter fun m => !m.priv)",
  "new": ".filter fun _ => true)",
  "edit": "private number used",
  "claim": "C84,C85"
 },
 {
  "file": "Model/EpisodeTitle.lean",
  "definition": "bonusTitle",
  "old": "m.stop (part.stop + 1)",
  "new": "m.start (part.stop + 1)",
  "edit": "from the start of the number (no observable change: the number covers itself)",
  "claim": "C84"
 },
 {
  "file": "Model/EpisodeTitle.lean",
  "definition": "bonusTitle",
  "old": "m.stop (part.stop + 1)",
  "new": "m.stop part.stop",
  "edit": "stops before the separator",
  "claim": "C84"
 },
 {
  "file": "Model/EpisodeTitle.lean",
  "definition": "bonusTitle",
  "old": "c!\"bonus_title\" (hole",
  "new": "c!\"title\" (hole",
  "edit": "wrong name",
  "claim": "C84"
 },
 {
  "file": "Model/EpisodeTitle.lean",
  "definition": "filmTitle",
  "old": "part.start (m.start + 1)",
  "new": "part.start m.stop",
  "edit": "up to the end of the number (same result)",
  "claim": "C85"
 },
 {
  "file": "Model/EpisodeTitle.lean",
  "definition": "filmTitle",
  "old": "part.start (m.start + 1)",
  "new": "m.stop (part.stop + 1)",
  "edit": "after the number",
  "claim": "C85"
 },
 {
  "file": "Model/Holes.lean",
  "definition": "holeLoop",
  "old": "if sep i || covered i then",
  "new": "if covered i then",
  "edit": "separators do not close holes",
  "claim": "C80"
 },
 {
  "file": "Model/Holes.lean",
  "definition": "holeLoop",
  "old": "(some (max i start))",
  "new": "(some i)",
  "edit": "hole starts before start",
  "claim": "C80"
 },
 {
  "file": "Model/Holes.lean",
  "definition": "holeStart",
  "old": "then p else",
  "new": "then p + 1 else",
  "edit": "loop starts after the match start",
  "claim": "C84 (same result)"
 }
]