[
 {
  "file": "Model/ReleaseGroup.lean",
  "definition": "validEnd",
  "old": "fun m => !m.priv && !(decide (m.start = c.start)",
  "new": "fun m => !(decide (m.start = c.start)",
  "edit": "private matches in the group count",
  "claim": "C87"
 },
 {
  "file": "Model/ReleaseGroup.lean",
  "definition": "endable",
  "old": "  !m.priv && !(decide (m.name = some c!\"other\")",
  "new": "  !(decide (m.name = some c!\"other\")",
  "edit": "private match may be a release group",
  "claim": "C87"
 },
 {
  "file": "Model/ReleaseGroup.lean",
  "definition": "stripGroup",
  "old": "(s.getLast?).any ignored.contains && (s.head?)",
  "new": "(s.getLast?).any ignored.contains || (s.head?)",
  "edit": "and->or: single bracket not stripped (second attempt)",
  "claim": "C86",
  "tightened": [
   "C86_one_side"
  ]
 },
 {
  "file": "Model/SceneGroup.lean",
  "definition": "scenePreviousNames",
  "old": "c!\"screen_size\", c!\"other\"",
  "new": "c!\"other\"",
  "edit": "screen_size missing",
  "claim": "C88"
 },
 {
  "file": "Model/SceneGroup.lean",
  "definition": "scenePrevious",
  "old": "then !m.tagged c!\"no-release-group-prefix\"",
  "new": "then true",
  "edit": "no-release-group-prefix ignored",
  "claim": "C88"
 },
 {
  "file": "Model/SceneGroup.lean",
  "definition": "scenePrevious",
  "old": "else m.tagged c!\"release-group-prefix\"",
  "new": "else false",
  "edit": "release-group-prefix ignored",
  "claim": "C88"
 },
 {
  "file": "Model/SceneGroup.lean",
  "definition": "insidePart",
  "old": "decide (m.stop \u2264 part.stop)",
  "new": "decide (m.stop < part.stop)",
  "edit": "a match at the very end of the part is not in it",
  "claim": "C88"
 },
 {
  "file": "Model/SceneGroup.lean",
  "definition": "extraTitle",
  "old": ".drop 1)",
  "new": ".drop 0)",
  "edit": "all titles are ignored",
  "claim": "C88"
 },
 {
  "file": "Model/SceneGroup.lean",
  "definition": "extraTitle",
  "old": ".filter (insidePart part)).drop 1",
  "new": ").drop 1",
  "edit": "titles of all parts",
  "claim": "C88"
 },
 {
  "file": "Model/SceneGroup.lean",
  "definition": "sceneHole",
  "old": "part.start (part.stop + 1)",
  "new": "part.start part.stop",
  "edit": "hole ends with the part",
  "claim": "C88"
 },
 {
  "file": "Model/SceneGroup.lean",
  "definition": "sceneHole",
  "old": ".reverse.find? fun h",
  "new": ".find? fun h",
  "edit": "first instead of last hole",
  "claim": "C88"
 },
 {
  "file": "Model/SceneGroup.lean",
  "definition": "sceneHole",
  "old": "!(cleanup (cleanGroup e (sliceOf s.input h))).isEmpty",
  "new": "true",
  "edit": "nameless holes count",
  "claim": "C88"
 },
 {
  "file": "Model/SceneGroup.lean",
  "definition": "sceneHole",
  "old": "(extraTitle s part) []",
  "new": "(fun _ => false) []",
  "edit": "extra titles not ignored",
  "claim": "C88"
 },
 {
  "file": "Model/SceneGroup.lean",
  "definition": "scenePrev",
  "old": "decide (part.start \u2264 m.start) && (!m.priv",
  "new": "(!m.priv",
  "edit": "previous match may be in another part",
  "claim": "C88"
 },
 {
  "file": "Model/SceneGroup.lean",
  "definition": "scenePrev",
  "old": "(!m.priv || scenePrevious m)",
  "new": "!m.priv",
  "edit": "private previous match refused",
  "claim": "C88"
 },
 {
  "file": "Model/SceneGroup.lean",
  "definition": "sceneMatch",
  "old": "start := g.start + 1, stop := g.stop - 1",
  "new": "start := g.start, stop := g.stop",
  "edit": "brackets kept in the span",
  "claim": "C88"
 },
 {
  "file": "Model/SceneGroup.lean",
  "definition": "sceneMatch",
  "old": "if ({ g with fmt := clean } : Mt).value s.input = clean (sliceOf s.input h) then",
  "new": "if true then",
  "edit": "always unwrapped",
  "claim": "C88"
 },
 {
  "file": "Model/SceneGroup.lean",
  "definition": "sceneFound",
  "old": "scenePrevious p && blank",
  "new": "blank",
  "edit": "any previous match",
  "claim": "C88"
 },
 {
  "file": "Model/SceneGroup.lean",
  "definition": "sceneFound",
  "old": " && blank s.input p.stop h.1",
  "new": "",
  "edit": "text may stand between",
  "claim": "C88"
 },
 {
  "file": "Model/SceneGroup.lean",
  "definition": "sceneFound",
  "old": " && !e.intLike (stripSeps (cleanGroup e (sliceOf s.input h)))",
  "new": "",
  "edit": "numbers allowed",
  "claim": "C88"
 },
 {
  "file": "Model/SceneGroup.lean",
  "definition": "sceneFound",
  "old": "if ((named s.live c!\"release_group\").filter (insidePart part)).isEmpty then",
  "new": "if true then",
  "edit": "a second release group in the part",
  "claim": "C88"
 },
 {
  "file": "Model/SceneGroup.lean",
  "definition": "sceneStep",
  "old": "(extraTitle acc.1 part)), acc",
  "new": "(fun _ => false)), acc",
  "edit": "extra titles kept",
  "claim": "C88"
 },
 {
  "file": "Model/SceneGroup.lean",
  "definition": "sceneStep",
  "old": "acc.2 ++ [m])",
  "new": "[m])",
  "edit": "only the last part's group kept",
  "claim": "C88"
 },
 {
  "file": "Model/SceneGroup.lean",
  "definition": "sceneRun",
  "old": "appendAll s.input r.1.live r.2",
  "new": "appendAll s.input s.live r.2",
  "edit": "removed titles come back",
  "claim": "C88"
 },
 {
  "file": "Model/SceneGroup.lean",
  "definition": "emptyGroup",
  "old": "!m.tagged c!\"weak-language\").isEmpty &&",
  "new": "true).isEmpty &&",
  "edit": "weak languages block the group",
  "claim": "C89"
 },
 {
  "file": "Model/SceneGroup.lean",
  "definition": "emptyGroup",
  "old": "!(stripSeps t).isEmpty && !e",
  "new": "!e",
  "edit": "empty brackets allowed",
  "claim": "C89"
 },
 {
  "file": "Model/SceneGroup.lean",
  "definition": "emptyGroup",
  "old": " && !e.intLike (stripSeps t)",
  "new": "",
  "edit": "numbers allowed",
  "claim": "C89"
 },
 {
  "file": "Model/SceneGroup.lean",
  "definition": "animeMatch",
  "old": "some (g.rawA + 1)",
  "new": "some g.rawA",
  "edit": "opening bracket kept",
  "claim": "C89"
 },
 {
  "file": "Model/SceneGroup.lean",
  "definition": "animeMatch",
  "old": "some (g.rawB - 1)",
  "new": "some g.rawB",
  "edit": "closing bracket kept",
  "claim": "C89"
 },
 {
  "file": "Model/SceneGroup.lean",
  "definition": "animeRun",
  "old": "fun m => m.tagged c!\"weak-language\"\n    {",
  "new": "fun _ => false\n    {",
  "edit": "weak languages kept",
  "claim": "C89"
 },
 {
  "file": "Model/SceneGroup.lean",
  "definition": "animeRun",
  "old": "if !(named s.live c!\"release_group\").isEmpty then s",
  "new": "if false then s",
  "edit": "runs although a group is known",
  "claim": "C89"
 },
 {
  "file": "Model/SceneGroup.lean",
  "definition": "animeRun",
  "old": "(groups.map animeMatch)",
  "new": "((groups.take 1).map animeMatch)",
  "edit": "only one part reported",
  "claim": "C89"
 },
 {
  "file": "Model/Markers.lean",
  "definition": "consecutive",
  "old": "(a + 1, b) :: consecutive",
  "new": "(a, b) :: consecutive",
  "edit": "elements include the separator",
  "claim": "C23"
 }
]