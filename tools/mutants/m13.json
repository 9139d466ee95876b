[
 {
  "file": "Model/Conflicts.lean",
  "definition": "isAnime",
  "old": "!(named s.live c!\"crc32\").isEmpty ||\n",
  "new": "false ||\n",
  "edit": "checksum ignored",
  "claim": "C90"
 },
 {
  "file": "Model/Conflicts.lean",
  "definition": "untouchedAtStart",
  "old": "| none => false)\n\n/-- `WeakConflictSolver.is_anime`",
  "new": "| none => true)\n\n/-- `WeakConflictSolver.is_anime`",
  "edit": "fully covered group counts as untouched",
  "claim": "C90"
 },
 {
  "file": "Model/Conflicts.lean",
  "definition": "weakStep",
  "old": "else (acc.1 ++ dup ++ animeEpisodes s part,",
  "new": "else (acc.1 ++ dup,",
  "edit": "episodes not removed before being tagged",
  "claim": "C90"
 },
 {
  "file": "Model/Conflicts.lean",
  "definition": "weakStep",
  "old": "m.tagged c!\"SxxExx\").isEmpty then (acc.1 ++ weak",
  "new": "m.tagged c!\"SxxExx\").isEmpty then (acc.1 ++ dup",
  "edit": "drops the wrong reading",
  "claim": "C90"
 },
 {
  "file": "Model/Conflicts.lean",
  "definition": "weakStep",
  "old": "if ranged.isEmpty && (",
  "new": "if ranged.isEmpty || (",
  "edit": "or instead of and",
  "claim": "C90"
 },
 {
  "file": "Model/Conflicts.lean",
  "definition": "rangedEpisodes",
  "old": "decide (m.name = some c!\"episode\") && decide (m.iname = some c!\"weak_episode\") &&\n",
  "new": "decide (m.iname = some c!\"weak_episode\") &&\n",
  "edit": "ranged matches need not be episodes",
  "claim": "C90"
 },
 {
  "file": "Model/Conflicts.lean",
  "definition": "laterEpisodes",
  "old": "(part.start + 1) part.stop",
  "new": "part.start part.stop",
  "edit": "episode at the first character counts",
  "claim": "C91"
 },
 {
  "file": "Model/Conflicts.lean",
  "definition": "renameAbsolute",
  "old": "if first.length ≠ second.length then some s else\n",
  "new": "",
  "edit": "ranges of different sizes accepted",
  "claim": "C91"
 },
 {
  "file": "Model/Conflicts.lean",
  "definition": "renameAbsolute",
  "old": "if b > a then some { s with live := renameAll s.input c!\"absolute_episode\" s.live second }",
  "new": "if b ≥ a then some { s with live := renameAll s.input c!\"absolute_episode\" s.live second }",
  "edit": "equal numbers accepted",
  "claim": "C91"
 },
 {
  "file": "Model/Conflicts.lean",
  "definition": "rangeInitiators",
  "old": "c!\"episode\").length > 1)",
  "new": "c!\"episode\").length > 0)",
  "edit": "a lone episode is a range",
  "claim": "C91"
 },
 {
  "file": "Model/Conflicts.lean",
  "definition": "renameDisc",
  "old": "markers.flatMap fun m => m :: kin.children",
  "new": "markers.flatMap fun m => kin.children",
  "edit": "marker itself kept when it is not among the children",
  "claim": "C92"
 },
 {
  "file": "Model/Renamers.lean",
  "definition": "sizeValue",
  "old": "if e.standard.contains h && e.within w h",
  "new": "if e.standard.contains h || e.within w h",
  "edit": "or instead of and",
  "claim": "C93"
 },
 {
  "file": "Model/Renamers.lean",
  "definition": "sizeValue",
  "old": "else some (w ++ c!\"x\" ++ h)",
  "new": "else some (h ++ c!\"x\" ++ w)",
  "edit": "width and height swapped",
  "claim": "C93"
 },
 {
  "file": "Model/Renamers.lean",
  "definition": "scanType",
  "old": "| none => e.lower c!\"p\"",
  "new": "| none => c!\"p\"",
  "edit": "default not in lower case (no effect with a real lower)",
  "claim": "C93"
 },
 {
  "file": "Model/Renamers.lean",
  "definition": "sizeExtras",
  "old": "if noRatio then [] else\n",
  "new": "if noFrames then [] else\n",
  "edit": "wrong exclusion tested",
  "claim": "C93"
 },
 {
  "file": "Model/Renamers.lean",
  "definition": "divides",
  "old": "| some h, some _ => !isZero h",
  "new": "| some h, _ => !isZero h",
  "edit": "raises without a width",
  "claim": "C93"
 },
 {
  "file": "Model/Renamers.lean",
  "definition": "videoRate",
  "old": "!(linkedAfter s m",
  "new": "(linkedAfter s m",
  "edit": "slow rates are the video's",
  "claim": "C95"
 },
 {
  "file": "Model/Renamers.lean",
  "definition": "bitRateType",
  "old": "if noAudio then dropping s rates",
  "new": "if noAudio then dropping s (rates.filter (videoRate slow s))",
  "edit": "only video rates dropped",
  "claim": "C95"
 },
 {
  "file": "Model/Subtitles.lean",
  "definition": "subtitlePrefix",
  "old": "| none => firstIn s g.start lang.start isSubPrefix",
  "new": "| none => firstIn s g.start g.stop isSubPrefix",
  "edit": "prefix after the language in the group",
  "claim": "C96"
 },
 {
  "file": "Model/Subtitles.lean",
  "definition": "prefixRemoved",
  "old": "removeMatch s.input (acc ++ conflicting s.input s.live q.2) q.1",
  "new": "removeMatch s.input acc q.1",
  "edit": "conflicting matches kept",
  "claim": "C96"
 },
 {
  "file": "Model/Subtitles.lean",
  "definition": "prefixStep",
  "old": "{ q.1 with name := some c!\"subtitle_language.suffix\" }",
  "new": "{ q.2 with name := some c!\"subtitle_language.suffix\" }",
  "edit": "suffix twin of the language instead of the prefix",
  "claim": "C96"
 },
 {
  "file": "Model/Subtitles.lean",
  "definition": "subtitleSuffix",
  "old": "nextOf s.input s.live lang isSubSuffix",
  "new": "nextOf s.input s.live lang isSubPrefix",
  "edit": "looks for prefixes",
  "claim": "C96"
 },
 {
  "file": "Model/Subtitles.lean",
  "definition": "subtitleExtension",
  "old": "fun m => m.tags.contains c!\"extension\" && m.tags.contains c!\"subtitle\"",
  "new": "fun m => m.tags.contains c!\"extension\"",
  "edit": "any extension",
  "claim": "C96"
 },
 {
  "file": "Model/Subtitles.lean",
  "definition": "hideWeak",
  "old": "m.name = some c!\"subtitle_language\" ∧ c!\"weak-language\" ∈ m.tags",
  "new": "c!\"weak-language\" ∈ m.tags",
  "edit": "weak languages hidden too",
  "claim": "C96"
 },
 {
  "file": "Model/Subtitles.lean",
  "definition": "subtitleExtension",
  "old": "removeAll s.input l sources",
  "new": "removeAll s.input s.live sources",
  "edit": "weak languages not hidden",
  "claim": "C96"
 },
 {
  "file": "Model/UltraHd.lean",
  "definition": "isUltra",
  "old": "!m.priv && decide (m.name = some c!\"other\")",
  "new": "decide (m.name = some c!\"other\")",
  "edit": "hidden Ultra HD used again",
  "claim": "C94"
 },
 {
  "file": "Model/UltraHd.lean",
  "definition": "clearRange",
  "old": "(!decide (m.name = some c!\"other\") || !m.tags",
  "new": "(!decide (m.name = some c!\"other\") && !m.tags",
  "edit": "and instead of or",
  "claim": "C94"
 },
 {
  "file": "Model/UltraHd.lean",
  "definition": "ultraAfter",
  "old": "if clearRange s m.stop o.start || has2160 s part",
  "new": "if clearRange s m.stop o.start && has2160 s part",
  "edit": "and instead of or",
  "claim": "C94"
 },
 {
  "file": "Model/UltraHd.lean",
  "definition": "ultraOf",
  "old": "if clearRange s o.stop m.start then some (some o) else ultraAfter s part m",
  "new": "if clearRange s o.stop m.start then some (some o) else none",
  "edit": "no search after when the one before fails",
  "claim": "C94"
 },
 {
  "file": "Model/UltraHd.lean",
  "definition": "ultraStep",
  "old": "| some (some o) => (hideOne s.input o st.1, st.2 ++ [m])",
  "new": "| some (some o) => (st.1, st.2 ++ [m])",
  "edit": "Ultra HD not hidden",
  "claim": "C94"
 },
 {
  "file": "Model/UltraHd.lean",
  "definition": "ultraHdBluray",
  "old": "(removeAll s.input st.1 st.2)",
  "new": "st.1",
  "edit": "Blu-ray kept",
  "claim": "C94"
 }
]