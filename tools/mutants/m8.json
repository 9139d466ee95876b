[
 {
  "file": "Model/Validators.lean",
  "definition": "untilOk",
  "old": "  | m :: ms => if ok m then [] else m :: untilOk ok ms",
  "new": "  | m :: ms => if ok m then untilOk ok ms else m :: untilOk ok ms",
  "edit": "the loop continues instead of breaking",
  "claim": "C63: has_neighbor describes exactly what is dropped"
 },
 {
  "file": "Model/Validators.lean",
  "definition": "neighborBefore",
  "old": "if g.stop > p.stop then some g else some p",
  "new": "if g.stop < p.stop then some g else some p",
  "edit": "keeps the farther of group and match",
  "claim": "C63"
 },
 {
  "file": "Model/Validators.lean",
  "definition": "touchesAfter",
  "old": "| some n => blank s.input m.stop n.start",
  "new": "| some n => blank s.input m.start n.start",
  "edit": "text measured from the start of the word",
  "claim": "C63"
 },
 {
  "file": "Model/Validators.lean",
  "definition": "validateScreener",
  "old": "| some src => !blank s.input src.stop m.start)",
  "new": "| some src => !blank s.input src.start m.start)",
  "edit": "text measured from the start of the source",
  "claim": "C64: screener right after a source is kept"
 },
 {
  "file": "Model/Validators.lean",
  "definition": "validateMux",
  "old": "(firstTrue (previous s.live m fun x => x.iname = some c!\"source\")).isNone)",
  "new": "(firstTrue (nextOf s.input s.live m fun x => x.iname = some c!\"source\")).isNone)",
  "edit": "looks for the source after the mux",
  "claim": "C64"
 },
 {
  "file": "Model/Validators.lean",
  "definition": "validateAtEnd",
  "old": "hasText s.input s.live m.stop part.stop ||",
  "new": "hasText s.input s.live m.stop part.stop &&",
  "edit": "and instead of or",
  "claim": "C64"
 },
 {
  "file": "Model/Validators.lean",
  "definition": "validateReal",
  "old": "(rangeOf s.input s.live part.start m.start fun _ => true).isEmpty)",
  "new": "(rangeOf s.input s.live part.start m.stop fun _ => true).isEmpty)",
  "edit": "the range includes the word itself",
  "claim": "C64: real at the start of a part is dropped"
 },
 {
  "file": "Model/Validators.lean",
  "definition": "audioValidator",
  "old": "(!sepsAfter s.input m && (rangeOf s.input s.live m.stop (m.stop + 1) audio).isEmpty))",
  "new": "(!sepsAfter s.input m && (rangeOf s.input s.live m.stop m.stop audio).isEmpty))",
  "edit": "empty range after the property",
  "claim": "C66"
 },
 {
  "file": "Model/Validators.lean",
  "definition": "audioProfile",
  "old": "then [m] else conflicting s.input s.live m)",
  "new": "then [m] else [])",
  "edit": "conflicts of a confirmed profile are kept",
  "claim": "C66"
 },
 {
  "file": "Model/Validators.lean",
  "definition": "hqConflict",
  "old": "decide (h.start = m.start) && decide (h.stop = m.stop))",
  "new": "decide (h.start = m.start))",
  "edit": "only the starts are compared",
  "claim": "C66"
 },
 {
  "file": "Model/Validators.lean",
  "definition": "audioChannelsValidator",
  "old": "(rangeOf s.input s.live (m.start - 1) m.start fun x => decide (x.name = some c!\"audio_codec\")).isEmpty)",
  "new": "(rangeOf s.input s.live (m.start - 1) m.start fun x => decide (x.name = some c!\"audio_channels\")).isEmpty)",
  "edit": "wrong property looked for",
  "claim": "C66"
 },
 {
  "file": "Model/Validators.lean",
  "definition": "validateVideoCodec",
  "old": "(!sepsBefore s.input m && ((atIndex s.live (m.start - 1))",
  "new": "(!sepsBefore s.input m && ((atIndex s.live (m.start - 2))",
  "edit": "prefix looked for two characters before",
  "claim": "C65"
 },
 {
  "file": "Model/Validators.lean",
  "definition": "videoProfile",
  "old": "(firstTrue ((atSpan s.input s.live m.start m.stop).filter isCodec)).isNone && (previous s.live m isCodec).isEmpty &&\n      (nextOf s.input s.live m isCodec).isEmpty)",
  "new": "(firstTrue ((atSpan s.input s.live m.start m.stop).filter isCodec)).isNone && (previous s.live m isCodec).isEmpty)",
  "edit": "the codec after the profile is not considered",
  "claim": "C65"
 },
 {
  "file": "Model/Validators.lean",
  "definition": "validateSourceAffixes",
  "old": "let m := kin.initiator m0",
  "new": "let m := m0",
  "edit": "the source itself instead of its pattern",
  "claim": "C67: dropped with all its pattern found"
 },
 {
  "file": "Model/Validators.lean",
  "definition": "validateWeakSource",
  "old": "hasText s.input s.live part.start m.start\n      then family kin m",
  "new": "hasText s.input s.live part.start m.start\n      then [m]",
  "edit": "children of a weak source are kept",
  "claim": "C67"
 },
 {
  "file": "Model/Validators.lean",
  "definition": "serviceConfirmed",
  "old": "(linkedAfter s m (fun x => x.tagged c!\"streaming_service.suffix\") && sepsBefore s.input m)",
  "new": "(linkedAfter s m (fun x => x.tagged c!\"streaming_service.suffix\") && sepsAfter s.input m)",
  "edit": "separator tested on the wrong side",
  "claim": "C67"
 },
 {
  "file": "Model/Validators.lean",
  "definition": "validateWebsitePrefix",
  "old": "    | none => true\n    | some w => hasText s.input s.live m.stop w.start)\n\n/-! ## episodes.py -/",
  "new": "    | none => false\n    | some w => hasText s.input s.live m.stop w.start)\n\n/-! ## episodes.py -/",
  "edit": "a prefix without website is kept",
  "claim": "C67"
 },
 {
  "file": "Model/Validators.lean",
  "definition": "removeWeakIfSxxExx",
  "old": "decide (m.start ≠ part.start) || decide (m.iname ≠ some c!\"weak_episode\"))",
  "new": "decide (m.start ≠ part.start))",
  "edit": "weak episodes of any pattern are kept at the start",
  "claim": "C68"
 },
 {
  "file": "Model/Validators.lean",
  "definition": "weakDuplicates",
  "old": "else weakDuplicates kin ((m.name, kin.pattern m) :: seen) ms",
  "new": "else weakDuplicates kin seen ms",
  "edit": "patterns are not recorded",
  "claim": "C68"
 },
 {
  "file": "Model/Validators.lean",
  "definition": "removeWeakDuplicate",
  "old": "(rangeOf s.input s.live part.start part.stop fun m => m.tagged c!\"weak-duplicate\").reverse)",
  "new": "(rangeOf s.input s.live part.start part.stop fun m => m.tagged c!\"weak-duplicate\"))",
  "edit": "reversed() forgotten: the first is kept",
  "claim": "C68"
 },
 {
  "file": "Model/Validators.lean",
  "definition": "episodeDetailValidator",
  "old": "!sepsSurround s.input m.start m.stop && (previous s.live m num).isEmpty && (nextOf",
  "new": "!sepsSurround s.input m.start m.stop && (previous s.live m num).isEmpty || (nextOf",
  "edit": "or instead of and",
  "claim": "C69"
 },
 {
  "file": "Model/Validators.lean",
  "definition": "versionValidator",
  "old": "!sepsSurround s.input m.istart m.istop)",
  "new": "!sepsSurround s.input m.start m.stop)",
  "edit": "the version itself instead of its initiator",
  "claim": "C69"
 },
 {
  "file": "Model/Validators.lean",
  "definition": "episodeSingleDigit",
  "old": "decide (m.istop - m.istart = 1) &&",
  "new": "decide (m.istop - m.istart ≤ 2) &&",
  "edit": "two digits too",
  "claim": "C69"
 },
 {
  "file": "Model/Removers.lean",
  "definition": "hangingFamily",
  "old": "else if !sepsBefore s.input m then",
  "new": "else if !sepsAfter s.input m then",
  "edit": "wrong side",
  "claim": "C67"
 },
 {
  "file": "Model/Removers.lean",
  "definition": "preferTitleOverWebsite",
  "old": "(firstTrue (atMatch s.input s.markers m fun g => g.name = some c!\"group\")).isNone)",
  "new": "true)",
  "edit": "the group is not considered",
  "claim": "C67"
 },
 {
  "file": "Model/Removers.lean",
  "definition": "ignoredIn",
  "old": "(named (kin.children m) c!\"episode\").length > 1)",
  "new": "(named (kin.children m) c!\"episode\").length > 0)",
  "edit": "patterns with one episode are spared",
  "claim": "C68"
 },
 {
  "file": "Model/Removers.lean",
  "definition": "removeWeakIfMovie",
  "old": "!ignored.any (Mt.eqv s.input (kin.initiator m)) && !m.tagged c!\"anime\"",
  "new": "!ignored.any (Mt.eqv s.input m) && !m.tagged c!\"anime\"",
  "edit": "match instead of its initiator is looked up",
  "claim": "C68"
 },
 {
  "file": "Model/Removers.lean",
  "definition": "removeWeakIfMovie",
  "old": "dropping s ((years.flatMap fun p => conflicting s.input s.live p.2) ++ weak)",
  "new": "dropping s weak",
  "edit": "conflicts with the year are kept",
  "claim": "C68"
 },
 {
  "file": "Model/Removers.lean",
  "definition": "removeInvalidSeason",
  "old": "if !m.tagged c!\"SxxExx\" || !hasEpisode m then",
  "new": "if !m.tagged c!\"SxxExx\" && !hasEpisode m then",
  "edit": "and instead of or",
  "claim": "C69"
 },
 {
  "file": "Model/Removers.lean",
  "definition": "removeInvalidSeason",
  "old": "(rangeOf s.input s.live strong.stop part.stop fun m => decide (m.name = some c!\"season\") && !m.priv).flatMap",
  "new": "(rangeOf s.input s.live strong.start part.stop fun m => decide (m.name = some c!\"season\") && !m.priv).flatMap",
  "edit": "range from the start of the strong season",
  "claim": "C69"
 },
 {
  "file": "Model/Removers.lean",
  "definition": "removeInvalidEpisode",
  "old": "match episodePrefix s strong, episodePrefix s m with",
  "new": "match episodePrefix s m, episodePrefix s m with",
  "edit": "compares the marker with itself",
  "claim": "C69"
 },
 {
  "file": "Model/Removers.lean",
  "definition": "removeDetached",
  "old": "if x < 10 ∧ y - x ≠ 1 then",
  "new": "if x ≤ 10 ∧ y - x ≠ 1 then",
  "edit": "wrong bound",
  "claim": "C68"
 },
 {
  "file": "Model/Removers.lean",
  "definition": "removeDetached",
  "old": "some (dropping s (a :: kin.ancestors a))",
  "new": "some (dropping s (b :: kin.ancestors b))",
  "edit": "drops the second number",
  "claim": "C68"
 },
 {
  "file": "Model/Removers.lean",
  "definition": "weakCopy",
  "old": "start := p.start, priv := false, tags := [],",
  "new": "start := p.stop, priv := false, tags := [],",
  "edit": "the episode starts after the word",
  "claim": "C68"
 },
 {
  "file": "Model/Removers.lean",
  "definition": "removeWeakPart",
  "old": "(weaks, if words.contains (lower (p.raw s.input)) then",
  "new": "(weaks, if words.contains (p.raw s.input) then",
  "edit": "case of the word is not folded",
  "claim": "C68"
 },
 {
  "file": "Model/Removers.lean",
  "definition": "removeWeak",
  "old": "appendAll s.input (removeAll s.input s.live (parts.flatMap Prod.fst)) (parts.flatMap Prod.snd)",
  "new": "removeAll s.input (appendAll s.input s.live (parts.flatMap Prod.snd)) (parts.flatMap Prod.fst)",
  "edit": "appends before removing",
  "claim": "C68"
 },
 {
  "file": "Model/Removers.lean",
  "definition": "sizeConflicts",
  "old": "else if linkedBefore s z fun m => m.isOneOf sizeNeighbors then conflicts else [z]",
  "new": "else if linkedBefore s z fun m => m.isOneOf sizeNeighbors then conflicts else z :: conflicts",
  "edit": "both sides are dropped",
  "claim": "C71"
 },
 {
  "file": "Model/Removers.lean",
  "definition": "sizeNeighbors",
  "old": "[c!\"date\", c!\"source\", c!\"other\", c!\"streaming_service\"]",
  "new": "[c!\"date\", c!\"source\", c!\"other\"]",
  "edit": "a streaming service does not attach",
  "claim": "C71"
 },
 {
  "file": "Model/Removers.lean",
  "definition": "profileLinked",
  "old": "| some v => !hasText s.input s.live z.stop v.start",
  "new": "| some v => !hasText s.input s.live z.stop v.stop",
  "edit": "text up to the end of the profile",
  "claim": "C71"
 },
 {
  "file": "Model/Removers.lean",
  "definition": "removeInvalidLanguages",
  "old": "(rangeOf s.input s.live g.start g.stop fun x => !lang x).isEmpty && !hasText s.input s.live g.start g.stop",
  "new": "(rangeOf s.input s.live g.start g.stop fun x => !lang x).isEmpty || !hasText s.input s.live g.start g.stop",
  "edit": "or instead of and",
  "claim": "C70"
 },
 {
  "file": "Model/Removers.lean",
  "definition": "removeUndetermined",
  "old": "decide (p.name = some c!\"language\")) ||",
  "new": "decide (p.name = some c!\"language\")) &&",
  "edit": "both neighbours must be languages",
  "claim": "C70"
 },
 {
  "file": "Model/Removers.lean",
  "definition": "yearOfTitle",
  "old": "| some part => firstIn s part.start part.stop fun m => m.name = some c!\"year\"",
  "new": "| some part => firstIn s t.start part.stop fun m => m.name = some c!\"year\"",
  "edit": "only years after the title",
  "claim": "C72"
 },
 {
  "file": "Model/Removers.lean",
  "definition": "preferTitleWithYear",
  "old": "let tag := if p.1.isEmpty then p.2 else p.1",
  "new": "let tag := p.1 ++ p.2",
  "edit": "bracketed years are not preferred",
  "claim": "C72"
 },
 {
  "file": "Model/Removers.lean",
  "definition": "preferTitleWithYear",
  "old": "let values := (if tag.isEmpty then titles else tag).map",
  "new": "let values := tag.map",
  "edit": "without year every title is dropped",
  "claim": "C72"
 }
]