[
 {
  "file": "Model/ReleaseGroup.lean",
  "definition": "groupSeps",
  "old": "!ignored.contains c",
  "new": "ignored.contains c",
  "edit": "groupname_seps keeps the wrong characters",
  "claim": "C86"
 },
 {
  "file": "Model/ReleaseGroup.lean",
  "definition": "stripGroup",
  "old": "!(stripChars ignored s).any ignored.contains then",
  "new": "true then",
  "edit": "brackets are stripped although one is inside",
  "claim": "C86"
 },
 {
  "file": "Model/ReleaseGroup.lean",
  "definition": "stripGroup",
  "old": "(s.getLast?).any ignored.contains && (s.head?)",
  "new": "(s.getLast?).any ignored.contains || (s.head?)",
  "edit": "and->or: single bracket not stripped",
  "claim": "C86"
 },
 {
  "file": "Model/ReleaseGroup.lean",
  "definition": "opensWith",
  "old": "(pySlice s f.length (f.length + 1)).all isSep",
  "new": "true",
  "edit": "forbidden prefix need not be a word",
  "claim": "C86"
 },
 {
  "file": "Model/ReleaseGroup.lean",
  "definition": "opensWith",
  "old": "f.isPrefixOf (u.lower s)",
  "new": "f.isPrefixOf s",
  "edit": "prefix compared case-sensitively",
  "claim": "C86"
 },
 {
  "file": "Model/ReleaseGroup.lean",
  "definition": "closesWith",
  "old": "(-(f.length : Int) - 1) (-(f.length : Int))",
  "new": "(-(f.length : Int)) (-(f.length : Int) + 1)",
  "edit": "wrong boundary of the character before the suffix",
  "claim": "C86"
 },
 {
  "file": "Model/ReleaseGroup.lean",
  "definition": "dropForbidden",
  "old": "stripChars (groupSeps e.ignored) (s.drop f.length)",
  "new": "s.drop f.length",
  "edit": "no strip after the prefix is dropped",
  "claim": "C86"
 },
 {
  "file": "Model/ReleaseGroup.lean",
  "definition": "dropForbidden",
  "old": "if opensWith e.u f s then stripChars",
  "new": "if false then stripChars",
  "edit": "forbidden prefixes kept",
  "claim": "C86"
 },
 {
  "file": "Model/ReleaseGroup.lean",
  "definition": "joinCredit",
  "old": "capText s c 1 ++ c!\" \" ++ capText s c 2",
  "new": "capText s c 2 ++ c!\" \" ++ capText s c 1",
  "edit": "groups swapped in the credit",
  "claim": "C86"
 },
 {
  "file": "Model/ReleaseGroup.lean",
  "definition": "cleanGroup",
  "old": "joinCredit e.u (e.u.strip",
  "new": "id (e.u.strip",
  "edit": "credit not joined",
  "claim": "C86"
 },
 {
  "file": "Model/ReleaseGroup.lean",
  "definition": "lastPublic",
  "old": "!m.priv && !m.tagged c!\"expected\"",
  "new": "!m.tagged c!\"expected\"",
  "edit": "private matches count",
  "claim": "C87"
 },
 {
  "file": "Model/ReleaseGroup.lean",
  "definition": "lastPublic",
  "old": " && !m.tagged c!\"expected\"",
  "new": "",
  "edit": "expected matches count",
  "claim": "C87"
 },
 {
  "file": "Model/ReleaseGroup.lean",
  "definition": "separatorOf",
  "old": "= some '-') then c!\"-\"",
  "new": "= some '-') then c!\".\"",
  "edit": "a leading dash is read as a dot",
  "claim": "C87"
 },
 {
  "file": "Model/ReleaseGroup.lean",
  "definition": "dotBefore",
  "old": "= c!\".\") ||",
  "new": "= c!\"-\") ||",
  "edit": "dash instead of dot earlier in the chain",
  "claim": "C87"
 },
 {
  "file": "Model/ReleaseGroup.lean",
  "definition": "dotBefore",
  "old": "|| dotBefore s a f current",
  "new": "",
  "edit": "only the second separator is tested",
  "claim": "C87"
 },
 {
  "file": "Model/ReleaseGroup.lean",
  "definition": "dashThenDot",
  "old": "= c!\"-\") &&",
  "new": "= c!\".\") &&",
  "edit": "dot instead of dash before the candidate",
  "claim": "C87"
 },
 {
  "file": "Model/ReleaseGroup.lean",
  "definition": "validEnd",
  "old": "!(decide (m.start = c.start) && decide (m.stop = c.stop))",
  "new": "!(decide (m.start = c.start))",
  "edit": "span compared by start only",
  "claim": "C87"
 },
 {
  "file": "Model/ReleaseGroup.lean",
  "definition": "validEnd",
  "old": "!m.priv && !(decide",
  "new": "!(decide",
  "edit": "private matches in the group count",
  "claim": "C87"
 },
 {
  "file": "Model/ReleaseGroup.lean",
  "definition": "validEnd",
  "old": ").isEmpty\n    | none => true",
  "new": ").isEmpty\n    | none => false",
  "edit": "candidates outside groups refused",
  "claim": "C87"
 },
 {
  "file": "Model/ReleaseGroup.lean",
  "definition": "nameEnd",
  "old": "| some m => m.start",
  "new": "| some m => m.stop",
  "edit": "end of the container instead of its start",
  "claim": "C87"
 },
 {
  "file": "Model/ReleaseGroup.lean",
  "definition": "nameEnd",
  "old": "c!\"container\"",
  "new": "c!\"title\"",
  "edit": "looks for a title at the end",
  "claim": "C87"
 },
 {
  "file": "Model/ReleaseGroup.lean",
  "definition": "endable",
  "old": "!m.priv && !(decide",
  "new": "!(decide",
  "edit": "private match may be a release group",
  "claim": "C87"
 },
 {
  "file": "Model/ReleaseGroup.lean",
  "definition": "endable",
  "old": " && !(m.raw input).contains '-'",
  "new": "",
  "edit": "a match with a dash may be a release group",
  "claim": "C87"
 },
 {
  "file": "Model/ReleaseGroup.lean",
  "definition": "endable",
  "old": " &&\n    decide (e.u.strip (m.raw input) = m.raw input)",
  "new": "",
  "edit": "a match with white space around may be a release group",
  "claim": "C87"
 },
 {
  "file": "Model/ReleaseGroup.lean",
  "definition": "endCandidate",
  "old": "decide (h.2 = b) && wordy",
  "new": "wordy",
  "edit": "hole need not be at the end",
  "claim": "C87"
 },
 {
  "file": "Model/ReleaseGroup.lean",
  "definition": "endCandidate",
  "old": " && decide ((sliceOf s.input h).head? = some '-')",
  "new": "",
  "edit": "hole need not begin with a dash",
  "claim": "C87"
 },
 {
  "file": "Model/ReleaseGroup.lean",
  "definition": "endCandidate",
  "old": ".reverse.find? fun h =>\n      decide (h.2 = b)",
  "new": ".find? fun h =>\n      decide (h.2 = b)",
  "edit": "first instead of last hole (equivalent unless empty holes)",
  "claim": "C87"
 },
 {
  "file": "Model/ReleaseGroup.lean",
  "definition": "detectEnd",
  "old": "if validEnd s part.start c then some c else none",
  "new": "some c",
  "edit": "candidate not validated",
  "claim": "C87"
 },
 {
  "file": "Model/ReleaseGroup.lean",
  "definition": "dotted",
  "old": " && !raw.tail.contains '-'",
  "new": "",
  "edit": "several dashes allowed",
  "claim": "C87"
 },
 {
  "file": "Model/ReleaseGroup.lean",
  "definition": "dotted",
  "old": " && raw.contains '.'",
  "new": "",
  "edit": "no dot required",
  "claim": "C87"
 },
 {
  "file": "Model/ReleaseGroup.lean",
  "definition": "dotted",
  "old": " && !raw.contains ' '",
  "new": "",
  "edit": "spaces allowed",
  "claim": "C87"
 },
 {
  "file": "Model/ReleaseGroup.lean",
  "definition": "validStart",
  "old": "decide (1 < c.stop - c.start)",
  "new": "decide (0 < c.stop - c.start)",
  "edit": "one character is enough",
  "claim": "C87"
 },
 {
  "file": "Model/ReleaseGroup.lean",
  "definition": "validStart",
  "old": " && (atMatch s.input s.markers c fun m => m.name = some c!\"group\").isEmpty",
  "new": "",
  "edit": "group at the start allowed",
  "claim": "C87"
 },
 {
  "file": "Model/ReleaseGroup.lean",
  "definition": "validStart",
  "old": "decide (h.1 = c.stop)",
  "new": "decide (h.1 \u2265 c.stop)",
  "edit": "the next hole need not be adjacent",
  "claim": "C87"
 },
 {
  "file": "Model/ReleaseGroup.lean",
  "definition": "detectStart",
  "old": "decide (h.1 = part.start) && wordy",
  "new": "wordy",
  "edit": "hole need not be at the start",
  "claim": "C87"
 },
 {
  "file": "Model/ReleaseGroup.lean",
  "definition": "groupFor",
  "old": "if (cleanGroup e (sliceOf s.input (c.start, c.stop))).isEmpty then []\n  else",
  "new": "if true = false then []\n  else",
  "edit": "empty names reported",
  "claim": "C87"
 },
 {
  "file": "Model/ReleaseGroup.lean",
  "definition": "dashPart",
  "old": "| none => match detectStart s part with",
  "new": "| none => match none with",
  "edit": "start never detected",
  "claim": "C87"
 },
 {
  "file": "Model/ReleaseGroup.lean",
  "definition": "dashPart",
  "old": "(atMatch s.input s.live c fun _ => true, groupFor e s c)",
  "new": "([], groupFor e s c)",
  "edit": "matches at the group kept",
  "claim": "C87"
 },
 {
  "file": "Model/ReleaseGroup.lean",
  "definition": "dashPart",
  "old": "([], groupFor e s c)\n      | none",
  "new": "(atMatch s.input s.live c fun _ => true, [])\n      | none",
  "edit": "start group dropped",
  "claim": "C87"
 },
 {
  "file": "Model/ReleaseGroup.lean",
  "definition": "dashRun",
  "old": "if !(named s.live c!\"release_group\").isEmpty then s",
  "new": "if false then s",
  "edit": "runs although a group is known",
  "claim": "C87"
 },
 {
  "file": "Model/ReleaseGroup.lean",
  "definition": "dashRun",
  "old": "appendAll s.input (removeAll s.input s.live gone) new",
  "new": "appendAll s.input s.live new",
  "edit": "nothing removed",
  "claim": "C87"
 }
]