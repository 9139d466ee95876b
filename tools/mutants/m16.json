[
 {
  "file": "Model/Solver.lean",
  "definition": "defaultSolver",
  "old": "if (K.initiator other).len < (K.initiator m).len then .other\n  else if",
  "new": "if (K.initiator other).len ≤ (K.initiator m).len then .other\n  else if",
  "edit": "equal length drops the other",
  "claim": "C106"
 },
 {
  "file": "Model/Solver.lean",
  "definition": "defaultSolver",
  "old": "else if (K.initiator m).len < (K.initiator other).len then .itself\n  else .both",
  "new": "else .both",
  "edit": "only one direction",
  "claim": "C106"
 },
 {
  "file": "Model/Solver.lean",
  "definition": "loser",
  "old": "match asked (solverOf c) c m with\n  | .itself => some c\n  | .other => some m",
  "new": "match asked (solverOf c) c m with\n  | .itself => some m\n  | .other => some c",
  "edit": "reverse forgotten",
  "claim": "C106"
 },
 {
  "file": "Model/Solver.lean",
  "definition": "loser",
  "old": "match asked (solverOf c) c m with",
  "new": "match asked (solverOf c) m c with",
  "edit": "arguments swapped",
  "claim": "C106"
 },
 {
  "file": "Model/Solver.lean",
  "definition": "loser",
  "old": "| .dflt => match asked (solverOf m) m c with\n    | .itself => some m",
  "new": "| .dflt => match asked (solverOf m) m c with\n    | .itself => none",
  "edit": "own solver's retreat ignored",
  "claim": "C106"
 },
 {
  "file": "Model/Solver.lean",
  "definition": "fight",
  "old": "if isIn input x removed then removed\n    else if",
  "new": "if",
  "edit": "dropped again",
  "claim": "C106"
 },
 {
  "file": "Model/Solver.lean",
  "definition": "fight",
  "old": "else if isIn input (if Mt.eqv input x p.1 then p.2 else p.1) removed then removed\n    else",
  "new": "else",
  "edit": "winner already dropped not tested",
  "claim": "C106"
 },
 {
  "file": "Model/Solver.lean",
  "definition": "fight",
  "old": "(if Mt.eqv input x p.1 then p.2 else p.1)",
  "new": "(if Mt.eqv input x p.1 then p.1 else p.2)",
  "edit": "keeper confused with loser",
  "claim": "C106"
 },
 {
  "file": "Model/Solver.lean",
  "definition": "byLen",
  "old": "decide (a.len < b.len)",
  "new": "decide (b.len < a.len)",
  "edit": "longest first",
  "claim": "C106"
 },
 {
  "file": "Model/Solver.lean",
  "definition": "fights",
  "old": "(sortBy byLen (s.live.filter fun m => !m.priv)).flatMap",
  "new": "(sortBy byLen s.live).flatMap",
  "edit": "private matches fight",
  "claim": "C106"
 },
 {
  "file": "Model/Solver.lean",
  "definition": "fights",
  "old": "(sortBy byLen ((conflicting s.input s.live m).filter fun c => !c.priv))",
  "new": "(sortBy byLen (conflicting s.input s.live m))",
  "edit": "private opponents",
  "claim": "C106"
 },
 {
  "file": "Model/Solver.lean",
  "definition": "fights",
  "old": "(sortBy byLen ((conflicting s.input s.live m).filter fun c => !c.priv)).map",
  "new": "((sortBy byLen ((conflicting s.input s.live m).filter fun c => !c.priv)).take 1).map",
  "edit": "only the shortest opponent",
  "claim": "C106"
 },
 {
  "file": "Model/Solver.lean",
  "definition": "solveConflicts",
  "old": "dropping s ((fights s).foldl (fight s.input K solverOf) [])",
  "new": "dropping s ((fights s).foldl (fight s.input K solverOf) []).reverse.tail",
  "edit": "one is forgotten",
  "claim": "C106"
 },
 {
  "file": "Model/Solver.lean",
  "definition": "audioCodecPriority",
  "old": "m.isOneOf [c!\"audio_profile\", c!\"audio_channels\"] && decide (other.name = some c!\"audio_codec\") then .itself",
  "new": "m.isOneOf [c!\"audio_profile\", c!\"audio_channels\"] && decide (other.name = some c!\"audio_codec\") then .other",
  "edit": "wrong loser",
  "claim": "C107"
 },
 {
  "file": "Model/Solver.lean",
  "definition": "audioCodecPriority",
  "old": "other.isOneOf [c!\"audio_profile\", c!\"audio_channels\"]",
  "new": "other.isOneOf [c!\"audio_profile\"]",
  "edit": "channels forgotten",
  "claim": "C107"
 },
 {
  "file": "Model/Solver.lean",
  "definition": "flimsy",
  "old": "m.tagged c!\"weak-episode\" || ",
  "new": "",
  "edit": "tag ignored",
  "claim": "C107"
 },
 {
  "file": "Model/Solver.lean",
  "definition": "marked",
  "old": "(n ++ c!\"Marker\")",
  "new": "n",
  "edit": "marker by own name",
  "claim": "C107"
 },
 {
  "file": "Model/Solver.lean",
  "definition": "weakInitiator",
  "old": "[c!\"weak_episode\", c!\"weak_duplicate\"]",
  "new": "[c!\"weak_episode\"]",
  "edit": "weak_duplicate forgotten",
  "claim": "C107"
 },
 {
  "file": "Model/Solver.lean",
  "definition": "seasonEpisodeSolver",
  "old": "decide (m.name = some c!\"episode\") && decide (other.name = some c!\"year\") then .itself",
  "new": "decide (m.name = some c!\"episode\") && decide (other.name = some c!\"year\") then .other",
  "edit": "episode ousts year",
  "claim": "C107"
 },
 {
  "file": "Model/Solver.lean",
  "definition": "seasonEpisodeSolver",
  "old": "c!\"container\", c!\"date\"] then",
  "new": "c!\"container\"] then",
  "edit": "date forgotten",
  "claim": "C107"
 },
 {
  "file": "Model/Solver.lean",
  "definition": "seasonEpisodeSolver",
  "old": "&& !marked B m)",
  "new": "&& marked B m)",
  "edit": "marker test inverted",
  "claim": "C107"
 },
 {
  "file": "Model/Solver.lean",
  "definition": "seasonEpisodeSolver",
  "old": "!isInt B.uni (other.raw B.input)",
  "new": "isInt B.uni (other.raw B.input)",
  "edit": "numeric test inverted",
  "claim": "C107"
 },
 {
  "file": "Model/Solver.lean",
  "definition": "seasonEpisodeSolver",
  "old": "if weakInitiator B m && weakInitiator B other then .dflt",
  "new": "if weakInitiator B m || weakInitiator B other then .dflt",
  "edit": "one weak enough",
  "claim": "C107"
 },
 {
  "file": "Model/Solver.lean",
  "definition": "seasonEpisodeSolver",
  "old": "else if flimsy B other then .other",
  "new": "else if flimsy B other then .itself",
  "edit": "loose other wins",
  "claim": "C107"
 },
 {
  "file": "Model/Solver.lean",
  "definition": "seasonEpisodeSolver",
  "old": "&& !Mt.eqv B.input (B.kin.initiator m) (B.kin.initiator other) then",
  "new": "then",
  "edit": "same initiator not excluded",
  "claim": "C107"
 },
 {
  "file": "Model/Solver.lean",
  "definition": "extensionSolver",
  "old": "&& !other.tagged c!\"extension\") then .other",
  "new": "&& other.tagged c!\"extension\") then .other",
  "edit": "tag test inverted",
  "claim": "C107"
 },
 {
  "file": "Model/Solver.lean",
  "definition": "containerSolver",
  "old": "&& other.tagged c!\"extension\") then .itself",
  "new": "&& other.tagged c!\"extension\") then .other",
  "edit": "plain container wins",
  "claim": "C107"
 },
 {
  "file": "Model/Solver.lean",
  "definition": "crcSolver",
  "old": "def crcSolver : Solver := fun _ other => if other.isOneOf [c!\"episode\", c!\"season\"] then .other",
  "new": "def crcSolver : Solver := fun _ other => if other.isOneOf [c!\"episode\", c!\"season\"] then .itself",
  "edit": "crc gives way",
  "claim": "C107"
 },
 {
  "file": "Model/Solver.lean",
  "definition": "uuidSolver",
  "old": "[c!\"episode\", c!\"season\"] then .itself",
  "new": "[c!\"episode\"] then .itself",
  "edit": "season forgotten",
  "claim": "C107"
 },
 {
  "file": "Model/Solver.lean",
  "definition": "expectedSolver",
  "old": "fun _ _ => .other",
  "new": "fun _ _ => .dflt",
  "edit": "expected not preferred",
  "claim": "C107"
 },
 {
  "file": "Model/Solver.lean",
  "definition": "demoteOther",
  "old": "[c!\"other\", c!\"release_group\"]",
  "new": "[c!\"release_group\"]",
  "edit": "other not demoted",
  "claim": "C107"
 },
 {
  "file": "Model/Solver.lean",
  "definition": "yearSolver",
  "old": "(other.raw B.input).length < (m.raw B.input).length",
  "new": "(other.raw B.input).length ≤ (m.raw B.input).length",
  "edit": "boundary",
  "claim": "C107"
 },
 {
  "file": "Model/Solver.lean",
  "definition": "dateSolver",
  "old": "[c!\"episode\", c!\"season\", c!\"crc32\"]",
  "new": "[c!\"episode\", c!\"season\"]",
  "edit": "crc forgotten",
  "claim": "C107"
 },
 {
  "file": "Model/Solver.lean",
  "definition": "fourKSolver",
  "old": "then .dflt else .itself",
  "new": "then .itself else .itself",
  "edit": "4k always gives way",
  "claim": "C107"
 },
 {
  "file": "Model/Solver.lean",
  "definition": "sizeSolver",
  "old": "then .dflt else .other",
  "new": "then .dflt else .itself",
  "edit": "size gives way",
  "claim": "C107"
 },
 {
  "file": "Model/Solver.lean",
  "definition": "countrySolver",
  "old": "|| !B.usGb (m.value B.input)",
  "new": "&& !B.usGb (m.value B.input)",
  "edit": "or/and",
  "claim": "C107"
 },
 {
  "file": "Model/Solver.lean",
  "definition": "dtsHdSolver",
  "old": "some c!\"audio_codec\" then .other else .dflt",
  "new": "some c!\"audio_profile\" then .other else .dflt",
  "edit": "wrong property",
  "claim": "C107"
 },
 {
  "file": "Model/Solver.lean",
  "definition": "bitRateSolver",
  "old": "&& !other.tagged c!\"weak-audio_channels\" then .itself else .other",
  "new": "then .itself else .other",
  "edit": "weak tag ignored",
  "claim": "C107"
 },
 {
  "file": "Model/Solver.lean",
  "definition": "bonusSolver",
  "old": "&& !other.tagged c!\"weak-episode\" then",
  "new": "then",
  "edit": "weak tag ignored",
  "claim": "C107"
 },
 {
  "file": "Model/Solver.lean",
  "definition": "specialEditionSolver",
  "old": "&& decide (other.value B.input = .str c!\"Special\") then",
  "new": "then",
  "edit": "any detail ousted",
  "claim": "C107"
 },
 {
  "file": "Model/Solver.lean",
  "definition": "solverFor",
  "old": "| .uuid => uuidSolver",
  "new": "| .uuid => crcSolver",
  "edit": "wrong solver attached",
  "claim": "C107"
 },
 {
  "file": "Model/Solver.lean",
  "definition": "solveAll",
  "old": "(trade m).map (solverFor B)",
  "new": "none",
  "edit": "solvers not used",
  "claim": "C107"
 },
 {
  "file": "Model/Print.lean",
  "definition": "pyStr",
  "old": "| .bool true => c!\"True\"",
  "new": "| .bool true => c!\"true\"",
  "edit": "lower-case bool",
  "claim": "C103",
  "tightened": [
   "C103_show_text"
  ]
 }
]