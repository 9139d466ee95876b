[
 {
  "file": "Model/Print.lean",
  "definition": "encoderDefault",
  "old": "| some n => n\n",
  "new": "| some _ => sh.text o\n",
  "edit": "name ignored",
  "claim": "C103"
 },
 {
  "file": "Model/Print.lean",
  "definition": "jsonOf",
  "old": "| .bool b => .ok (.bool b)",
  "new": "| .bool b => .ok (.num (intText (if b then 1 else 0)))",
  "edit": "booleans as numbers",
  "claim": "C103"
 },
 {
  "file": "Model/Print.lean",
  "definition": "jsonOf",
  "old": "| .none => .ok .null",
  "new": "| .none => .ok (.str c!\"None\")",
  "edit": "None as text",
  "claim": "C103"
 },
 {
  "file": "Model/Print.lean",
  "definition": "jsonOf",
  "old": "| some t => .ok (.num t)",
  "new": "| some t => .ok (.str t)",
  "edit": "floats as text",
  "claim": "C103"
 },
 {
  "file": "Model/Print.lean",
  "definition": "jsonOfList",
  "old": "| .ok js => .ok (j :: js)\n",
  "new": "| .ok _ => .ok [j]\n",
  "edit": "only first item",
  "claim": "C103"
 },
 {
  "file": "Model/Print.lean",
  "definition": "jsonOfItem",
  "old": "(.bytes _, _) => .error .typeError",
  "new": "(.bytes k, _) => .ok (sh.bytesText k, .null)",
  "edit": "bytes key accepted",
  "claim": "C103"
 },
 {
  "file": "Model/Print.lean",
  "definition": "jsonOfItems",
  "old": "| .ok ps => .ok (p :: ps)",
  "new": "| .ok ps => .ok (ps ++ [p])",
  "edit": "entries reversed",
  "claim": "C103"
 },
 {
  "file": "Model/Print.lean",
  "definition": "hexDigit",
  "old": "Char.ofNat (87 + n)",
  "new": "Char.ofNat (86 + n)",
  "edit": "hex off by one",
  "claim": "C103"
 },
 {
  "file": "Model/Print.lean",
  "definition": "escapeChar",
  "old": "if c = '\"' then c!\"\\\\\\\"\"",
  "new": "if c = '\"' then [c]",
  "edit": "quote not escaped",
  "claim": "C103"
 },
 {
  "file": "Model/Print.lean",
  "definition": "escapeChar",
  "old": "else if c = '\\\\' then c!\"\\\\\\\\\"",
  "new": "",
  "edit": "backslash not escaped",
  "claim": "C103"
 },
 {
  "file": "Model/Print.lean",
  "definition": "escapeChar",
  "old": "else if c = '\\n' then c!\"\\\\n\"",
  "new": "else if c = '\\n' then [c]",
  "edit": "newline raw",
  "claim": "C103"
 },
 {
  "file": "Model/Print.lean",
  "definition": "escapeChar",
  "old": "else if c.toNat < 32 then c!\"\\\\u00\"",
  "new": "else if c.toNat < 31 then c!\"\\\\u00\"",
  "edit": "boundary 31",
  "claim": "C103"
 },
 {
  "file": "Model/Print.lean",
  "definition": "escapeChar",
  "old": "c.toNat / 16), hexDigit (c.toNat % 16)",
  "new": "c.toNat % 16), hexDigit (c.toNat / 16)",
  "edit": "digits swapped",
  "claim": "C103"
 },
 {
  "file": "Model/Print.lean",
  "definition": "escapeChar",
  "old": "c.toNat = 8 then c!\"\\\\b\"",
  "new": "c.toNat = 8 then c!\"\\\\t\"",
  "edit": "backspace as tab",
  "claim": "C103"
 },
 {
  "file": "Model/Print.lean",
  "definition": "compact",
  "old": "fun _ => [], fun _ => c!\" \"",
  "new": "fun _ => [], fun _ => c!\"\\n\"",
  "edit": "newline between",
  "claim": "C103"
 },
 {
  "file": "Model/Print.lean",
  "definition": "indented",
  "old": "fun d => '\\n' :: List.replicate (4 * d) ' '⟩",
  "new": "fun d => '\\n' :: List.replicate (4 * d) ','⟩",
  "edit": "comma as indentation",
  "claim": "C103"
 },
 {
  "file": "Model/Print.lean",
  "definition": "render",
  "old": "| .arr [] => c!\"[]\"",
  "new": "| .arr [] => c!\"{}\"",
  "edit": "empty list as object",
  "claim": "C103"
 },
 {
  "file": "Model/Print.lean",
  "definition": "render",
  "old": "'{' :: (L.inner d ++ renderEntry L d e",
  "new": "'[' :: (L.inner d ++ renderEntry L d e",
  "edit": "wrong bracket",
  "claim": "C103"
 },
 {
  "file": "Model/Print.lean",
  "definition": "renderList",
  "old": "| x :: xs => ',' :: (L.between d ++ render L (d + 1) x ++ renderList L d xs)",
  "new": "| x :: xs => (L.between d ++ render L (d + 1) x ++ renderList L d xs)",
  "edit": "comma missing",
  "claim": "C103"
 },
 {
  "file": "Model/Print.lean",
  "definition": "renderItems",
  "old": "| [] => L.last d ++ c!\"}\"",
  "new": "| [] => ',' :: L.last d ++ c!\"}\"",
  "edit": "trailing comma",
  "claim": "C103"
 },
 {
  "file": "Model/Print.lean",
  "definition": "renderEntry",
  "old": "quote k ++ c!\": \"",
  "new": "k ++ c!\": \"",
  "edit": "key unquoted",
  "claim": "C103"
 },
 {
  "file": "Model/Print.lean",
  "definition": "jsonDumps",
  "old": "| .ok j => .ok (render L 0 j)",
  "new": "| .ok j => .ok (render L 0 (.arr [j]))",
  "edit": "wrapped in a list",
  "claim": "C103"
 },
 {
  "file": "Model/Print.lean",
  "definition": "pyStr",
  "old": "| .str s => s\n",
  "new": "| .str s => quote s\n",
  "edit": "repr instead of str",
  "claim": "C103"
 },
 {
  "file": "Model/Print.lean",
  "definition": "pyStr",
  "old": "| .bool true => c!\"True\"",
  "new": "| .bool true => c!\"true\"",
  "edit": "lower-case bool",
  "claim": "C103"
 },
 {
  "file": "Model/Print.lean",
  "definition": "yamlLines",
  "old": "(c!\"? \" ++ l.dropLast) :: (c!\":\" ++ m.drop 1)",
  "new": "(c!\"? \" ++ l.dropLast) :: (c!\":\" ++ m)",
  "edit": "second line not cut",
  "claim": "C105"
 },
 {
  "file": "Model/Print.lean",
  "definition": "yamlLines",
  "old": "l :: m :: rest => (c!\"? \" ++ l.dropLast)",
  "new": "l :: m :: rest => (c!\"? \" ++ l)",
  "edit": "colon kept",
  "claim": "C105"
 },
 {
  "file": "Model/Print.lean",
  "definition": "guessHead",
  "old": "!truthy (options.getD (.str c!\"json\")) &&",
  "new": "true &&",
  "edit": "heading printed with json",
  "claim": "C103"
 },
 {
  "file": "Model/Print.lean",
  "definition": "guessHead",
  "old": "!truthy (options.getD (.str c!\"yaml\")) &&",
  "new": "true &&",
  "edit": "heading printed with yaml",
  "claim": "C105"
 },
 {
  "file": "Model/Print.lean",
  "definition": "shownProperty",
  "old": "| .str k => (guess.get? (.str k)).getD (.str [])",
  "new": "| .str k => (guess.get? (.str k)).getD .none",
  "edit": "None for a missing property",
  "claim": "C103"
 },
 {
  "file": "Model/Print.lean",
  "definition": "guessBody",
  "old": "match jsonDumps w.shown compact (.dict guess)",
  "new": "match jsonDumps w.shown indented (.dict guess)",
  "edit": "json indented over lines",
  "claim": "C103"
 },
 {
  "file": "Model/Print.lean",
  "definition": "guessBody",
  "old": "| .ok t => .ok [c!\"GuessIt found: \" ++ t]",
  "new": "| .ok t => .ok [t]",
  "edit": "prefix missing",
  "claim": "C103"
 },
 {
  "file": "Model/Print.lean",
  "definition": "printGuesses",
  "old": ".ok (guessHead options n ++ body ++ more)",
  "new": ".ok (more ++ guessHead options n ++ body)",
  "edit": "order reversed",
  "claim": "C103"
 },
 {
  "file": "Model/Print.lean",
  "definition": "insertText",
  "old": "if x < y then x :: y :: ys",
  "new": "if y < x then x :: y :: ys",
  "edit": "descending",
  "claim": "C104"
 },
 {
  "file": "Model/Print.lean",
  "definition": "sortTexts",
  "old": "l.foldl (fun acc x => insertText x acc) []",
  "new": "l",
  "edit": "not sorted",
  "claim": "C104"
 },
 {
  "file": "Model/Print.lean",
  "definition": "valueLines",
  "old": "| .list vs => if truthy (options.getD (.str c!\"values\"))",
  "new": "| .list vs => if !truthy (options.getD (.str c!\"values\"))",
  "edit": "values inverted",
  "claim": "C104"
 },
 {
  "file": "Model/Print.lean",
  "definition": "propertiesBody",
  "old": "then all else names",
  "new": "then names else all",
  "edit": "json values inverted",
  "claim": "C104"
 }
]