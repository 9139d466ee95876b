[
 {
  "file": "Model/Episodes.lean",
  "definition": "pyRange",
  "old": "(List.range (b - a).toNat).map",
  "new": "(List.range (b + 1 - a).toNat).map",
  "edit": "range(a, b) includes b",
  "claim": "C165"
 },
 {
  "file": "Model/Episodes.lean",
  "definition": "copiesBetween",
  "old": "some (copiesFor n (a + 1) b)",
  "new": "some (copiesFor n (a + 1) (b + 5))",
  "edit": "the filled numbers run past the second number",
  "claim": "C165"
 },
 {
  "file": "Model/Date.lean",
  "definition": "validYear",
  "old": "1920 ≤ year && year < 2030",
  "new": "1920 ≤ year && year < 2040",
  "edit": "years up to 2039 are valid",
  "claim": "C165"
 },
 {
  "file": "Model/Date.lean",
  "definition": "validYear",
  "old": "1920 ≤ year && year < 2030",
  "new": "1900 ≤ year && year < 2030",
  "edit": "years from 1900 on are valid",
  "claim": "C165"
 },
 {
  "file": "Model/Processors.lean",
  "definition": "seasonYears",
  "old": ".ok (if b then { m with name := some c!\"year\" } :: rest else rest)",
  "new": ".ok ({ m with name := some c!\"year\" } :: rest)",
  "edit": "SeasonYear takes every season as a year",
  "claim": "C165"
 },
 {
  "file": "Model/Processors.lean",
  "definition": "yearSeason",
  "old": "(named s.live c!\"year\").map fun m => { m with name := some c!\"season\" }",
  "new": "(named s.live c!\"episode\").map fun m => { m with name := some c!\"season\" }",
  "edit": "YearSeason copies the episodes as seasons",
  "claim": "C165"
 },
 {
  "file": "Model/Families.lean",
  "definition": "chainGroups",
  "old": "(6, c!\"seasonSeparator\"), (1, c!\"season\")",
  "new": "(1, c!\"seasonSeparator\"), (6, c!\"season\")",
  "edit": "the season and the separator of the seasons are swapped in the chains",
  "claim": "C165"
 },
 {
  "file": "Model/EpisodeWords.lean",
  "definition": "allPattern",
  "old": "groups := [(1, c!\"season\"), (7, c!\"other\")]",
  "new": "groups := [(1, c!\"season\"), (7, c!\"season\")]",
  "edit": "the word all is captured as a season",
  "claim": "C165"
 },
 {
  "file": "Model/Declared.lean",
  "definition": "wordNumber",
  "old": "if [c!\"season\", c!\"count\"].contains name then",
  "new": "if [c!\"count\"].contains name then",
  "edit": "the season of the words stays a text",
  "claim": "C165"
 },
 {
  "file": "Model/Recognise.lean",
  "definition": "yearPattern",
  "old": "childValid := fun s m => surrounded s m && valueIs validYear m }\n\n/-- `rebulk.regex(build_or_pattern(week_words)",
  "new": "childValid := fun s m => surrounded s m }\n\n/-- `rebulk.regex(build_or_pattern(week_words)",
  "edit": "the validator of a child of the year pattern forgets valid_year (the pattern has no children: harmless, expected to survive)",
  "claim": "C165"
 },
 {
  "file": "Model/Recognise.lean",
  "definition": "yearPattern",
  "old": "format := fun _ => pyInt E.u, parentValid := fun s m => surrounded s m && valueIs validYear m,\n    childValid := fun s m => surrounded s m && valueIs validYear m }",
  "new": "format := fun _ => pyInt E.u, parentValid := fun s m => surrounded s m,\n    childValid := fun s m => surrounded s m && valueIs validYear m }",
  "edit": "any four digits are a year",
  "claim": "C165"
 }
]