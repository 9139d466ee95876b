[
 {
  "file": "Model/Pipeline.lean",
  "definition": "otherSources",
  "old": "{ needs := [[c!\"year\"]], gives := [c!\"year\"], valid := isValidYear }",
  "new": "{ needs := [[c!\"year\"]], gives := [c!\"year\"] }",
  "edit": "year pattern without validator",
  "claim": "C27"
 },
 {
  "file": "Model/Pipeline.lean",
  "definition": "otherSources",
  "old": "{ needs := [], gives := [c!\"week\"], valid := isValidWeek }",
  "new": "{ needs := [], gives := [c!\"week\"] }",
  "edit": "week pattern without validator",
  "claim": "C27"
 },
 {
  "file": "Model/Pipeline.lean",
  "definition": "ruleEntries",
  "old": "into := c!\"year\", valid := isValidYear",
  "new": "into := c!\"year\"",
  "edit": "SeasonYear without valid_year",
  "claim": "C27"
 },
 {
  "file": "Model/Pipeline.lean",
  "definition": "otherSources",
  "old": "{ needs := [[c!\"container\"]], gives := [c!\"container\"] }",
  "new": "{ needs := [], gives := [c!\"container\"] }",
  "edit": "container unguarded",
  "claim": "C18"
 },
 {
  "file": "Model/Pipeline.lean",
  "definition": "ruleEntries",
  "old": "{ rule := c!\"RemoveLanguage\", needs := [[c!\"language\", c!\"subtitle_language\"]], clears := [c!\"language\"] }",
  "new": "{ rule := c!\"RemoveLanguage\", needs := [[c!\"language\", c!\"subtitle_language\"]] }",
  "edit": "RemoveLanguage does nothing",
  "claim": "C18 language"
 },
 {
  "file": "Model/Pipeline.lean",
  "definition": "ruleEntries",
  "old": "needs := [[c!\"video_bit_rate\"]], origin := .named c!\"audio_bit_rate\"",
  "new": "origin := .named c!\"audio_bit_rate\"",
  "edit": "bit rate renamed although excluded",
  "claim": "C18 video_bit_rate"
 },
 {
  "file": "Model/Pipeline.lean",
  "definition": "ruleEntries",
  "old": "{ needs := [[c!\"disc\"]], origin := .named c!\"episode\", into := c!\"disc\" }",
  "new": "{ origin := .named c!\"episode\", into := c!\"disc\" }",
  "edit": "disc unguarded",
  "claim": "C18 disc"
 },
 {
  "file": "Model/Pipeline.lean",
  "definition": "episodesSources",
  "old": "{ needs := [[c!\"episode\"]], gives := [c!\"weak_episode\", c!\"episode\", c!\"version\", c!\"episodeSeparator\"], weak := true }",
  "new": "{ needs := [], gives := [c!\"weak_episode\", c!\"version\", c!\"episodeSeparator\"], weak := true }",
  "edit": "weak matches found with episode excluded",
  "claim": "C18 episode via RemoveWeak"
 },
 {
  "file": "Model/Pipeline.lean",
  "definition": "ruleEntries",
  "old": "{ rule := c!\"SubtitleExtensionRule\", needs := [[c!\"subtitle_language\"]]",
  "new": "{ rule := c!\"SubtitleExtensionRule\", needs := []",
  "edit": "subtitle extension unguarded",
  "claim": "C18 subtitle_language"
 },
 {
  "file": "Model/Pipeline.lean",
  "definition": "RuleStep",
  "old": "∀ n ∈ r.clears, isDisabled g n = true →",
  "new": "∀ n ∈ r.clears, isDisabled g n = false →",
  "edit": "clears when enabled",
  "claim": "C18 language"
 },
 {
  "file": "Model/Pipeline.lean",
  "definition": "Duplicate",
  "old": "m'.name = m.name ∧ ∃ t, m'.value input = .str t",
  "new": "∃ t, m'.value input = .str t",
  "edit": "hole named at will",
  "claim": "C18"
 },
 {
  "file": "Model/Pipeline.lean",
  "definition": "Kept",
  "old": "m.name = m'.name ∧ (c!\"weak-episode\"",
  "new": "(c!\"weak-episode\"",
  "edit": "a kept match may be renamed",
  "claim": "C18"
 },
 {
  "file": "Model/Pipeline.lean",
  "definition": "Kept",
  "old": "((∃ t, m.value input = .str t) ∧ (∃ t, m'.value input = .str t) ∨ m.value input = m'.value input)",
  "new": "True",
  "edit": "values may change",
  "claim": "C27"
 },
 {
  "file": "Model/Pipeline.lean",
  "definition": "ruleEntries",
  "old": "{ rule := c!\"SeasonYear\", creates := [{ origin := .named c!\"season\", into := c!\"year\", valid := isValidYear }] }",
  "new": "{ rule := c!\"SeasonYear\", creates := [{ needs := [[c!\"year\"]], origin := .named c!\"season\", into := c!\"year\", valid := isValidYear }] }",
  "edit": "table claims SeasonYear is guarded",
  "claim": "C18 refinement"
 },
 {
  "file": "Model/Processors.lean",
  "definition": "yearSeason",
  "old": "{ m with name := some c!\"season\" }",
  "new": "{ m with name := some c!\"episode\" }",
  "edit": "YearSeason creates episodes",
  "claim": "C18 episode"
 },
 {
  "file": "Model/Rules.lean",
  "definition": "mimetypeRule",
  "old": "endMatch s c!\"mimetype\"",
  "new": "endMatch s c!\"type\"",
  "edit": "wrong name",
  "claim": "C18 type"
 }
]