[
{
"file": "Model/Engine.lean",
"definition": "ruleStep",
"old": "live := s.live.filter fun m => !m.priv }",
"new": "live := s.live.filter fun m => m.priv }",
"edit": "PrivateRemover keeps the private ones",
"claim": "C151"
},
{
"file": "Model/Engine.lean",
"definition": "ruleStep",
"old": "| PrivateRemover => .ok { s with live := s.live.filter fun m => !m.priv }",
"new": "| PrivateRemover => .ok s",
"edit": "PrivateRemover does nothing",
"claim": "C151"
},
{
"file": "Model/Engine.lean",
"definition": "ruleStep",
"old": "| EpisodeNumberSeparatorRange => orRaise .typeError (episodeRange e.ranges s)",
"new": "| EpisodeNumberSeparatorRange => orRaise .typeError (seasonRange e.ranges s)",
"edit": "the episode range fills seasons",
"claim": "C20 end to end: names of what is added"
},
{
"file": "Model/Engine.lean",
"definition": "ruleStep",
"old": "| ProperCountRule => .ok (properCount e.uni e.number s)",
"new": "| ProperCountRule => .ok s",
"edit": "no proper count",
"claim": "C40 end to end"
},
{
"file": "Model/Engine.lean",
"definition": "ruleStep",
"old": "| YearSeason => .ok (yearSeason s)",
"new": "| YearSeason => .ok s",
"edit": "no season from the year",
"claim": "C149"
},
{
"file": "Model/Engine.lean",
"definition": "ruleStep",
"old": "| SeasonYear => seasonYear s",
"new": "| SeasonYear => .ok (yearSeason s)",
"edit": "the two rules are swapped",
"claim": "C149"
},
{
"file": "Model/Engine.lean",
"definition": "ruleStep",
"old": "| Mimetype => .ok (mimetypeRule e.mime s)",
"new": "| Mimetype => .ok s",
"edit": "no mimetype",
"claim": "C150"
},
{
"file": "Model/Engine.lean",
"definition": "ruleStep",
"old": "| TypeProcessor => .ok (typeProcessor (typeOption context) s)",
"new": "| TypeProcessor => .ok (typeProcessor none s)",
"edit": "the type option is not honoured",
"claim": "C147"
},
{
"file": "Model/Engine.lean",
"definition": "ruleStep",
"old": "| StripSeparators => stripSeparators s",
"new": "| StripSeparators => .ok s",
"edit": "separators are not stripped",
"claim": "C37 end to end"
},
{
"file": "Model/Engine.lean",
"definition": "ruleStep",
"old": "| EnlargeGroupMatches => .ok (enlargeGroupMatches s)",
"new": "| EnlargeGroupMatches => .ok s",
"edit": "groups are not enlarged",
"claim": "C38 end to end"
},
{
"file": "Model/Engine.lean",
"definition": "ruleStep",
"old": "| ScreenSizeOnlyOne => .ok (screenSizeOnlyOne s)",
"new": "| ScreenSizeOnlyOne => .ok s",
"edit": "several screen sizes stay",
"claim": "C39 end to end"
},
{
"file": "Model/Engine.lean",
"definition": "ruleStep",
"old": "| RenameAnotherToOther => .ok (anotherToOther s)",
"new": "| RenameAnotherToOther => .ok s",
"edit": "another is not renamed",
"claim": "C146"
},
{
"file": "Model/Engine.lean",
"definition": "ruleStep",
"old": "| CountValidator => .ok (countValidator s)",
"new": "| CountValidator => .ok s",
"edit": "counts are not validated",
"claim": "C146"
},
{
"file": "Model/Engine.lean",
"definition": "ruleStep",
"old": "| RenameToDiscMatch => .ok (renameDisc (e.kin s) e.uni.lower (isDisabled context c!\"disc\") s)",
"new": "| RenameToDiscMatch => .ok (renameDisc (e.kin s) e.uni.lower false s)",
"edit": "a disabled disc is still reported",
"claim": "C18 end to end"
},
{
"file": "Model/Engine.lean",
"definition": "ruleStep",
"old": "(isDisabled context c!\"audio_bit_rate\") (isDisabled context c!\"video_bit_rate\")",
"new": "(isDisabled context c!\"video_bit_rate\") (isDisabled context c!\"audio_bit_rate\")",
"edit": "the two options are swapped",
"claim": "C18 end to end"
},
{
"file": "Model/Engine.lean",
"definition": "ruleStep",
"old": "(isDisabled context c!\"frame_rate\") (isDisabled context c!\"aspect_ratio\")",
"new": "(isDisabled context c!\"aspect_ratio\") (isDisabled context c!\"frame_rate\")",
"edit": "the two options are swapped",
"claim": "C18 end to end"
},
{
"file": "Model/Engine.lean",
"definition": "ruleStep",
"old": "| RemoveLanguage => .ok (removeLanguage true s)",
"new": "| RemoveLanguage => .ok s",
"edit": "a disabled language stays",
"claim": "C18 end to end"
},
{
"file": "Model/Engine.lean",
"definition": "ruleStep",
"old": "| RenameEpisodeTitleWhenMovieType => .ok (renameEpisodeTitleWhenMovie s)",
"new": "| RenameEpisodeTitleWhenMovieType => .ok s",
"edit": "episode titles of movies stay",
"claim": "C148"
},
{
"file": "Model/Engine.lean",
"definition": "ruleStep",
"old": "| RemoveWeakIfMovie => .ok (removeWeakIfMovie (e.kin s) (typeOption context) s)",
"new": "| RemoveWeakIfMovie => .ok s",
"edit": "weak episodes of movies stay",
"claim": "none stated end to end"
},
{
"file": "Model/Engine.lean",
"definition": "ruleStep",
"old": "| EquivalentHoles => equivalentHoles e.uni e.cases s",
"new": "| EquivalentHoles => .ok s",
"edit": "no echoes",
"claim": "C36 end to end"
},
{
"file": "Model/Engine.lean",
"definition": "runRules",
"old": ".error x => .error x",
"new": ".error _ => runRules e context rs s",
"edit": "a rule that raises is skipped",
"claim": "C15/engine: an exception ends the run"
},
{
"file": "Model/Schedule.lean",
"definition": "otherPlug",
"old": "{ cls := ProperCountRule, priority := postProcess }",
"new": "{ cls := ProperCountRule }",
"edit": "ProperCountRule runs with the others",
"claim": "C151/C152 order"
},
{
"file": "Model/Schedule.lean",
"definition": "processorsPlug",
"old": "{ cls := EnlargeGroupMatches, priority := preProcess }",
"new": "{ cls := EnlargeGroupMatches }",
"edit": "EnlargeGroupMatches runs with the others",
"claim": "C152"
},
{
"file": "Model/Schedule.lean",
"definition": "processorsPlug",
"old": "    { cls := YearSeason, priority := postProcess },\n",
"new": "",
"edit": "YearSeason is not registered",
"claim": "C149"
},
{
"file": "Model/Schedule.lean",
"definition": "processorsPlug",
"old": "    { cls := StripSeparators, priority := postProcess }]",
"new": "    { cls := StripSeparators, priority := postProcess, deps := [Mimetype] }]",
"edit": "StripSeparators after Mimetype",
"claim": "C108_guessit / C152"
},
{
"file": "Model/Schedule.lean",
"definition": "guessitPlugs",
"old": "{ cls := TypeProcessor, priority := postProcess, deps := [Cls.Processors] }",
"new": "{ cls := TypeProcessor, priority := postProcess }",
"edit": "TypeProcessor waits for nothing",
"claim": "C147"
},
{
"file": "Model/Schedule.lean",
"definition": "episodeTitlePlug",
"old": "{ cls := RenameEpisodeTitleWhenMovieType, priority := postProcess, deps := [TypeProcessor] }",
"new": "{ cls := RenameEpisodeTitleWhenMovieType, priority := postProcess }",
"edit": "the renaming does not wait for the type",
"claim": "C148"
},
{
"file": "Model/Schedule.lean",
"definition": "rootPlug",
"old": "{ cls := PrivateRemover, priority := postProcess }",
"new": "{ cls := PrivateRemover, priority := 0 }",
"edit": "PrivateRemover runs early",
"claim": "C151"
},
{
"file": "Model/Schedule.lean",
"definition": "ruleEnabled",
"old": "| FilmTitleRule => !isDisabled context c!\"film_title\"",
"new": "| FilmTitleRule => !isDisabled context c!\"film\"",
"edit": "film_title cannot be disabled alone",
"claim": "C18"
},
{
"file": "Model/Schedule.lean",
"definition": "ruleEnabled",
"old": "  | RemoveLanguage => isDisabled context c!\"language\"\n",
"new": "  | RemoveLanguage => !isDisabled context c!\"language\"\n",
"edit": "RemoveLanguage runs when language is enabled",
"claim": "C18"
},
{
"file": "Model/Processors.lean",
"definition": "yearSeason",
"old": "named s.live c!\"season\" = [] ∧ named s.live c!\"episode\" ≠ []",
"new": "named s.live c!\"season\" = []",
"edit": "the year becomes a season without episodes",
"claim": "C149"
},
{
"file": "Model/Processors.lean",
"definition": "seasonYear",
"old": "if named s.live c!\"year\" = [] then\n    match seasonYears",
"new": "if named s.live c!\"season\" ≠ [] then\n    match seasonYears",
"edit": "a second year is added",
"claim": "C149"
}
]