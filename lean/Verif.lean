import Verif.Props.Options
import Verif.Props.Api
import Verif.Props.Output
import Verif.Props.Text
import Verif.Props.Markers
import Verif.Props.Numeral
import Verif.Props.Date
import Verif.Props.Quantity
import Verif.Props.Encoding
import Verif.Props.Rules
import Verif.Props.Ambiguous
import Verif.Props.Completion
import Verif.Props.Equivalent
import Verif.Props.Strip
import Verif.Props.Enlarge
import Verif.Props.Kept
import Verif.Props.Uuid
import Verif.Props.Pattern
import Verif.Props.Expected
import Verif.Props.Heap
import Verif.Props.Language
import Verif.Props.Cli
import Verif.Props.Episodes
import Verif.Props.Counts
import Verif.Props.Affixes
import Verif.Model.Pipeline
import Verif.Props.Excludes
import Verif.Props.Refine
import Verif.Props.Validators
import Verif.Props.Sources
import Verif.Props.Removers
import Verif.Props.Languages
import Verif.Props.TitleWhole
import Verif.Props.EpisodeTitle
import Verif.Props.TitleRename
import Verif.Props.TitleRenameExamples
import Verif.Props.GroupName
import Verif.Props.DashGroup
import Verif.Props.DashGroupExamples
import Verif.Props.SceneGroup
import Verif.Props.EngineMarks
import Verif.Props.SceneGroupExamples
import Verif.Props.Conflicts
import Verif.Props.Absolute
import Verif.Props.ConflictsExamples
import Verif.Props.Sizes
import Verif.Props.SizesExamples
import Verif.Props.Subtitles
import Verif.Props.SubtitlesExamples
import Verif.Props.UltraHd
import Verif.Props.UltraHdExamples
import Verif.Props.ConfigPatterns
import Verif.Props.Converters
import Verif.Props.Registry
import Verif.Props.Print
import Verif.Props.Solver
import Verif.Props.Trades
import Verif.Props.Schedule
import Verif.Props.Advanced
import Verif.Props.Numbers
import Verif.Props.Numbered
import Verif.Props.Discs
import Verif.Props.Part
import Verif.Props.PartExamples
import Verif.Props.Amounts
import Verif.Props.AmountsExamples
import Verif.Props.Strings
import Verif.Props.StringsExamples
import Verif.Props.Screen
import Verif.Props.ScreenForms
import Verif.Props.ScreenGreedy
import Verif.Props.ScreenFound
import Verif.Props.Frames
import Verif.Props.FramesExamples
import Verif.Props.QuantityReported
import Verif.Props.Website
import Verif.Props.WebsiteExamples
import Verif.Props.SeasonEpisodeListed
import Verif.Props.SeasonEpisodeSound
import Verif.Props.Crossed
import Verif.Props.SeasonsOnly
import Verif.Props.SeasonEpisodeExamples
import Verif.Props.NumberingListed
import Verif.Props.NumberingSound
import Verif.Props.EpisodeWords
import Verif.Props.EpisodeAll
import Verif.Props.Detached
import Verif.Props.EpisodeDetails
import Verif.Props.Vocabulary
import Verif.Props.Phrases
import Verif.Props.PhraseFound
import Verif.Props.PhraseTables
import Verif.Props.PhraseExamples
import Verif.Props.Forms
import Verif.Props.FormFound
import Verif.Props.FormTables
import Verif.Props.Extras
import Verif.Props.DateSeen
import Verif.Props.Numerals
import Verif.Props.SeasonWords
import Verif.Props.SeasonWordsFound
import Verif.Props.SeasonWordsExamples
import Verif.Props.EpisodeNumerals
import Verif.Props.EpisodeNumeralsExamples
import Verif.Props.LooseChains
import Verif.Props.LooseEp
import Verif.Props.LooseCap
import Verif.Props.LooseChainsExamples
import Verif.Props.EngineTrace
import Verif.Props.EngineRun
import Verif.Props.EngineNames
import Verif.Props.EngineType
import Verif.Props.EngineExamples
import Verif.Props.EngineLast
import Verif.Props.EngineEcho
import Verif.Props.EngineSeason
import Verif.Props.EngineSeasonExamples
import Verif.Props.EnginePlace
import Verif.Props.EnginePlaceRules
import Verif.Props.EnginePlaceTitles
import Verif.Props.EnginePlaceGroups
import Verif.Props.EnginePlaceAfter
import Verif.Props.EnginePlaceRun
import Verif.Props.EnginePlaceExamples
import Verif.Props.EnginePlaceMarks
import Verif.Props.EngineStrip
import Verif.Model.Program
import Verif.Props.Guess
import Verif.Props.GuessRuns
import Verif.Props.ProgramPlace
import Verif.Props.ProgramInside
import Verif.Props.ProgramInsideExamples
import Verif.Props.GuessFails
import Verif.Props.EngineValues
import Verif.Props.ProgramValues
import Verif.Props.ValuesWhole
import Verif.Props.ValuesExamples
import Verif.Props.EngineQuoted
import Verif.Props.ProgramQuoted
import Verif.Props.QuotedWhole
import Verif.Props.EngineObjects
import Verif.Props.ProgramObjects
import Verif.Props.ObjectsWhole
import Verif.Props.ProgramQuantities
import Verif.Props.QuantitiesWhole
import Verif.Props.EngineNumbers
import Verif.Props.ProgramFree
import Verif.Props.ProgramNumbers
import Verif.Props.NumbersWhole
import Verif.Props.ProgramClear
import Verif.Props.ProgramVersions
import Verif.Props.VersionsWhole
import Verif.Props.ProgramCounts
import Verif.Props.CountsWhole
import Verif.Props.ProgramSeasons
import Verif.Props.SeasonsWhole
import Verif.Props.Numberless
