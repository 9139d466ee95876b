{"id": "C01", "title": "Scalar options: the last source that defines a non-null value wins", "statement": "When several option dictionaries (default config, user configs, --config files, call options) are merged, the merged value of an option whose earlier value is a scalar is the value of the last source that gives it a non-null value; a null (None) never erases or overrides an earlier value.", "quantifier": "every finite sequence of option dictionaries, every key, every value", "why_tests_cant": "the number of sources, keys and value types is unbounded; precedence must hold for every combination", "anchors": ["guessit/options.py: merge_options, merge_option_value"]}
{"id": "C02", "title": "List options accumulate without loss or new duplicates", "statement": "When an option already holds a list, merging a later list keeps every earlier element in place and order, appends every later non-null element not already present (Python ==), adds nothing else and never appends a duplicate.", "quantifier": "every pair of lists, of any length and element types", "why_tests_cant": "quantifies over all lists and element equalities", "anchors": ["guessit/options.py: merge_option_value"]}
{"id": "C03", "title": "Merging options is key-local", "statement": "The merged value of a key depends only on the values the two dictionaries give to that key and on the later dictionary's pristine entry: no key leaks into another, no key appears that neither source has, and none is lost unless pristine names it.", "quantifier": "every pair of well-formed option dictionaries and every key", "why_tests_cant": "non-interference over all keys is a universal statement", "anchors": ["guessit/options.py: merge_options"]}
{"id": "C04", "title": "pristine resets exactly what it says", "statement": "`pristine: true` in a source discards everything merged before it; `pristine: [names]` discards exactly those names; `pristine` of a later source is itself never part of the merged result.", "quantifier": "every dictionary and every pristine list", "why_tests_cant": "all possible key sets", "anchors": ["guessit/options.py: merge_options"]}
{"id": "C05", "title": "Nested configuration is merged recursively, at any depth", "statement": "If an option already holds a dictionary, merging is the same merge operation applied to the nested dictionaries, at every nesting depth.", "quantifier": "every nesting depth and shape of dictionaries", "why_tests_cant": "unbounded depth", "anchors": ["guessit/options.py: merge_options, merge_option_value"]}
{"id": "C06", "title": "Merging the configuration a second time changes nothing", "statement": "Options already merged over a configuration are unchanged by merging them over the same configuration again (the command line merges the configuration, then guessit() merges it again).", "quantifier": "every configuration and options dictionary (no pristine entry left in the merged options)", "why_tests_cant": "idempotence over all inputs", "anchors": ["guessit/options.py: merge_options", "guessit/__main__.py: main", "guessit/api.py: GuessItApi.guessit"]}
{"id": "C07", "title": "Configuration sources are applied in the documented order and an advanced_config is always present", "statement": "load_config applies the default configuration (unless no_default_config), then each existing user file in the fixed location order (unless no_user_config), then the --config entries in the given order, and its result always contains advanced_config, taken from the packaged default when no source provides one.", "quantifier": "every environment (existing files, their contents, yaml availability) and every options dictionary", "why_tests_cant": "the file system state and file contents are unbounded", "anchors": ["guessit/options.py: load_config, get_options_file_locations, load_config_file"]}
{"id": "C08", "title": "The guess uses rules built from this call's own configuration, whatever happened before", "statement": "After any history of successful configure/guessit/properties/reset calls with the default rules builder, the rules used by the next guessit call were built from an advanced configuration equal to the one this call's options and the loaded configuration define.", "quantifier": "every finite history of API calls, every options dictionary", "why_tests_cant": "caches are keyed by options; a stale cache shows only after particular histories", "anchors": ["guessit/api.py: GuessItApi.configure, guessit, reset"]}
{"id": "C09", "title": "guessit results are independent of call history", "statement": "With unchanged configuration files, guessit(string, options) returns the same result after any history of successful calls as on a fresh API object.", "quantifier": "every finite history of successful API calls, every string and options", "why_tests_cant": "quantifies over all histories", "anchors": ["guessit/api.py: GuessItApi"]}
{"id": "C10", "title": "A failed configuration does not poison later calls", "statement": "After a call that raised because the rules could not be built, repeating the same call must raise again rather than silently answer with other rules.", "quantifier": "every history including failing calls", "why_tests_cant": "depends on the exact point where the failure interrupts the update of several cached fields", "anchors": ["guessit/api.py: GuessItApi.configure"]}
{"id": "C11", "title": "reset() restores a fresh API", "statement": "After reset(), whatever happened before, the API behaves exactly as a newly constructed one.", "quantifier": "every history, including failures", "why_tests_cant": "quantifies over all histories", "anchors": ["guessit/api.py: GuessItApi.reset"]}
{"id": "C12", "title": "Every failure of guessit() surfaces as GuessitException", "statement": "If any step of guessit (option parsing, configuration loading, rule building, matching, output building) raises, the caller sees a GuessitException carrying the input string; otherwise a dictionary is returned.", "quantifier": "every input string, options and failure point", "why_tests_cant": "every failure point", "anchors": ["guessit/api.py: GuessItApi.guessit, GuessitException"]}
{"id": "C13", "title": "The caller's objects are never modified", "statement": "No guessit, properties or configure call (with its default sanitize_options) modifies any dictionary or list that existed before the call, in particular none reachable from the options passed by the caller, also when it raises; and in every history of calls and of edits by the caller to objects it holds, no object of the API's cached state is one of the caller's, so such edits do not alter the cached state. merge_options modifies none of its arguments. (What configure returns is the cached configuration itself.)", "quantifier": "every heap of shared, nested, aliased option objects", "why_tests_cant": "aliasing patterns are unbounded", "anchors": ["guessit/api.py: _fix_encoding, configure", "guessit/options.py: merge_options", "guessit/config/__init__.py: load_config_patterns", "guessit/api.py: GuessItApi.guessit, properties"]}
{"id": "C14", "title": "bytes in, bytes out; str in, str out", "statement": "With a bytes filename every textual value of the result is bytes (and decodes to the text value found for the decoded filename); with a str filename no value is turned into bytes.", "quantifier": "every filename and every set of matches", "why_tests_cant": "all inputs", "anchors": ["guessit/api.py: GuessItApi.guessit"]}
{"id": "C15", "title": "Output shape options", "statement": "Without enforce_list/single_value a property maps to its value if all its matches have the same value, else to the list of distinct values in order of position; with single_value it is the first value; with enforce_list every property is a list without duplicates.", "quantifier": "every list of matches", "why_tests_cant": "all match lists", "anchors": ["guessit/api.py: GuessItApi.guessit (to_dict)"]}
{"id": "C16", "title": "suggested_expected returns exactly the titles that are not guessed as a bare title", "statement": "The result is the sublist, in order, of the titles whose guess is not exactly two properties including title.", "quantifier": "every list of titles", "why_tests_cant": "all lists", "anchors": ["guessit/api.py: GuessItApi.suggested_expected"]}
{"id": "C17", "title": "includes/excludes decide exactly which properties are enabled", "statement": "A property is disabled iff it is in excludes, or includes is non-empty and does not contain it.", "quantifier": "every context and property name", "why_tests_cant": "all contexts", "anchors": ["guessit/rules/common/pattern.py: is_disabled"]}
{"id": "C18", "title": "A property listed in excludes never appears in the result", "statement": "Whatever the patterns found, no property name listed in excludes is present in the final result.", "quantifier": "every input string, every pattern result, every excludes list", "why_tests_cant": "depends on all rules and all inputs", "anchors": ["guessit/rules/processors.py: SeasonYear, YearSeason", "guessit/rules/properties/*.py"]}
{"id": "C19", "title": "Cleaned values are normalised", "statement": "A value produced by cleanup has no two consecutive spaces and neither starts nor ends with a separator, except for separators kept inside acronyms.", "quantifier": "every input string", "why_tests_cant": "all strings", "anchors": ["guessit/rules/common/formatters.py: cleanup, strip"]}
{"id": "C20", "title": "Cleaning never loses, adds or reorders word characters", "statement": "The sequence of non-separator characters of a cleaned value is exactly that of the raw text.", "quantifier": "every input string", "why_tests_cant": "all strings", "anchors": ["guessit/rules/common/formatters.py: cleanup"]}
{"id": "C21", "title": "Title reordering only moves a trailing article", "statement": "reorder_title returns the title unchanged unless it ends with a separator followed by an article, in which case it returns the article, a space and the rest.", "quantifier": "every title, article list, separator list", "why_tests_cant": "all strings", "anchors": ["guessit/rules/common/formatters.py: reorder_title"]}
{"id": "C22", "title": "Words are exactly the maximal separator-free runs, with exact spans", "statement": "iter_words yields, in order, every maximal run of non-separator characters and nothing else; each span slices the input to the word's text.", "quantifier": "every string", "why_tests_cant": "all strings", "anchors": ["guessit/rules/common/words.py: iter_words"]}
{"id": "C23", "title": "Path markers partition the input", "statement": "The path elements are the maximal runs without / or \\, in order, disjoint, covering every other character; with name_only there is one element covering the whole input.", "quantifier": "every string", "why_tests_cant": "all strings", "anchors": ["guessit/rules/markers/path.py: mark_path"]}
{"id": "C24", "title": "Group markers are well nested and delimited by brackets", "statement": "Every group marker starts on an opening bracket, ends just after a closing bracket, lies inside the input, no two share an end and any two are nested or disjoint; opening and closing bracket are of the same kind.", "quantifier": "every string and every bracket configuration", "why_tests_cant": "all strings", "anchors": ["guessit/rules/markers/groups.py: mark_groups"]}
{"id": "C25", "title": "Roman numerals are read exactly", "statement": "Every integer from 1 to 4999 written as a canonical Roman numeral is parsed to that integer, and a text is accepted as a Roman numeral only if it is one of those.", "quantifier": "every integer 1..4999 and every string", "why_tests_cant": "the set of strings is infinite", "anchors": ["guessit/rules/common/numeral.py: __parse_roman, roman_numeral"]}
{"id": "C26", "title": "Numeral parsing precedence", "statement": "parse_numeral returns the first run of decimal digits if there is one, otherwise the first Roman-numeral word, otherwise the first number word, otherwise raises.", "quantifier": "every string", "why_tests_cant": "all strings", "anchors": ["guessit/rules/common/numeral.py: parse_numeral"]}
{"id": "C27", "title": "Years and weeks reported are plausible", "statement": "Every reported year is in 1920..2029 and every reported week in 1..52.", "quantifier": "every input", "why_tests_cant": "all inputs", "anchors": ["guessit/rules/common/date.py: valid_year, valid_week", "guessit/rules/properties/date.py: date", "guessit/rules/processors.py: SeasonYear"]}
{"id": "C28", "title": "A reported date is plausible and comes from the text", "statement": "A date returned by search_date has a year in 1920..2029, its span lies in the string, and it is the parse of exactly the digits of that span under day/year-first flags compatible with the options given. A text with a date written in it in one of the known shapes, apart from other digits, is not left without a date when every reading is plausible.", "quantifier": "every string, options and date parser", "why_tests_cant": "all strings", "anchors": ["guessit/rules/common/date.py: search_date, _guess_day_first_parameter"]}
{"id": "C29", "title": "Quantities compare and hash consistently", "statement": "Two quantities (or a quantity and a string) that compare equal have the same hash, so sets and dictionaries of results behave; equality is symmetric and transitive.", "quantifier": "every pair of quantities", "why_tests_cant": "all magnitudes/units", "anchors": ["guessit/rules/common/quantity.py: Quantity"]}
{"id": "C30", "title": "Quantity text round-trips", "statement": "Printing a parsed size or bit rate and parsing it again gives an equal quantity.", "quantifier": "every parsed quantity", "why_tests_cant": "all strings", "anchors": ["guessit/rules/common/quantity.py: Quantity.fromstring, __str__, parse_units"]}
{"id": "C31", "title": "The guessed type is always decided, exactly once, by the documented rule", "statement": "The result contains exactly one type: the type option when given, else episode if an episode, season, absolute_episode or episode_details was found, else movie if film was found, else episode if (date or bonus) without year, or crc32 with an anime release group, else movie.", "quantifier": "every set of matches and every context", "why_tests_cant": "all match sets", "anchors": ["guessit/rules/properties/type.py: TypeProcessor"]}
{"id": "C32", "title": "Episode and season ranges expand to every number in between, exactly once", "statement": "For a range separator between two numbers a and b the added values are exactly a+1..b-1 in increasing order.", "quantifier": "every pair of numbers, every chain length", "why_tests_cant": "unbounded ranges", "anchors": ["guessit/rules/properties/episodes.py: AbstractSeparatorRange, SeePatternRange"]}
{"id": "C33", "title": "Ambiguity between path parts is resolved in favour of the most valuable part", "statement": "After RemoveAmbiguous, every remaining value of a property outside the first part (in the value order) in which that property occurs also occurs in that first part; nothing from that first part is removed.", "quantifier": "every set of matches and path parts", "why_tests_cant": "all match sets", "anchors": ["guessit/rules/processors.py: RemoveAmbiguous", "guessit/rules/common/comparators.py: marker_sorted"]}
{"id": "C34", "title": "Path parts are ranked by a total order", "statement": "marker_sorted returns a permutation of the parts, ordered by number of distinct property names (descending) then rightmost first; the result does not depend on the input order of the sort algorithm.", "quantifier": "every list of markers and matches", "why_tests_cant": "all lists", "anchors": ["guessit/rules/common/comparators.py: marker_sorted, marker_comparator"]}
{"id": "C35", "title": "year/season completion", "statement": "A year is copied from season only when no year was found and the season is a plausible year; a season is copied from year only when there is an episode and no season; nothing else is added.", "quantifier": "every set of matches", "why_tests_cant": "all match sets", "anchors": ["guessit/rules/processors.py: SeasonYear, YearSeason"]}
{"id": "C36", "title": "Equivalent holes keep one spelling", "statement": "The spelling kept for two case-insensitively equal values is always one of the two, and a value is never replaced by an unrelated one.", "quantifier": "every pair of strings", "why_tests_cant": "all strings", "anchors": ["guessit/rules/processors.py: EquivalentHoles, _preferred_string"]}
{"id": "C37", "title": "Separator stripping stays inside the match", "statement": "StripSeparators only removes separator characters from the ends of the reported raw text, at most two on each side, and never changes the span used for positions.", "quantifier": "every match", "why_tests_cant": "all matches", "anchors": ["guessit/rules/processors.py: StripSeparators"]}
{"id": "C38", "title": "Enlarging group matches stays inside the input", "statement": "EnlargeGroupMatches moves a match boundary only over a bracket adjacent to it, keeps 0 <= start <= end <= len(input), and keeps the raw text.", "quantifier": "every set of matches and groups", "why_tests_cant": "all inputs", "anchors": ["guessit/rules/processors.py: EnlargeGroupMatches"]}
{"id": "C39", "title": "At most one screen size per path part", "statement": "After ScreenSizeOnlyOne all the screen sizes of a path part have the same value.", "quantifier": "every set of matches", "why_tests_cant": "all match sets", "anchors": ["guessit/rules/properties/screen_size.py: ScreenSizeOnlyOne"]}
{"id": "C40", "title": "Years kept in a path part", "statement": "KeepMarkedYearInFilepart keeps the first bracketed year when bracketed and bare years coexist, and otherwise drops the first bare year (title) and keeps the second; it never removes the only year of a part.", "quantifier": "every set of year matches", "why_tests_cant": "all match sets", "anchors": ["guessit/rules/properties/date.py: KeepMarkedYearInFilepart"]}
{"id": "C41", "title": "proper_count counts distinct spellings", "statement": "proper_count is the sum over distinct normalised spellings of Proper matches of the explicit count, 2 for 'real', else 1; it is added iff there is a Proper match.", "quantifier": "every set of matches", "why_tests_cant": "all match sets", "anchors": ["guessit/rules/properties/other.py: ProperCountRule"]}
{"id": "C42", "title": "Expected titles and groups are located exactly", "statement": "For a plain expected text every reported span has the length of the text and its text equals the expected one up to case and separators; every such occurrence is reported.", "quantifier": "every input string and expected list", "why_tests_cant": "all strings", "anchors": ["guessit/rules/common/expected.py: build_expected_function"]}
{"id": "C43", "title": "The command line guesses every non-empty name exactly once, in order", "statement": "Every non-empty positional filename, then every non-empty stripped line of the input file, is guessed exactly once in order; help is shown iff nothing else was done.", "quantifier": "every argument list and input file", "why_tests_cant": "all inputs", "anchors": ["guessit/__main__.py: main"]}
{"id": "C44", "title": "Command line defaults do not override configuration", "statement": "An option not given on the command line (or in an option string) does not override the value the configuration files give.", "quantifier": "every configuration and every option", "why_tests_cant": "all options", "anchors": ["guessit/options.py: build_argument_parser, parse_options"]}
{"id": "C45", "title": "UUID detection only reports plausible identifiers with exact spans", "statement": "Every reported uuid is a maximal run of at least 20 characters in [a-zA-Z0-9-], inside the input, satisfying the alternation thresholds; runs are disjoint and in order; every qualifying run is reported.", "quantifier": "every string", "why_tests_cant": "all strings", "anchors": ["guessit/rules/properties/crc.py: guess_idnumber"]}
{"id": "C46", "title": "Alternation patterns match exactly the alternatives", "statement": "build_or_pattern of a non-empty list denotes exactly the union of its alternatives; with escape, exactly the listed literal texts.", "quantifier": "every list of alternatives", "why_tests_cant": "all lists", "anchors": ["guessit/reutils.py: build_or_pattern"]}
{"id": "C47", "title": "Country spans point at the country text", "statement": "Every country match's span, applied to the input, yields the country word.", "quantifier": "every string", "why_tests_cant": "all strings", "anchors": ["guessit/rules/properties/country.py: CountryFinder.find"]}
{"id": "C48", "title": "Language matches: regular beats undetermined", "statement": "Undetermined languages are reported only if no regular language was found for the same property; a multi-language marker is dropped only when solely undetermined languages were found.", "quantifier": "every string, every language table", "why_tests_cant": "all strings", "anchors": ["guessit/rules/properties/language.py: LanguageFinder.find"]}
{"id": "C49", "title": "Only allowed languages and countries are reported", "statement": "Every language or country reported by the finders is allowed by the allowed_languages/allowed_countries option.", "quantifier": "every string and every allowed list", "why_tests_cant": "all strings", "anchors": ["guessit/rules/properties/language.py: parse_language", "guessit/rules/properties/country.py: CountryFinder.find"]}
{"id": "C50", "title": "Composed validators", "statement": "and_ accepts iff all accept, or_ accepts iff some accepts, for any number of validators.", "quantifier": "every list of validators", "why_tests_cant": "all lists", "anchors": ["guessit/rules/common/validators.py: and_, or_"]}
{"id": "C51", "title": "The reading of a date does not depend on the rest of the name", "statement": "Without date options, a date whose first part is a plausible four-digit year is read with day-first off, and one whose last part is a plausible four-digit year (and whose first is not) with day-first on, whatever other digits the name contains.", "quantifier": "all names, all date parsers", "why_tests_cant": "the interfering text can be anything; only a proof over all names (or a counterexample) settles it", "anchors": ["guessit/rules/common/date.py:_guess_day_first_parameter", "guessit/rules/common/date.py:search_date"]}
{"id": "C52", "title": "Byte strings in options are decoded everywhere", "statement": "Whatever options are passed, after sanitising no byte string is left at any depth (key or value), text is left unchanged, the last entry given for a name wins whether it is written as text or bytes, decoding is idempotent and the only possible failure is a byte string that is not ASCII.", "quantifier": "all nested option values", "why_tests_cant": "options are arbitrarily nested values; tests try a handful", "anchors": ["guessit/api.py: GuessItApi._fix_encoding"]}
{"id": "C53", "title": "Season/episode conflicts between path parts are settled by the most specific spelling", "statement": "When path parts disagree on a season or an episode, the values of a part written like S01E02 win over parts without that spelling; otherwise the rightmost part wins (as documented by RemoveLessSpecificSeasonEpisode).", "quantifier": "every set of matches and path parts", "why_tests_cant": "depends on every combination of tags, values and parts", "anchors": ["guessit/rules/processors.py:RemoveLessSpecificSeasonEpisode", "guessit/rules/common/comparators.py:marker_comparator"]}
{"id": "C54", "title": "The span of proper_count covers every counted match", "statement": "The proper_count match begins where the first counted Proper match begins and ends where the last one ends.", "quantifier": "every set of matches", "why_tests_cant": "depends on every placement of Proper matches", "anchors": ["guessit/rules/properties/other.py:ProperCountRule"]}
{"id": "C55", "title": "Expected entries do not influence each other", "statement": "The result of a list of expected titles (or groups) is the concatenation, in order, of what each entry alone gives on the original input.", "quantifier": "every input string and every list of expected texts", "why_tests_cant": "all lists and all inputs", "anchors": ["guessit/rules/common/expected.py: build_expected_function"]}
{"id": "C56", "title": "Language spans are whole words", "statement": "Every language or subtitle language found in the text covers one whole word, or two successive words joined by a single hyphen, space or dot; only language and (unless disabled) subtitle_language are reported.", "quantifier": "every string, every language table and configuration", "why_tests_cant": "all strings", "anchors": ["guessit/rules/properties/language.py: LanguageFinder"]}
{"id": "C57", "title": "Ranges written over two season/episode pairs are expanded fully", "statement": "For the S01E02-S01E05 form, every episode number between the two ends (inclusive of the second) is reported, and nothing but the separators and the replaced end disappears.", "quantifier": "every set of matches and every pair of numbers", "why_tests_cant": "numbers are unbounded and matches arbitrary", "anchors": ["guessit/rules/properties/episodes.py: SeePatternRange"]}
{"id": "C58", "title": "A count counts what precedes it", "statement": "A count (\"of 12\") is reported as episode_count if the nearest match before it is an episode, as season_count if it is a season, and is dropped otherwise; its value and span do not change and no raw count is ever reported.", "quantifier": "every set of matches", "why_tests_cant": "depends on every placement of matches", "anchors": ["guessit/rules/properties/episodes.py: CountValidator"]}
{"id": "C59", "title": "Numbers of one season/episode pattern are in order", "statement": "An accepted chain lists its episode numbers and its season numbers in increasing order, and two numbers separated by a weak separator (such as a dot or a space) are close to each other unless a strong separator is present.", "quantifier": "every chain of numbers and separators, every configuration", "why_tests_cant": "chains are of any length", "anchors": ["guessit/rules/properties/episodes.py: ordering_validator"]}
{"id": "C60", "title": "Ranges are bounded by the configured maximum", "statement": "Two neighbouring numbers of a chain are never further apart than episode_max_range (season_max_range), so the expansion of a range creates at most that many matches.", "quantifier": "every chain and every configuration", "why_tests_cant": "numbers are unbounded", "anchors": ["guessit/rules/properties/episodes.py: episodes_season_chain_breaker, AbstractSeparatorRange"]}
{"id": "C61", "title": "A language is read off the words next to it", "statement": "Every reported language is named by the word (or pair of joined words) it spans, or by what remains of that word without a configured prefix or suffix, or by the word exactly one character away from a word that is a configured affix; only a non-weak affix alone gives an undetermined language.", "quantifier": "every string, language table and configuration", "why_tests_cant": "all strings and tables", "anchors": ["guessit/rules/properties/language.py: LanguageFinder"]}
{"id": "C62", "title": "Merging a document changes only the options it mentions", "statement": "An option that the later documents of a merge do not mention keeps the value it has in the earlier ones.", "quantifier": "every heap of option documents, shared or not", "why_tests_cant": "sharing patterns (YAML anchors) are unbounded", "anchors": ["guessit/options.py: merge_options, merge_option_value"]}
{"id": "C63", "title": "An isolated ambiguous word is not reported", "statement": "A word that is only meaningful next to another property (tagged has-neighbor, has-neighbor-before, has-neighbor-after) is dropped exactly when no match or bracketed group touches it up to separators on the required side.", "quantifier": "every input string, every set of matches and markers a search can produce", "why_tests_cant": "all arrangements of matches, separators and brackets", "anchors": ["guessit/rules/properties/other.py: ValidateHasNeighbor, ValidateHasNeighborBefore, ValidateHasNeighborAfter"]}
{"id": "C64", "title": "Context-dependent `other` values are reported only in their context", "statement": "Screener and mux are kept exactly when a source comes before (for screener, right before); hardcoded subtitles exactly when a subtitle language is next to them with no text between; end-of-name words exactly when nothing but such words and the container follows in the path part; `real` exactly when it is not the first match of its part.", "quantifier": "every input string, every set of matches and markers a search can produce", "why_tests_cant": "all arrangements of matches, separators and brackets", "anchors": ["guessit/rules/properties/other.py: ValidateScreenerRule, ValidateMuxRule, ValidateHardcodedSubs, ValidateAtEnd, ValidateReal"]}
{"id": "C65", "title": "Video codecs are not read inside words", "statement": "A video codec is kept exactly when each of its sides is a separator, an end of the input or a match announcing or completing a codec; a video profile exactly when a codec is at or next to it.", "quantifier": "every input string, every set of matches and markers a search can produce", "why_tests_cant": "all arrangements of matches, separators and brackets", "anchors": ["guessit/rules/properties/video_codec.py: ValidateVideoCodec, VideoProfileRule"]}
{"id": "C66", "title": "Audio properties are not read inside words", "statement": "An audio property is kept exactly when each side is free or touches another audio property; weak channels only after an audio codec; an audio profile only at or next to its codec, and then only what competes with the profile is dropped; `other` High Quality gives way to the audio profile of the same span.", "quantifier": "every input string, every set of matches and markers a search can produce", "why_tests_cant": "all arrangements of matches, separators and brackets", "anchors": ["guessit/rules/properties/audio_codec.py: AudioValidatorRule, AudioProfileRule, HqConflictRule, AudioChannelsValidatorRule"]}
{"id": "C67", "title": "Sources, streaming services and websites need their surroundings", "statement": "A source glued to a word that is neither a source prefix nor a suffix is dropped with all its pattern found; a weak source gives way to a later source when text precedes it; a streaming service needs a confirming neighbour; its affixes need the service; a website prefix needs its website; a website without a usual prefix, outside brackets, followed by a season, episode or year is dropped. Nothing else is.", "quantifier": "every input string, every set of matches and markers a search can produce", "why_tests_cant": "all arrangements of matches, separators and brackets", "anchors": ["guessit/rules/properties/source.py: ValidateSourcePrefixSuffix, ValidateWeakSource", "guessit/rules/properties/streaming_service.py: ValidateStreamingService", "guessit/rules/properties/other.py: ValidateStreamingServiceNeighbor", "guessit/rules/properties/website.py: PreferTitleOverWebsite, ValidateWebsitePrefix"]}
{"id": "C68", "title": "Numbers that merely look like episodes give way", "statement": "Weak episodes are dropped exactly when: the part has an SxxExx match (unless they start the part), a year says it is a movie (unless spared), a technical property is right before the first of them (which becomes an episode if it is an episode word), a later weak duplicate was found by the same pattern under the same name, or it is the smallest weak number, below ten and detached from the others. Nothing else changes.", "quantifier": "every input string, every set of matches and markers a search can produce", "why_tests_cant": "all arrangements of matches, separators and brackets", "anchors": ["guessit/rules/properties/episodes.py: RemoveWeakIfSxxExx, RemoveWeakIfMovie, RemoveWeak, RemoveWeakDuplicate, RemoveDetachedEpisodeNumber"]}
{"id": "C69", "title": "Episode details, versions, single digits and later seasons are checked against their surroundings", "statement": "An episode detail is dropped exactly when neither detached nor next to a season or episode; a version when its pattern is attached and no episode comes just before; a one-character episode when it is in a bracketed group without title; after a strong season with an episode, later seasons that are weak or without episode; after a strong episode, later episodes with another marker.", "quantifier": "every input string, every set of matches and markers a search can produce", "why_tests_cant": "all arrangements of matches, separators and brackets", "anchors": ["guessit/rules/properties/episodes.py: EpisodeDetailValidator, VersionValidator, EpisodeSingleDigitValidator, RemoveInvalidSeason, RemoveInvalidEpisode"]}
{"id": "C70", "title": "Common words are not languages", "statement": "A language spelled as a configured common word is dropped exactly when it is not in a bracketed group made only of languages; an undetermined language is dropped exactly when the neighbouring match is a language.", "quantifier": "every input string, every set of matches and markers a search can produce", "why_tests_cant": "all arrangements of matches, separators and brackets", "anchors": ["guessit/rules/properties/language.py: RemoveInvalidLanguages, RemoveUndeterminedLanguages"]}
{"id": "C71", "title": "A screen size and a season or episode never both survive a conflict in the first position", "statement": "When seasons or episodes overlap the first screen size of a path part, exactly one side is dropped: the seasons and episodes if the size is attached to a profile, date, source, other or streaming service; else the screen size.", "quantifier": "every input string, every set of matches and markers a search can produce", "why_tests_cant": "all arrangements of matches, separators and brackets", "anchors": ["guessit/rules/properties/screen_size.py: ResolveScreenSizeConflicts"]}
{"id": "C72", "title": "Titles next to a year are preferred", "statement": "If some title is in a path part with a bracketed year (else: with a year), titles whose value differs from all of those are dropped and those are marked; otherwise no title is dropped.", "quantifier": "every input string, every set of matches and markers a search can produce", "why_tests_cant": "all arrangements of matches, separators and brackets", "anchors": ["guessit/rules/properties/title.py: PreferTitleWithYear"]}
{"id": "C73", "title": "A title found by position covers only unrecognised text of one path element", "statement": "Every title (or alternative title, or episode title) that guessit adds from its position lies inside one element of the path, contains at least one word character, runs over no recognised property other than a language, country or episode detail (or an uncertain match when the path has a season directory), enters no bracketed group except one that is a whole path element, and contains no title separator except single dashes between word characters. Its value is the cleaned text of that stretch.", "quantifier": "every input string, every set of matches and markers left by the earlier rules, every formatter environment", "why_tests_cant": "Depends on the arrangement of all matches, groups and separators, which is unbounded.", "anchors": ["guessit/rules/properties/title.py:TitleBaseRule", "guessit/rules/properties/title.py:TitleFromPosition"]}
{"id": "C74", "title": "Only what a title takes over is removed by the title rule", "statement": "A match removed by the title rule is a language, country or episode detail, and a reported title shares a word character with it; conversely a language or country that overlaps a new title is no longer reported on its own (episode details neither, except those sticking out of the title of an episode).", "quantifier": "every state in which the ignorable matches are words that overlap nothing else", "why_tests_cant": "The two loops that shrink the hole depend on all matches around it; examples show only a few arrangements.", "anchors": ["guessit/rules/properties/title.py:TitleBaseRule.check_titles_in_filepart", "guessit/rules/properties/title.py:TitleBaseRule.should_keep"]}
{"id": "C75", "title": "An expected title stops the search", "statement": "When an expected title given by the caller was found, the positional title rule adds and removes nothing.", "quantifier": "every state with an expected title", "why_tests_cant": "Must hold for every state.", "anchors": ["guessit/rules/properties/title.py:TitleBaseRule.when"]}
{"id": "C76", "title": "A title is reported whenever a free word exists, and from the right path element", "statement": "If some element of the path has a word character covered by no match and no bracketed group, a title is reported. Without a season directory each new title comes from an element with a year, or from an element such that no element with more distinct properties (or as many, and further right) has a free word.", "quantifier": "every state, every path length", "why_tests_cant": "Ranges over every number of path elements and every ranking between them.", "anchors": ["guessit/rules/properties/title.py:TitleBaseRule.when", "guessit/rules/common/comparators.py:marker_sorted"]}
{"id": "C77", "title": "The title search does not raise", "statement": "The positional title rule raises no exception when ignorable matches (languages, countries, episode details) begin and end with word characters, overlap nothing else, and do not straddle a bracket or a path separator.", "quantifier": "every such state", "why_tests_cant": "An inverted hole would raise ValueError in bool(hole); absence must be shown for every sequence of shrinking steps.", "anchors": ["guessit/rules/properties/title.py:TitleBaseRule.check_titles_in_filepart"]}
{"id": "C78", "title": "The title is the leftmost free text and is complete", "statement": "No free word of the path element lies to the left of a new title, and a word separated from a new title only by free characters belongs to a reported title as well.", "quantifier": "every state whose groups are listed in the order of their closing brackets", "why_tests_cant": "Ranges over every arrangement of holes, crops and splits.", "anchors": ["guessit/rules/properties/title.py:TitleBaseRule.holes_process", "guessit/rules/properties/title.py:TitleBaseRule.check_titles_in_filepart"]}
{"id": "C79", "title": "A path element wholly in brackets is searched for a title", "statement": "A bracketed group that makes up a whole path element is searched for a title like any other element. (Proved when there is one such element; false when there are two, as the loop removes from the list it iterates: \"[Foo]/[Bar]\".)", "quantifier": "every state", "why_tests_cant": "Tests use one bracketed element.", "anchors": ["guessit/rules/properties/title.py:TitleBaseRule.holes_process"]}
{"id": "C80", "title": "The series title is found in the directory above the season", "statement": "For Series/Season 1/E01.mkv (episode in the file name, season in its directory) the first free text of the directory two levels up is added as a title; for Series S01/E01.mkv or Series/S01E01.mkv (episode in the file name, season there or in its directory) that of the directory. The text has a word, no match other than languages, countries, episode details and weak episodes, no title separator after its first character, and every word before it is covered. In every other case, or when a match is tagged filepart-title, nothing changes.", "quantifier": "every state of the search, every path", "why_tests_cant": "Ranges over every layout of matches and separators in the directories.", "anchors": ["guessit/rules/properties/episode_title.py:Filepart3EpisodeTitle", "guessit/rules/properties/episode_title.py:Filepart2EpisodeTitle"]}
{"id": "C81", "title": "Of two different titles the one after the episode number is the episode title", "statement": "When titles with two different values were found, exactly the titles for which an episode is the nearest preceding match become episode titles; nothing else changes.", "quantifier": "every state of the search", "why_tests_cant": "Quantifies over every set of titles and every ending order.", "anchors": ["guessit/rules/properties/episode_title.py:TitleToEpisodeTitle"]}
{"id": "C82", "title": "Alternative titles and episode titles are exchanged only under the documented conditions", "statement": "Without an episode title, the first alternative title becomes one iff the title reached from it over separators follows an episode, a season, a date, a title or a year, or a checksum was found. When the type is not episode and some episode title did not come from an alternative title, all episode titles become alternative titles. Nothing else changes.", "quantifier": "every state of the search", "why_tests_cant": "Ranges over every history of titles.", "anchors": ["guessit/rules/properties/episode_title.py:AlternativeTitleReplace", "guessit/rules/properties/episode_title.py:RenameEpisodeTitleWhenMovieType"]}
{"id": "C83", "title": "A part number or year inside an episode title is not reported", "statement": "A part number or a year is dropped iff, in a path element, the last public match before it can open an episode title, the first after it can close one, and there is free text in the same bracketed group after it (or, for a year, before it); the match it is a piece of goes with it, nothing else does.", "quantifier": "every state of the search, every nesting of groups", "why_tests_cant": "Ranges over every arrangement of matches, groups and holes.", "anchors": ["guessit/rules/properties/episode_title.py:RemoveConflictsWithEpisodeTitle"]}
{"id": "C84", "title": "The bonus title is the first free text after the bonus number", "statement": "The bonus title is the first stretch after the first public bonus number, in its path element, that no match covers; it is reported iff it has a word, and the rule does not raise.", "quantifier": "every state whose bonus number ends inside its path element", "why_tests_cant": "Ranges over every arrangement of matches after the number.", "anchors": ["guessit/rules/properties/bonus.py:BonusTitleRule"]}
{"id": "C85", "title": "The film title is the first free text before the film number", "statement": "The film title is the first stretch of the path element before the film number that no match covers; it is reported iff it has a word. (Proved when the element is the first of the path or begins with free text; false otherwise: in a directory, an element that begins with a match never yields a film title, since rebulk returns an empty hole first.)", "quantifier": "every state of the search", "why_tests_cant": "The failure needs a directory and a leading match at the same time.", "anchors": ["guessit/rules/properties/film.py:FilmTitleRule"]}
{"id": "C86", "title": "A release group's name is the text, trimmed and never invented", "statement": "The reported name of a release group is made of letters of the text it was found in, in order. A name without brackets or forbidden words at its ends is reported stripped of separators; a name wrapped in brackets keeps them, brackets at one end only are dropped; a forbidden word at the front is dropped with its separators; 'Ann) [Group]' is reported as 'Ann Group'. (False for forbidden words at the end: 'Group.rip' is reported as 'Gro', because the length of the forbidden word is kept instead of dropped.)", "quantifier": "every text, every set of forbidden words and of ignored separators", "why_tests_cant": "Ranges over all strings, forbidden lists and bracketings; the tests use a few names.", "anchors": ["guessit/rules/properties/release_group.py:clean_groupname"]}
{"id": "C87", "title": "A release group written after a dash is found at the end, else at the start, of a path element", "statement": "When no release group is known, the first path element in which a candidate is found yields it: the text after the last dash at the end of the name (or a match standing there) becomes the release group and the matches over its first or last character are dropped; failing that the text before the first dash at the start of the element. Otherwise nothing changes; and nothing ever changes once a release group is known. (Proved when no path element but the first begins with a separator; otherwise the outcome depends on the parity of unrelated matches. Finding: the dropped match can be lost without any release group being reported.)", "quantifier": "every state of the search", "why_tests_cant": "Ranges over every arrangement of matches, dashes, dots and path elements.", "anchors": ["guessit/rules/properties/release_group.py:DashSeparatedReleaseGroup"]}
{"id": "C88", "title": "Scene release groups", "statement": "In every element of the path that has no release group yet, the last stretch that no match covers (titles other than the element's first one apart) and that has a name becomes the release group, iff it comes just after a codec, source, size, language or similar match and is not a number; when it is the whole of a bracketed group, the inside of the brackets is taken. Extra titles it overlaps are dropped, at most one group is reported per element and nothing else changes.", "quantifier": "every state of the search, any number of path elements", "why_tests_cant": "Ranges over every arrangement of matches, titles, brackets and path elements, in whatever order elements are looked at.", "anchors": ["guessit/rules/properties/release_group.py:SceneReleaseGroup"]}
{"id": "C89", "title": "Anime release groups", "statement": "When no release group is known, in every element of the path the first bracketed group in which nothing was found (but perhaps languages in doubt) and whose text has a word and is not a number becomes a release group, whose value is the text inside the brackets; the languages in doubt found in it are dropped; nothing else changes. Nothing changes when a release group is known.", "quantifier": "every state of the search", "why_tests_cant": "Ranges over every arrangement of matches and brackets.", "anchors": ["guessit/rules/properties/release_group.py:AnimeReleaseGroup"]}
{"id": "C90", "title": "Number read as an episode or as season and episode", "statement": "When a number such as 102 was read both as episode 102 and as season 1 episode 2, one reading is kept in each element of the path: for a name that looks like an anime's (version, checksum, screen size in brackets, untouched brackets at the start) the episode, which is then tagged; otherwise season and episode, unless the number is part of a range such as 101-102, which is then kept as episodes. What is decided for one element does not depend on the others. Nothing is changed for a movie.", "quantifier": "every state of the search, any number of path elements", "why_tests_cant": "Ranges over every arrangement of matches, brackets and path elements.", "anchors": ["guessit/rules/properties/episodes.py:WeakConflictSolver"]}
{"id": "C91", "title": "Absolute episodes", "statement": "When no absolute episode is known: if the episodes come from exactly two ranges of the same size that follow each other with no text between, the range with the greater numbers becomes the absolute numbering; otherwise a weak number that starts an element of the path followed by another episode becomes the absolute episode, and is dropped instead when that episode is of the form SxxExx. Nothing else changes and nothing is raised.", "quantifier": "every state of the search", "why_tests_cant": "Ranges over every arrangement of episode matches, of their parents and of path elements.", "anchors": ["guessit/rules/properties/episodes.py:RenameToAbsoluteEpisode"]}
{"id": "C92", "title": "Discs", "statement": "Episodes found together with a marker d (S01D02) become discs and the marker a disc marker; when discs are excluded, the marker and everything found with it are dropped. Nothing else changes.", "quantifier": "every state of the search", "why_tests_cant": "Ranges over every number of markers and of matches that come with them.", "anchors": ["guessit/rules/properties/episodes.py:RenameToDiscMatch"]}
{"id": "C93", "title": "Screen sizes in standard notation", "statement": "Every screen size whose height is known is reported as its height and scan type (1080p), unless its width is given and either the height is not standard or the aspect ratio is out of bounds: then width x height. Frame rates written with the size, and the aspect ratio, are added unless excluded. Nothing else changes, and no name makes the rule fail.", "quantifier": "every state of the search and every configuration of heights and ratios", "why_tests_cant": "Ranges over every number of sizes and over every width and height.", "anchors": ["guessit/rules/properties/screen_size.py:PostProcessScreenSize"]}
{"id": "C94", "title": "Ultra HD Blu-ray", "statement": "In every element of the path, a Blu-ray is reported as an Ultra HD Blu-ray iff the last Ultra HD before it or the first one after it is separated from it by nothing but sizes, color depths and similar, or the element has a 2160p; the Ultra HD match merged in it is no longer reported on its own. Nothing else changes.", "quantifier": "every state of the search, any number of path elements", "why_tests_cant": "Ranges over every arrangement of matches and path elements; the rule hides matches while it is looking for others.", "anchors": ["guessit/rules/properties/source.py:UltraHdBlurayRule"]}
{"id": "C95", "title": "Bit rates of the video and of the audio", "statement": "A bit rate is the video's iff it comes just after a source, a screen size or a video codec, unless it is slow (Kbps, or under 10 Mbps) and just before an audio codec. Excluding video bit rates drops just those; excluding audio bit rates drops all bit rates. Nothing else changes.", "quantifier": "every state of the search, every combination of exclusions", "why_tests_cant": "Ranges over every arrangement of matches.", "anchors": ["guessit/rules/properties/bit_rate.py:BitRateTypeRule"]}
{"id": "C96", "title": "Languages of subtitles", "statement": "A language is one of subtitles iff a word such as sub announces it (just before it, or just before or in the bracketed group it is in), or such a word follows it just after, or the extension of a file of subtitles comes just after it. Words that announce or follow no language are dropped, as is what overlaps an announced language. Nothing else changes, and nothing is raised.", "quantifier": "every state of the search", "why_tests_cant": "Ranges over every arrangement of languages, words, brackets and extensions.", "anchors": ["guessit/rules/properties/language.py:SubtitlePrefixLanguageRule", "guessit/rules/properties/language.py:SubtitleSuffixLanguageRule", "guessit/rules/properties/language.py:SubtitleExtensionRule"]}
{"id": "C97", "title": "Secondary values and excluded languages", "statement": "Every match found as a second value of property other is reported as other; when languages are excluded no language is reported, subtitle languages are. Nothing else changes.", "quantifier": "every state of the search", "why_tests_cant": "Ranges over every arrangement of matches.", "anchors": ["guessit/rules/properties/other.py:RenameAnotherToOther", "guessit/rules/properties/language.py:RemoveLanguage"]}
{"id": "C98", "title": "Patterns declared by a configuration", "statement": "Loading a configuration of patterns declares, entry by entry in the order written, exactly the patterns its entries stand for: a text is a string pattern, or a regular expression after re:, a dictionary gives its own kind and options, a list gives each of its items; function references and option references are replaced by the objects they denote. It succeeds iff every entry stands for some patterns; otherwise nothing after the first bad entry is declared.", "quantifier": "every configuration, every world of importable modules, every history of loads", "why_tests_cant": "Configurations are user input of unbounded shape; the loader walks nested lists and dictionaries and imports names.", "anchors": ["guessit/config/__init__.py: load_config_patterns, _process_option, _import"]}
{"id": "C99", "title": "Loading does not depend on what was loaded before", "statement": "What a configuration declares, whether it loads and what a function reference denotes are the same after any history of loads in the process: the cache of imported names is invisible.", "quantifier": "every history of loads, every configuration, every reference", "why_tests_cant": "A cache is wrong on some sequence of lookups; the number of sequences is unbounded.", "anchors": ["guessit/config/__init__.py: _import_cache, _eval_cache, _import, load_config_patterns"]}
{"id": "C100", "title": "Loading leaves the configuration usable", "statement": "Loading a configuration without function entries and without the older pattern key leaves it as it was, so that loading it again declares the same patterns; otherwise only callable and pattern are taken from the entries.", "quantifier": "every configuration and every state of the import cache", "why_tests_cant": "Mutation of a shared nested object must be excluded at every place of every configuration.", "anchors": ["guessit/config/__init__.py: load_config_patterns"]}
{"id": "C101", "title": "Synonyms of languages and countries", "statement": "A name denotes the country or language of the last synonym written that equals it up to case, else what babelfish makes of it (code, then name; each reader in turn); the language converter can be built iff every code has the form xxx or xxx_CC; a country converted to text and back is the same when no synonym interferes.", "quantifier": "every table of synonyms, every name, every behaviour of babelfish", "why_tests_cant": "Tables of synonyms come from the user and may repeat or clash.", "anchors": ["guessit/rules/properties/language.py: GuessitConverter", "guessit/rules/properties/country.py: GuessitCountryConverter"]}
{"id": "C102", "title": "API objects do not share converters", "statement": "The synonyms in force for a guess are those of the configuration of the API object asked. It holds for a process with one object, and for several objects with the same synonyms; it is false in general, as the converters are registered in babelfish for the whole process.", "quantifier": "every history of calls on any number of API objects of a process", "why_tests_cant": "Needs all interleavings of calls on several objects.", "anchors": ["guessit/rules/properties/language.py: language", "guessit/rules/properties/country.py: country", "guessit/api.py: GuessItApi.configure"]}
{"id": "C103", "title": "What the command prints can be read back", "statement": "With --json each name gives one line, in order, without control characters, that any JSON reader reads as the guess (floats and unknown objects as their text); without --json the text after 'GuessIt found: ' reads as the same value; --show-property prints the text of that property. JSON is printed for every guess whose keys are texts.", "quantifier": "every guess (nested values, any characters), every run over any list of names", "why_tests_cant": "Escaping, nesting and layout must be right for every text and every depth.", "anchors": ["guessit/__main__.py: guess_filename, main", "guessit/jsonutils.py: GuessitEncoder"]}
{"id": "C104", "title": "The listing of properties", "statement": "--properties lists each property exactly once, in alphabetical order, with its values when asked; with --json one line that reads as the listing.", "quantifier": "every table of properties, every option", "why_tests_cant": "Depends on the configuration, which is arbitrary.", "anchors": ["guessit/__main__.py: display_properties"]}
{"id": "C105", "title": "The YAML printed", "statement": "With --yaml the document of a name is printed as the explicit entry of that name. Holds when the dumper writes the name on the first line followed by a colon; false for names the dumper writes as explicit keys (long names): the last character is lost.", "quantifier": "every name and guess", "why_tests_cant": "Depends on how the dumper lays out every possible name.", "anchors": ["guessit/__main__.py: guess_filename"]}
{"id": "C106", "title": "Conflicts between overlapping matches", "statement": "Before the rules run, overlapping matches are reduced: private matches and matches that overlap nothing stay; of two that overlap and stay, none wants the other gone; a match is dropped only for one it yields to; without solvers exactly those overlapped by a longer match are dropped, whatever the order of the patterns; for an isolated pair the solver of the longer (or later found) is asked first. That the match it is dropped for is itself kept is false (cascade).", "quantifier": "every collection of matches, every assignment of solvers", "why_tests_cant": "The outcome depends on all overlaps together and on the order of processing.", "anchors": ["rebulk ConflictSolver (contract)", "guessit/rules/properties/*.py: conflict_solver="]}
{"id": "C107", "title": "Who gives way to whom", "statement": "Table of claims between properties (extension over codecs, date over episode, expected title over anything, country under anything...): after solving, two matches with a claim never overlap; a match is dropped only because it gives way, is ousted, or is shorter and nobody has a claim; it matters who is asked first exactly for the listed pairs of patterns.", "quantifier": "every collection of matches made by the patterns of guessit, every input", "why_tests_cant": "All pairs of patterns, all overlaps.", "anchors": ["guessit/rules/properties/episodes.py: season_episode_conflict_solver", "guessit/rules/properties/audio_codec.py: audio_codec_priority", "guessit/rules/properties/source.py: demote_other", "guessit/rules/properties/container.py", "guessit/rules/properties/crc.py", "guessit/rules/properties/date.py", "guessit/rules/properties/screen_size.py", "guessit/rules/properties/country.py", "guessit/config/options.json"]}
{"id": "C108", "title": "The order of the rules", "statement": "Whatever the options exclude, post-processing never fails for circular or duplicate rules, every effective rule has its turn exactly once, rules of a higher priority first, and every rule after the effective rules it declares as dependencies; ties are broken by registration, so that the order does not depend on how Python enumerates sets. In general a circle of rules of one priority ends the run with a cycle error after the rules that could run, and a dependency on a rule of a lower priority is ignored.", "quantifier": "every set of registered rules and every options", "why_tests_cant": "The order is recomputed for each combination of excluded properties, there are millions of them.", "anchors": ["guessit/rules/__init__.py: rebulk_builder", "guessit/rules/properties/*.py: priority, dependency, rules()"]}
{"id": "C109", "title": "Excluding a property leaves the order of the other rules alone", "statement": "Two rules that run in both cases run in the same order whatever else is excluded. Holds for rules ordered by priority or by dependencies through effective rules; false otherwise: excluding film, language and subtitle_language makes the title be guessed before the release group instead of after.", "quantifier": "every pair of rules and every options", "why_tests_cant": "All combinations of excluded properties.", "anchors": ["guessit/rules/properties/title.py: TitleFromPosition.dependency", "guessit/rules/properties/release_group.py: DashSeparatedReleaseGroup"]}
{"id": "C110", "title": "Every registered rule runs", "statement": "Each rule registered by a property that is not disabled has its turn. Holds for the first rule of each class; false for the second instance of RemoveLessSpecificSeasonEpisode: the preference for the most specific episode never runs, under any options, and it would change results.", "quantifier": "every rule and every options", "why_tests_cant": "That a rule runs under no options is a statement about all of them.", "anchors": ["guessit/rules/processors.py: processors, RemoveLessSpecificSeasonEpisode"]}
{"id": "C111", "title": "Excluding a property only switches off its own rules", "statement": "Which rules run depends on the options only through the type and through 22 property names. Excluding a property leaves the rules of others enabled, but for alternative_title: it switches off the rule that guesses title.", "quantifier": "every options", "why_tests_cant": "All combinations of excluded properties.", "anchors": ["guessit/rules/properties/title.py: TitleFromPosition.enabled", "guessit/rules/common/pattern.py: is_disabled"]}
{"id": "C112", "title": "What advanced reports", "statement": "With the advanced option each property has the documented shape, of descriptions instead of values: value, start, end and raw text (unless empty) of each match, in order of position. Two matches are reported as one only when nothing tells them apart, so a value found at two places is reported twice; and the plain output can be computed from the advanced one. Without the option the call is unchanged.", "quantifier": "every list of matches and every options", "why_tests_cant": "All lists of matches, values and positions.", "anchors": ["guessit/monkeypatch.py: match_advanced", "guessit/api.py: GuessItApi.guessit"]}
{"id": "C113", "title": "Which checksums are recognised", "statement": "crc32 is reported exactly for the stretches of eight hexadecimal digits that stand between separators or the ends of the name, as text; two of them never overlap.", "quantifier": "every name", "why_tests_cant": "All names.", "anchors": ["guessit/rules/properties/crc.py: crc", "guessit/rules/common/validators.py: seps_surround"]}
{"id": "C114", "title": "Which years are recognised", "statement": "The year pattern reports exactly the numbers of four digits that stand between separators or the ends of the name and are in 1920..2029, with their value; reading the number never fails.", "quantifier": "every name, and every assignment of digits that is the usual one on ASCII", "why_tests_cant": "All names, all Unicode digits.", "anchors": ["guessit/rules/properties/date.py: date", "guessit/rules/common/date.py: valid_year"]}
{"id": "C115", "title": "Which weeks are recognised", "statement": "week is reported exactly for numbers of one or two digits in 1..52 that follow, after exactly one separator that is not a slash, one of the configured words in any case, and end before a separator or at the end of the name.", "quantifier": "every name and every list of words of lower-case letters", "why_tests_cant": "All names and word lists.", "anchors": ["guessit/rules/properties/date.py: date", "guessit/rules/common/date.py: valid_week"]}
{"id": "C116", "title": "Which bonus and film numbers are recognised", "statement": "The bonus pattern reports exactly the numbers preceded by x, and the film pattern exactly the numbers of at most two digits preceded by f, where letter and number together stand between separators or the ends of the name.", "quantifier": "every name", "why_tests_cant": "All names.", "anchors": ["guessit/rules/properties/bonus.py: bonus", "guessit/rules/properties/film.py: film"]}
{"id": "C117", "title": "Which disc numbers are recognised", "statement": "cd is reported exactly for a number 1..99 after cd, with or without a separator; when 'of' and a number 1..99 follow cd_count is reported with it; cd_count alone is reported exactly for a whole run of digits worth 1..99 before cd, with at most one separator between. Expected too: that cd is a word of its own and that a count out of bounds does not hide the number. Both are false of the code.", "quantifier": "every name", "why_tests_cant": "All names.", "anchors": ["guessit/rules/properties/cd.py: cds"]}
{"id": "C118", "title": "Which parts are recognised", "statement": "part is reported exactly where pt or part, at most one separator that is not a slash, and a numeral worth 1..99 stand between separators or the ends of the name: at most four digits, or, after a separator, a Roman numeral or a number word of a given list; reading the numeral never fails. Expected too: that every number word guessit knows is recognised, and that no name makes the call fail. Both are false of the code.", "quantifier": "every name without the four characters that regular expressions take for letters", "why_tests_cant": "All names.", "anchors": ["guessit/rules/properties/part.py: part, validate_roman", "guessit/rules/common/numeral.py: numeral, parse_numeral"]}
{"id": "C119", "title": "A size or bit rate is the number and unit that are written", "statement": "In any file name whose letters have their usual cases, a size (or a bit rate) is recognised exactly where a whole or decimal number, at most one separator that is not a slash, and one of the units (mb, gb, tb; k/m/g followed by bps, bit or bits) in any case stand between separators or at an end of the name. Its value is that number, whole when it is written without decimals, and the unit in its reported spelling (MB, Kbps...). The decimals of a decimal number are recognised a second time as a whole number of their own.", "quantifier": "every text, every position in it, and every tables of digits, cases, capitalisation and floats that agree with Python on ASCII", "why_tests_cant": "The positions, digits in other scripts and surrounding texts are unbounded; tests show a few names.", "anchors": ["guessit/rules/properties/size.py:size", "guessit/rules/properties/bit_rate.py:bit_rate", "guessit/config/options.json:bit_rate", "guessit/rules/common/quantity.py:Quantity.fromstring"]}
{"id": "C120", "title": "A listed word is recognised exactly where it stands", "statement": "A word of a list that ignores case (containers such as avi or mkv; codecs, editions...) is recognised exactly where it is written, in any case, between separators or at an end of the name; a container's value is the word of the list. Expected too: this for every name. It is false of the code for names whose lower-case form has another length.", "quantifier": "every text whose lower-case form is made character by character, every list of words that do not start again after one of their own separators", "why_tests_cant": "All names and all positions; a test shows a few names.", "anchors": ["guessit/rules/properties/container.py:container", "guessit/config/options.json:container"]}
{"id": "C121", "title": "The extension is the last thing of the name", "statement": "A container by extension is recognised exactly when the name ends (a line break may follow) with a dot and one of the extensions in any case; its value is the extension as it is written, and there is at most one, of one kind (subtitle, info, video, torrent, nzb).", "quantifier": "every text, and every tables of cases that agree with Python on ASCII", "why_tests_cant": "All names.", "anchors": ["guessit/rules/properties/container.py:container", "guessit/config/options.json:container"]}
{"id": "C122", "title": "Which screen sizes are recognised", "statement": "guessit reports a screen size only where one is written in one of five ways (an interlaced or a progressive height with its letter and perhaps a width and a frame rate, a height before 'hd', a bare progressive height, or two numbers of pixels around x or *), standing between separators and as long as it can be; its children are its width, height, scan type and frame rate. Every such size is reported unless one of the same form starts before it and reaches into it. The order in which Python enumerates the configured sets (hash seed) does not change the result.", "quantifier": "every text, every configuration of heights and frame rates in which no entry is the start of another, every order of the configured sets", "why_tests_cant": "infinitely many texts and configurations, and the order of Python's sets changes from run to run", "anchors": ["guessit/rules/properties/screen_size.py:screen_size", "guessit/config/options.json:screen_size", "guessit/reutils.py:build_or_pattern"]}
{"id": "C123", "title": "Which frame rates are recognised", "statement": "guessit reports a frame rate exactly where one of the configured rates (23.976, or 24 with up to three zero decimals, ...), at most one separator other than a slash and p or fps in any case stand between separators; the value is the number written and its unit is fps, whatever the order of the configured set.", "quantifier": "every text, every plain configuration, every order of the configured set", "why_tests_cant": "infinitely many texts and configurations, and the order of Python's sets changes from run to run", "anchors": ["guessit/rules/properties/screen_size.py:screen_size", "guessit/rules/common/quantity.py:FrameRate"]}
{"id": "C124", "title": "Websites are recognised where they are written apart, and nowhere else", "statement": "A reported website is written as known subdomains, labels and a registered extension (www.site.tv), as a label and a safe extension (site.com), or as a label, safe prefixes and a registered extension (site.co.uk), in any case; no letter or digit stands next to it and its value is its text. Where such a text is written with no letter or digit next to it, a website is reported that starts there, or an earlier one that reaches it. False in two ways: of two websites with one character between them the second is missed, and the list of extensions read from a text file always holds the empty one, so `www.foo.` counts.", "quantifier": "every name, every configuration of extensions, subdomains and prefixes, every table of characters, every text of the file of extensions", "why_tests_cant": "Names and lists of extensions are unbounded, and the patterns backtrack over nested repetitions", "anchors": ["guessit/rules/properties/website.py:website", "guessit/data/tlds-alpha-by-domain.txt", "guessit/reutils.py:build_or_pattern"]}
{"id": "C125", "title": "S01E02 is recognised where it stands between separators, with the list of episodes after it", "statement": "Where a season marker, a number, an episode or disc marker (with at most one separator on each side) and a number stand between separators, the season and the episode are reported with these numbers, whatever else the name holds; so are all the episodes of a list after it (S01E02E03, S01E02-04) when the whole list ends at a separator, its new numbers increase, numbers after weak separators are close and no two successive numbers are further apart than the configured maximum. Conversely, a season or an episode reported by this chain of patterns is a number so written, in an unbroken sequence that begins with S01E02 after a separator and ends before a separator; and what is kept of a sequence is ordered and close.", "quantifier": "every name, every configuration of markers and separators made of words, every table of characters", "why_tests_cant": "Names and lists of episodes are unbounded; repeated patterns, the chain breaker and the giving up of the last parts interact", "anchors": ["guessit/rules/properties/episodes.py:episodes", "guessit/reutils.py:build_or_pattern", "guessit/rules/common/validators.py:seps_surround"]}
{"id": "C126", "title": "1x02 is recognised where it stands between separators", "statement": "Where a number, an x (with at most one separator on each side) and a number stand between separators and no x on its own is in front, the season and the episode are reported with these numbers. What the two chains report for 1x02 is a number so written, in an unbroken sequence that begins with 1x02 after a separator and ends before a separator. False when an x on its own is in front: in `5 x 1x02`, 1x02 is not read.", "quantifier": "every name, every configuration of markers and separators made of words, every table of characters", "why_tests_cant": "Names are unbounded, and an earlier match can hide a later one", "anchors": ["guessit/rules/properties/episodes.py:episodes", "guessit/reutils.py:build_or_pattern", "guessit/rules/common/validators.py:seps_surround"]}
{"id": "C127", "title": "S01 is recognised where it stands between separators, with Extras and the list of seasons after it", "statement": "Where a season marker and a number stand between separators, the season is reported with this number, whatever else the name holds; so are all the seasons of a list after it (S01S02, S01-03), after Extras if need be, under the same conditions as lists of episodes, and Extras is reported. Conversely, a season reported by this chain is a number so written, in an unbroken sequence that begins with a season marker after a separator and ends before a separator.", "quantifier": "every name, every configuration of markers and separators made of words, every table of characters", "why_tests_cant": "Names and lists of seasons are unbounded", "anchors": ["guessit/rules/properties/episodes.py:episodes", "guessit/reutils.py:build_or_pattern", "guessit/rules/common/validators.py:seps_surround"]}
{"id": "C128", "title": "Numbers are read as episodes where they stand between separators", "statement": "Where two digits, or three or four, or one, or an e and up to four digits with up to two digits in front (1e18), or one or two digits for the season and two for the episode (102), stand between separators, and a number and a dash are not in front, the chain of patterns declared for them reports the episode and the season with these numbers; so are a version after them (12v2) and all numbers of a list after them (12-13) that goes up to a separator and increases by no more than the configured maximum. Conversely, what such a chain reports is a number so written, in an unbroken sequence from a separator to a separator. False after a number and a dash: 2012-12.", "quantifier": "every name, every configuration, every table of characters", "why_tests_cant": "Names and lists are unbounded; earlier matches may hide later ones and the last parts of a chain may be given up", "anchors": ["guessit/rules/properties/episodes.py:episodes", "guessit/rules/common/validators.py:seps_surround"]}
{"id": "C129", "title": "An episode written with a word is reported exactly where it stands", "statement": "`Episode 4v2 of 10`: an episode is reported exactly where a word for episodes (in any case), at most one separator and a number are written after a separator; the version is what is written right after it (v2), the count is the number after `of`; and the whole, with the version and the count that are there, must end before a separator. The values are these numbers.", "quantifier": "every name, every list of words, every table of characters", "why_tests_cant": "Names are unbounded, a pattern may match at many places, and an earlier match may hide a later one", "anchors": ["guessit/rules/properties/episodes.py:episodes", "guessit/rules/common/validators.py:seps_surround"]}
{"id": "C130", "title": "S01ExAll reports a complete season exactly where it stands", "statement": "`S01ExAll`, `1xAll` and the like: the season, and `Complete` at the word, are reported exactly where the number, one of the markers xe, ex, e, x (with at most one separator on each side) and the word stand between separators.", "quantifier": "every name, every list of words, every table of characters", "why_tests_cant": "Names are unbounded, a pattern may match at many places, and an earlier match may hide a later one", "anchors": ["guessit/rules/properties/episodes.py:episodes", "guessit/rules/common/validators.py:seps_surround"]}
{"id": "C131", "title": "A version is reported exactly where it stands", "statement": "`v2`: a version is reported exactly where v and a number stand between separators, and its value is the number.", "quantifier": "every name, every table of characters", "why_tests_cant": "Names are unbounded, a pattern may match at many places, and an earlier match may hide a later one", "anchors": ["guessit/rules/properties/episodes.py:episodes", "guessit/rules/common/validators.py:seps_surround"]}
{"id": "C132", "title": "`4 of 10 episodes` reports an episode and a count", "statement": "Where a number, `of` and a number stand between separators, with or without a word for episodes after them, the episode and the count are reported with these numbers, unless `of` is in front too; conversely what is reported is so written. False of the plural with the default words: `4 of 10 episodes` is not reported, since `episode` comes first in the list of words.", "quantifier": "every name, every list of words, every table of characters", "why_tests_cant": "Names are unbounded, a pattern may match at many places, and an earlier match may hide a later one", "anchors": ["guessit/rules/properties/episodes.py:episodes", "guessit/rules/common/validators.py:seps_surround", "guessit/rules/match_processors.py:strip"]}
{"id": "C133", "title": "Details and formats of episodes are reported exactly where they are written", "statement": "`Special`, `Pilot`, `Unaired` and `Final` are reported exactly where they are written, in any case, even in the middle of a word (a later rule drops those); `Minisode` is reported exactly where Minisode or Minisodes stands between separators.", "quantifier": "every name, every table of characters", "why_tests_cant": "Names are unbounded, a pattern may match at many places, and an earlier match may hide a later one", "anchors": ["guessit/rules/properties/episodes.py:episodes", "guessit/rules/common/validators.py:seps_surround"]}
{"id": "C134", "title": "Separators and numbers", "statement": "A separator is one of 21 characters; those between the numbers of a list are the configured words and single separators that are not slashes; those that ask for consecutive numbers are the single separators that make no range; a number is read in base ten.", "quantifier": "every character, every word, every configuration, every text", "why_tests_cant": "The statements of the other properties depend on it for every character and every length of number", "anchors": ["guessit/rules/common/__init__.py:seps", "guessit/rules/properties/episodes.py:episodes"]}
{"id": "C135", "title": "Editions are found exactly where they are written", "statement": "With the default configuration, a edition is reported for a stretch of the text only if one of the words or phrases listed for that value is written exactly there (in any case; a `-` of a phrase being any separator but a slash) and stands between separators or ends of the text; conversely every listed word or phrase so written is reported with its value, unless the same word or another way to write the same phrase begins before it and reaches past its start, or a longer way to write it begins at the same place. For values whose ways to write cannot overlap \u2014 all but the few named in the theorem \u2014 the second half needs no exception.", "quantifier": "every text, every position in it, every value of the default table", "why_tests_cant": "The tables hold hundreds of spellings and a name can put any of them anywhere, next to anything, in any case; tests take a few spellings of a few values in a few names.", "anchors": ["guessit/config/options.json:edition", "guessit/rules/properties/edition.py:edition", "guessit/config/__init__.py:load_config_patterns", "guessit/rules/common/validators.py:seps_surround"]}
{"id": "C136", "title": "`other` values are found exactly where they are written", "statement": "With the default configuration, a value of `other` is reported for a stretch of the text only if one of the words or phrases listed for that value is written exactly there (in any case; a `-` of a phrase being any separator but a slash) and stands where that value may: between separators, anywhere, or before a separator; conversely every listed word or phrase so written is reported with its value, unless the same word or another way to write the same phrase begins before it and reaches past its start, or a longer way to write it begins at the same place. For values whose ways to write cannot overlap \u2014 all but the few named in the theorem \u2014 the second half needs no exception. `Repack` and `Rerip` carry the digits behind them as their count; `HDRip` is reported as its two parts; `Complete` is reported together with the words for seasons around it, and not without them.", "quantifier": "every text, every position in it, every value of the default table", "why_tests_cant": "The tables hold hundreds of spellings and a name can put any of them anywhere, next to anything, in any case; tests take a few spellings of a few values in a few names.", "anchors": ["guessit/config/options.json:other", "guessit/rules/properties/other.py:other", "guessit/config/__init__.py:load_config_patterns", "guessit/rules/common/validators.py:seps_surround"]}
{"id": "C137", "title": "Audio codecs are found exactly where they are written", "statement": "With the default configuration, a audio codec is reported for a stretch of the text only if one of the words or phrases listed for that value is written exactly there (in any case; a `-` of a phrase being any separator but a slash), whatever is around it (what does not stand apart is removed later, C122 and after); conversely every listed word or phrase so written is reported with its value, unless the same word or another way to write the same phrase begins before it and reaches past its start, or a longer way to write it begins at the same place. For values whose ways to write cannot overlap \u2014 all but the few named in the theorem \u2014 the second half needs no exception. `DTS` is DTS-HD when `MA` follows; `LAME` is reported as far as its number of two digits or more goes.", "quantifier": "every text, every position in it, every value of the default table", "why_tests_cant": "The tables hold hundreds of spellings and a name can put any of them anywhere, next to anything, in any case; tests take a few spellings of a few values in a few names.", "anchors": ["guessit/config/options.json:audio_codec", "guessit/rules/properties/audio_codec.py:audio_codec", "guessit/config/__init__.py:load_config_patterns", "guessit/rules/common/validators.py:seps_surround"]}
{"id": "C138", "title": "Streaming services are found exactly where they are written", "statement": "With the default configuration, a streaming service is reported for a stretch of the text only if one of the words or phrases listed for that value is written exactly there (in any case; a `-` of a phrase being any separator but a slash), whatever is around it (a later rule validates it); conversely every listed word or phrase so written is reported with its value, unless the same word or another way to write the same phrase begins before it and reaches past its start, or a longer way to write it begins at the same place. For values whose ways to write cannot overlap \u2014 all but the few named in the theorem \u2014 the second half needs no exception. `iT` is reported in that case only.", "quantifier": "every text, every position in it, every value of the default table", "why_tests_cant": "The tables hold hundreds of spellings and a name can put any of them anywhere, next to anything, in any case; tests take a few spellings of a few values in a few names.", "anchors": ["guessit/config/options.json:streaming_service", "guessit/rules/properties/streaming_service.py:streaming_service", "guessit/config/__init__.py:load_config_patterns", "guessit/rules/common/validators.py:seps_surround"]}
{"id": "C139", "title": "Video codecs, profiles and color depths are found exactly where they are written", "statement": "With the default configuration, a video codec is reported for a stretch of the text only if one of the words or phrases listed for that value is written exactly there (in any case; a `-` of a phrase being any separator but a slash), or video profile or color depth standing between separators; conversely every listed word or phrase so written is reported with its value, unless the same word or another way to write the same phrase begins before it and reaches past its start, or a longer way to write it begins at the same place. For values whose ways to write cannot overlap \u2014 all but the few named in the theorem \u2014 the second half needs no exception. `hevc10` gives both its codec and its depth.", "quantifier": "every text, every position in it, every value of the default table", "why_tests_cant": "The tables hold hundreds of spellings and a name can put any of them anywhere, next to anything, in any case; tests take a few spellings of a few values in a few names.", "anchors": ["guessit/config/options.json:video_codec", "guessit/rules/properties/video_codec.py:video_codec", "guessit/config/__init__.py:load_config_patterns", "guessit/rules/common/validators.py:seps_surround"]}
{"id": "C140", "title": "Sources are found, part by part, exactly where they are written", "statement": "With the default configuration, the sources and the `other` values named inside a source phrase (`DVDRip`, `WEB-Cap`, `BD-Rip`, `SCR`, ...) are reported, each at its own stretch, only if a listed way to write the phrase stands there in full, what must follow it follows (or what must not does not), nothing longer of the same expression could be read from its start, and a separator or an end of the text is on one side at least; conversely all the parts of a phrase so written are reported, unless the same phrase or another way to write it begins before it and reaches past its start, which can happen only for the expressions of `PPV`, `PDTV` and `DVD`.", "quantifier": "every text, every position, every source phrase of the default configuration", "why_tests_cant": "A phrase is built of optional prefixes and suffixes and conditions on what follows, so that there are hundreds of ways to write it, each with its own parts at its own places; tests try a few.", "anchors": ["guessit/rules/properties/source.py:source", "guessit/rules/properties/source.py:build_source_pattern", "guessit/rules/properties/source.py:demote_other", "guessit/config/options.json:source", "guessit/rules/common/validators.py:seps_before"]}
{"id": "C141", "title": "Seasons written with a word and a numeral are found, and nothing else is read as one", "statement": "With the default configuration, after one of the words for seasons (`Season`, `saison`, `temporada`, ...) and at most one separator that is not a slash, a season is reported if the numeral is one to four digits, a Roman numeral up to 99 or one of the number words that do not begin with a Roman numeral or another number word, and word and numeral together stand between separators or ends of the text (a Roman numeral or number word must have a separator before it); so are all the seasons of a list after it (`Seasons 1-3 & 5`), when the numbers are in the order and the distance that the options allow, and the count of `1of3`. Conversely every season or count reported by this pattern is such a numeral, read as its value, in such a list that ends before a separator or the end of the text, and begins after one: when the numeral of the first season is refused, nothing after it is reported either.", "quantifier": "every text, every position, every numeral, lists of any length, every configuration of separators that is like the default one", "why_tests_cant": "The word, the numeral and the list after it are read by a backtracking expression chained an unbounded number of times, with one validator on each number and another on the chain; tests have a handful of file names.", "anchors": ["guessit/rules/properties/episodes.py:episodes", "guessit/rules/properties/episodes.py:validate_roman", "guessit/rules/properties/episodes.py:ordering_validator", "guessit/rules/properties/episodes.py:episodes_season_chain_breaker", "guessit/rules/common/numeral.py:numeral", "guessit/rules/common/numeral.py:parse_numeral", "guessit/rules/common/validators.py:int_coercable"]}
{"id": "C142", "title": "When the type is episode, numerals after a word for episodes are found, and only those", "statement": "With the default configuration and when the type is known to be an episode, after `Episode`, `Episodes`, `Eps`, `Ep`, `Capitulo` or `Capitulos` and at most one separator that is not a slash, an episode is reported if the numeral is one to four digits, or a Roman numeral up to 99 or a number word (one that does not begin with a Roman numeral or another number word) between separators, and the word, the numeral and the version and count after it together stand between separators or ends of the text; the version and the count are reported too. The only exception is `Capitulo(s)` right after another word for episodes. Conversely whatever the pattern reports is such a numeral after one of the words for episodes, or the version or count after one. After `Episodio(s)` nothing is reported.", "quantifier": "every text, every position, every numeral, with and without version and count", "why_tests_cant": "The word, the numeral and the optional parts are alternatives of one backtracking expression, and a word that begins as another one followed by a Roman numeral hides it; tests have a handful of names.", "anchors": ["guessit/rules/properties/episodes.py:episodes", "guessit/rules/properties/episodes.py:validate_roman", "guessit/rules/common/numeral.py:numeral", "guessit/rules/common/numeral.py:parse_numeral", "guessit/config/options.json:episodes"]}
{"id": "C143", "title": "A number that begins with a zero is an episode without the zero, alone or in a list", "statement": "A zero followed by one or two digits (012), then a version if any (012v2) and a list of more such numbers after x or a dash (012-013), between separators or ends of the text, with no number and dash before, increasing and as close as the options allow: each number is reported as an episode whose value is the number without the zero, and the version is reported. Conversely, every episode and every version this pattern reports is written so. A zero followed by two or three digits is also reported by the pattern for longer numbers, with the same value.", "quantifier": "every text, every position, every configuration of the separators", "why_tests_cant": "The zero is outside the groups of the pattern, so what counts as the start of the chain is not what one reads in the pattern, and lists have any length; tests have a few names.", "anchors": ["guessit/rules/properties/episodes.py:episodes", "guessit/rules/properties/episodes.py:ordering_validator", "guessit/rules/properties/episodes.py:episodes_season_chain_breaker"]}
{"id": "C144", "title": "Numbers after `ep` are episodes, and only those", "statement": "After a separator or at the beginning of the text, `ep` in any case, at most one separator that is not a slash and a number of one to four digits that ends before a separator or the end of the text: the number is reported as an episode; so is the version right after it (`ep 12v2`), and so are all the numbers of a list after it (`ep 12-13`, `ep12ep13`), when they increase and stay as close as the options allow. Conversely every episode and every version this pattern reports is written so: in particular `ep` is never the end of a longer word.", "quantifier": "every text, every position, every list, with and without version", "why_tests_cant": "`ep` is outside the groups of the pattern, so what counts as the start of the chain is not what one reads in the pattern, and lists have any length; tests have a few names, none about a word that ends in `ep` or a list that decreases.", "anchors": ["guessit/rules/properties/episodes.py:episodes", "guessit/rules/properties/episodes.py:ordering_validator", "guessit/rules/properties/episodes.py:episodes_season_chain_breaker"]}
{"id": "C145", "title": "Seasons and episodes after `cap` are found, and only those", "statement": "After `cap` in any case, which must follow a separator or begin the text, and at most one separator that is not a slash, three or four digits that end before a separator or the end of the text are reported as a season (one or two digits) and an episode (the last two); when any separator but a slash and three or four more digits follow, up to a separator or the end, the second season and episode are reported too if neither number decreases and they are not further apart than the configured maximum, and nothing of them is reported if one of the numbers decreases. Conversely every season and episode this pattern reports is written so.", "quantifier": "every text, every position, every pair of numbers, every configuration", "why_tests_cant": "The first pattern of the chain is partly outside its groups, so what counts as the start of the chain is not what one reads in the pattern; tests have a few names, none about a word that ends in `ep` or a list that decreases.", "anchors": ["guessit/rules/properties/episodes.py:episodes", "guessit/rules/properties/episodes.py:ordering_validator", "guessit/rules/properties/episodes.py:episodes_season_chain_breaker"]}
{"id": "C146", "title": "Only known properties are reported", "statement": "For every name and every options, every property of the result is one of the documented properties; the private matches used internally (markers, separators, prefixes of languages, unnamed parents, counts) never appear. Exceptions found: `absolute_episode`, `episode_title` and `proper_count` are reported but not in the documented list, and `another` is reported when `other` is excluded.", "quantifier": "every environment, every options, every list of matches the enabled patterns may give", "why_tests_cant": "needs an invariant over every run of all the rules in the order they are scheduled", "anchors": ["guessit/rules/__init__.py:rebulk_builder", "guessit/rules/properties/episodes.py:CountValidator", "guessit/rules/properties/other.py:RenameAnotherToOther", "docs/properties.md"]}
{"id": "C147", "title": "Exactly one type, in agreement with the rest of the result", "statement": "Unless `type` is disabled, exactly one `type` is reported. It is the requested type when there is one; else it is `episode` exactly when the other reported properties are evidence for an episode (an episode, season, episode details or absolute episode; or, without film, a date or bonus without year, or a crc32 with an anime group), and `movie` otherwise.", "quantifier": "every environment, every options, every list of matches the enabled patterns may give", "why_tests_cant": "the type is computed before the end of the run; that nothing the decision depends on changes afterwards is a fact about every schedule and every state", "anchors": ["guessit/rules/properties/type.py:TypeProcessor", "guessit/rules/properties/type.py:type_", "guessit/rules/properties/episode_title.py:RenameEpisodeTitleWhenMovieType", "guessit/rules/properties/mimetype.py:Mimetype"]}
{"id": "C148", "title": "Episode titles are for episodes", "statement": "When the reported type is not `episode`, no episode title is reported (but one that replaced an alternative title); when it is an episode, its title is reported as `episode_title` whatever other properties are excluded. Exception found: excluding `type` turns every episode title into an alternative title.", "quantifier": "every environment, every options, every list of matches", "why_tests_cant": "depends on the order of the last rules for every set of excluded properties", "anchors": ["guessit/rules/properties/episode_title.py:RenameEpisodeTitleWhenMovieType", "guessit/rules/properties/type.py:TypeProcessor"]}
{"id": "C149", "title": "A year with an episode is a season, and a season that is a year is a year, in the final result", "statement": "Whenever a result has both a year and an episode it also has a season; whenever it has a season whose value is a number from 1920 to 2029 it also has a year. This holds of the result that is reported, whatever is excluded.", "quantifier": "every environment, every options, every list of matches (no assumption on what the patterns find)", "why_tests_cant": "the completion happens in the middle of the last stage; that no later rule undoes it is a fact about every schedule and every state", "anchors": ["guessit/rules/processors.py:SeasonYear", "guessit/rules/processors.py:YearSeason", "guessit/rules/__init__.py:rebulk_builder"]}
{"id": "C150", "title": "The mimetype is that of the name", "statement": "Unless `mimetype` is disabled, a result has a mimetype exactly when the name has one for Python's table; then there is exactly one, with that value, located at the end of the name.", "quantifier": "every environment, every options, every list of matches the enabled patterns may give", "why_tests_cant": "about every run of all the rules, in every schedule", "anchors": ["guessit/rules/properties/mimetype.py:Mimetype", "guessit/rules/__init__.py:rebulk_builder"]}
{"id": "C151", "title": "Nothing private is reported", "statement": "No private match (marker, separator, prefix, raw parent of a chain, hidden weak language...) is in the result, whatever the patterns find and whatever is excluded.", "quantifier": "every environment, every options, every list of matches (no assumption on what the patterns find)", "why_tests_cant": "rules hide and unhide matches all along the run; the absence at the end is an invariant of the last stage", "anchors": ["guessit/rules/__init__.py:rebulk_builder", "guessit/rules/processors.py:EquivalentHoles", "guessit/rules/properties/other.py:ProperCountRule"]}
{"id": "C152", "title": "Every reported match is somewhere in the name", "statement": "When the rules end, every reported match other than `type` and `mimetype` is a non-empty stretch of the analysed name (0 <= start < end <= len(name)); `type` and `mimetype` are empty and at the very end of it. So `--advanced` positions can be used to cut the name.", "quantifier": "every name, every set of matches the patterns may give, every option dictionary, through all the rules in the order they run", "why_tests_cant": "every one of the 70-odd rules may create, rename or enlarge a match, and the positions are only ever wrong for names where an unusual combination of rules fires", "anchors": ["guessit/rules/__init__.py:rebulk_builder", "guessit/rules/processors.py:EnlargeGroupMatches", "guessit/rules/properties/release_group.py:SceneReleaseGroup", "guessit/rules/properties/title.py:TitleBaseRule", "guessit/rules/properties/other.py:ProperCountRule"]}
{"id": "C153", "title": "The keys of a guess are known properties", "statement": "Every key of the dictionary that guessit() returns is a property documented in docs/properties.md, one of absolute_episode, episode_title, proper_count, the key input_string, or `another` when `other` is excluded.", "quantifier": "every name, every options, every configuration file, every state the API object is in, every external table (Unicode, babelfish, dateutil, mimetypes)", "why_tests_cant": "about the dictionary returned by the public function for every name and every options, through every pattern and every rule", "anchors": ["guessit/api.py:GuessItApi.guessit", "guessit/rules/__init__.py:rebulk_builder"]}
{"id": "C154", "title": "Excluded properties are not keys of the guess", "statement": "A property that is in excludes, or not in a non-empty includes, is not a key of the dictionary that guessit() returns.", "quantifier": "every name, every options, every configuration file, every state the API object is in, every external table (Unicode, babelfish, dateutil, mimetypes)", "why_tests_cant": "about the dictionary returned by the public function for every name and every options, through every pattern and every rule", "anchors": ["guessit/api.py:GuessItApi.guessit", "guessit/rules/__init__.py:rebulk_builder", "guessit/rules/common/pattern.py:is_disabled"]}
{"id": "C155", "title": "The type of the guess follows from its other keys", "statement": "Unless type is excluded, the dictionary has one type: the one of the options if there is one; otherwise 'episode' if it has an episode, season, episode_details or absolute_episode, or a date or bonus with neither film nor year; and 'movie' if it has none of the first four, and a film, or neither (a date or bonus without year) nor crc32.", "quantifier": "every name, every options, every configuration file, every state the API object is in, every external table (Unicode, babelfish, dateutil, mimetypes); names given as text", "why_tests_cant": "about the dictionary returned by the public function for every name and every options, through every pattern and every rule", "anchors": ["guessit/api.py:GuessItApi.guessit", "guessit/rules/__init__.py:rebulk_builder", "guessit/rules/properties/type.py:TypeProcessor"]}
{"id": "C156", "title": "The mimetype of the guess is that of the name", "statement": "Unless mimetype is excluded, the dictionary has as mimetype what mimetypes.guess_type gives for the name, and no mimetype if it gives none.", "quantifier": "every name, every options, every configuration file, every state the API object is in, every external table (Unicode, babelfish, dateutil, mimetypes); names given as text", "why_tests_cant": "about the dictionary returned by the public function for every name and every options, through every pattern and every rule", "anchors": ["guessit/api.py:GuessItApi.guessit", "guessit/rules/__init__.py:rebulk_builder", "guessit/rules/properties/mimetype.py:Mimetype"]}
{"id": "C157", "title": "A guess with a year and an episode has a season", "statement": "When the dictionary has a year and an episode it has a season.", "quantifier": "every name, every options, every configuration file, every state the API object is in, every external table (Unicode, babelfish, dateutil, mimetypes)", "why_tests_cant": "about the dictionary returned by the public function for every name and every options, through every pattern and every rule", "anchors": ["guessit/api.py:GuessItApi.guessit", "guessit/rules/__init__.py:rebulk_builder", "guessit/rules/properties/episodes.py:VerifyEpisodeSeasons", "guessit/rules/processors.py:SeasonYear"]}
{"id": "C158", "title": "Values of the properties with a list of words", "statement": "What guessit puts under a property whose documented values are a list of words (source, video_codec, audio_codec, edition, other, streaming_service, ...), alone or in a list, is always one of the documented words or one of 40 others named in the statement, up to case; in a call with a text name.", "quantifier": "every text name, options, earlier calls, oracle tables; every value in the dictionary, in lists too", "why_tests_cant": "a test sees the values of the names it tries; whether a rule, a formatter or a missing default lets another text through depends on all names", "anchors": ["guessit/rules/properties/source.py:source", "guessit/rules/properties/other.py:other", "guessit/rules/processors.py:EquivalentHoles", "guessit/api.py:GuessItApi.guessit", "docs/properties.md:properties"]}
{"id": "C159", "title": "Free texts are taken from the name", "statement": "What guessit puts under title, alternative_title, episode_title, bonus_title, film_title, release_group, website, crc32 and uuid, alone or in a list, is a text whose word characters are, up to case, word characters of one stretch of the given name, in the order of the name, except that an end may come first (`B, The` gives `The B`). Nothing is invented, and nothing is joined from elsewhere; in a call with a text name.", "quantifier": "every text name, options (expected titles and groups included), earlier calls, oracle tables; every value in the dictionary, in lists too", "why_tests_cant": "a test sees the texts of the names it tries; that no rule, formatter, expected title or hole ever brings in a text that is not in the name depends on all names and options", "anchors": ["guessit/rules/properties/title.py:TitleBaseRule", "guessit/rules/properties/episode_title.py", "guessit/rules/properties/release_group.py", "guessit/rules/properties/bonus.py:BonusTitleRule", "guessit/rules/common/expected.py:build_expected_function", "guessit/rules/common/formatters.py:reorder_title", "guessit/api.py:GuessItApi.guessit"]}
{"id": "C160", "title": "Dates, countries and languages come from the name and are allowed", "statement": "Under date the dictionary holds only dates with a year from 1920 to 2029 that the date parser reads, with flags that the options allow, in a text of the name; under country only countries named by a whole word of the name and in `allowed_countries`; under language and subtitle_language only languages in `allowed_languages` (an undetermined language is given by its word). In a call with a text name.", "quantifier": "every text name, options, earlier calls, language and country tables, date parser; every value in the dictionary, in lists too", "why_tests_cant": "a test sees a few dates and words; that no rule, renaming or merging of equal values ever puts another date, language or country there depends on all names and options", "anchors": ["guessit/rules/properties/date.py:date", "guessit/rules/properties/country.py:CountryFinder", "guessit/rules/properties/language.py:LanguageFinder", "guessit/rules/properties/language.py:SubtitlePrefixLanguageRule", "guessit/rules/processors.py:EquivalentHoles", "guessit/api.py:GuessItApi.guessit"]}
{"id": "C161", "title": "Sizes and bit rates are written in the name", "statement": "Under size the dictionary holds only quantities that stand in the given name, between separators, as a number (whole or with decimals), at most one separator and `MB`, `GB` or `TB` in any case, with that number as magnitude and that unit in capitals; under audio_bit_rate and video_bit_rate only quantities that stand there as a number and one of the units of bit rate. Each of them, printed and parsed again, is the same quantity (C30). In a call with a text name.", "quantifier": "every text name without letters that Python folds to others, options, earlier calls, oracle tables; every value in the dictionary, in lists too", "why_tests_cant": "a test sees a few quantities; that no rule drops a digit, swaps the unit or gives the quantity of another place depends on all names and options", "anchors": ["guessit/rules/properties/size.py:size", "guessit/rules/properties/bit_rate.py:bit_rate", "guessit/rules/properties/bit_rate.py:BitRateTypeRule", "guessit/rules/common/quantity.py:Quantity", "guessit/rules/processors.py:EquivalentHoles", "guessit/api.py:GuessItApi.guessit"]}
{"id": "C162", "title": "Weeks, parts, discs, bonuses and films are numbers written in the name", "statement": "Under week, part, cd, cd_count, bonus and film the dictionary holds only integers, and each is written in the given name as that property is written: after `week` and a separator a number up to 52; after `cd` and at most one separator a number between 1 and 99 (cd), and after that `of` and a number, or a number before `cd` (cd_count); after `x`, or after `f` in at most two digits, a number that stands between separators; after `pt` or `part` a number, Roman numeral or number word worth 1 to 99. In a call with a text name.", "quantifier": "every text name without letters that Python folds to others, options, earlier calls, oracle tables; every value in the dictionary, in lists too", "why_tests_cant": "a test sees a few numbers; that no rule moves the text a number is read from, loses a digit in stripping, or reports the private match around it depends on all names and options", "anchors": ["guessit/rules/properties/date.py:date", "guessit/rules/properties/cd.py:cd", "guessit/rules/properties/bonus.py:bonus", "guessit/rules/properties/film.py:film", "guessit/rules/properties/part.py:part", "guessit/rules/processors.py:EnlargeGroupMatches", "guessit/rules/processors.py:StripSeparators", "guessit/api.py:GuessItApi.guessit"]}
{"id": "C163", "title": "Versions are numbers written after a v", "statement": "Under version the dictionary holds only integers, and in the given name the letter v, in either case, is followed by digits worth that integer. In a call with a text name.", "quantifier": "every text name, options, earlier calls, oracle tables; every value in the dictionary, in lists too", "why_tests_cant": "a test sees a few names; that each of the chains and patterns that can report a version (episode numbers, episode words, a version by itself) captures nothing else under that name, and that no rule moves or strips the digits, depends on all names and options", "anchors": ["guessit/rules/properties/episodes.py:episodes", "guessit/rules/properties/episodes.py:VersionValidator", "guessit/rules/processors.py:StripSeparators", "guessit/api.py:GuessItApi.guessit"]}
{"id": "C164", "title": "Counts of episodes and seasons are written in the name", "statement": "Under episode_count, season_count and count the dictionary holds only integers, and each is written in the given name: after `of` or `sur` and at most one separator come digits worth it, or a numeral or number word for it that stands between separators. In a call with a text name.", "quantifier": "every text name without letters that Python folds to others, options, earlier calls, oracle tables; every value in the dictionary, in lists too", "why_tests_cant": "a test sees a few names; that the rule which names a count after what precedes it, and every other rule, carries the number over unchanged, and that no chain or pattern captures other text as a count, depends on all names and options", "anchors": ["guessit/rules/properties/episodes.py:episodes", "guessit/rules/properties/episodes.py:CountValidator", "guessit/rules/common/numeral.py:parse_numeral", "guessit/api.py:GuessItApi.guessit"]}
{"id": "C165", "title": "Seasons and years of the dictionary lie between numbers written in the name", "statement": "Under season and year the dictionary holds only integers. Each lies between two numbers that are written in the given name (or is one of them): digits, or a Roman numeral or number word that stands between separators. A year is from 1920 to 2029. In a call with a text name.", "quantifier": "every text name without letters that Python folds to others, options, earlier calls, oracle tables; every value in the dictionary, in lists too", "why_tests_cant": "a test sees a few names; that no pattern, chain, range rule or renaming, in any order of the rules, makes a season or year that is not between numbers of the name, depends on all names and options", "anchors": ["guessit/rules/properties/episodes.py:episodes", "guessit/rules/properties/episodes.py:AbstractSeparatorRange", "guessit/rules/properties/episodes.py:SeasonYear", "guessit/rules/properties/episodes.py:YearSeason", "guessit/rules/properties/date.py:date", "guessit/rules/common/date.py:valid_year", "guessit/api.py:GuessItApi.guessit"]}
{"id": "C166", "title": "A name in which no number is written has no number properties", "statement": "If no digits are written in the given name, then the dictionary has no week, cd, cd_count, bonus, film, version, size, audio_bit_rate and video_bit_rate. If, moreover, no Roman numeral and no number word stands between separators in it, then it has no season, year, part, episode_count, season_count and count either. In a call with a text name or a bytes name.", "quantifier": "every name without letters that Python folds to others in which no number is written, options, earlier calls, oracle tables", "why_tests_cant": "a test sees a few names; that no pattern, chain, range rule or renaming, in any order, and no options make up a number must hold for all of them", "anchors": ["guessit/api.py:GuessItApi.guessit", "guessit/rules/properties/episodes.py:episodes", "guessit/rules/properties/part.py:part", "guessit/rules/properties/date.py:date", "guessit/rules/properties/cd.py:cd", "guessit/rules/properties/bonus.py:bonus", "guessit/rules/properties/film.py:film", "guessit/rules/common/numeral.py:parse_numeral"]}
