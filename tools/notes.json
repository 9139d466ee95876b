{
 "C06": {
  "note": "Proved (exact equality, order included) for configurations and options without pristine entries; with pristine the property is false of the code: C06_pristine_counterexample."
 },
 "C09": {
  "note": "Proved for builders that respect ==; false otherwise because the rules cache compares configurations with == (dict order, 1/True ignored): C09_order_counterexample."
 },
 "C10": {
  "note": "False of the code: C10_poisoned_counterexample. Proved for never-configured objects and forced calls, and for load failures."
 },
 "C12": {
  "note": "Proved for dict/None options; for option strings argparse raises SystemExit which is not caught (C12_option_string_counterexample); C12_no_other_exception holds unconditionally."
 },
 "C14": {
  "note": "Proved for every property except input_string, which stays text for a bytes name (C14_counterexample_input_string)."
 },
 "C19": {
  "note": "No double space, inner separators and the ends up to acronym separators are proved for every text; the strict claim on the ends is false of the code: C19_counterexample_spaced_letters."
 },
 "C24": {
  "note": "Groups are characterised exactly (iff) up to bracket kind; same-kind is false of the code because the openings stacks are one shared list: C24_counterexample_bracket_kind."
 },
 "C29": {
  "note": "Symmetry, transitivity and the text case are proved; equal quantities with an integer and a float magnitude (1GB, 1.0GB) hash differently: C29_counterexample_int_float."
 },
 "C30": {
  "note": "Every size, bit rate and frame rate that guessit reports, in any name, round-trips (C30_size, C30_bit_rate, C30_frame_rate; floats that print in plain notation). For any text given to fromstring itself: proved for ASCII text whenever the quantity has units (C30_round_trip); C30_counterexample_no_units shows why."
 },
 "C51": {
  "note": "Holds for the first date pattern that occurs; false in general because the guessed flag survives to later patterns: C51_counterexample_flag_leaks."
 },
 "C18": {
  "note": "Proved for 34 properties on every run of a nondeterministic engine model (table of pattern declarations and rule effects; the rules modelled step by step are proved to refine their entries, C18_<rule>). C18_engine_partial proves the same for the concrete rules run in their schedule (Model/Engine). False for 16 others, listed with the unguarded producer by C18_leaks; C18_counterexample_year shows it on the code of SeasonYear."
 },
 "C27": {
  "status": "proved",
  "note": "For every run of the engine model of Model/Pipeline.lean (any matches from the enabled declarations, any rule order); the rules that touch years are proved to refine their table entries in Props/Refine.lean."
 },
 "C37": {
  "note": "Exact characterisation of the rule, and end to end (C37_reported: after a whole run of the rules every reported text but type and mimetype is non-empty and has no separator dangling at either end, acronym endings excepted); that it never fails is false of the code: a one-separator match makes StripSeparators raise IndexError (C37_never_fails_counterexample). C37_program says it of the whole program, patterns and markers included; what it assumes is that lowering a text keeps its length. EnlargeGroupMatches is followed for any matches of the patterns (EnlargeEarly.early_enlarge: each match it leaves is one it was given with its ends moved to the brackets); where two found matches are equal but for a bracket at the start, Python's list may hold one object twice where the model holds two, both of this kind. Whole calls that fail for that reason: guessit('a - b', {'expected_title': ['-']}) (C37_expected_counterexample) and guessit('İİİ.4k.') with Python's lowering (C37_lowered_counterexample)."
 },
 "C41": {
  "note": "The count and its representatives are exact; C41_zero_counterexample: an explicit count of 0 is taken as 1."
 },
 "C42": {
  "note": "Plain expected texts are found exactly (C42_plain); the empty text never terminates and a length-changing lower() shifts the span (counterexamples)."
 },
 "C44": {
  "note": "Absent options and given options are exact except output_input_string, whose default False overrides the configuration (counterexample)."
 },
 "C46": {
  "note": "Exact language of the built pattern; the empty list gives an invalid pattern."
 },
 "C47": {
  "note": "Exact for names without leading whitespace; with it the span is shifted (counterexample)."
 },
 "C53": {
  "note": "Tagged first is exact; the documented rightmost preference is false, the leftmost is kept (counterexample)."
 },
 "C54": {
  "note": "Exact unless a match starts at 0, where the code's truth test drops it (counterexample)."
 },
 "C55": {
  "note": "Plain entries are independent; a regex entry sees the text modified by the preceding plain entries (counterexample)."
 },
 "C59": {
  "note": "The exact acceptance condition is proved (C59_accepted_iff_strong); strict monotonicity is false for repeated numbers: E01-E02-E01 is accepted."
 },
 "C60": {
  "note": "Chain steps are bounded and nothing is invented; the total expansion is not bounded by the configured maximum (counterexample)."
 },
 "C62": {
  "note": "False of the code when a document contains the same list object twice (a YAML anchor): deepcopy keeps the sharing and the in-place append changes both options (C62_counterexample_shared). Documents without sharing are covered by the value model (C01-C05)."
 },
 "C63": {
  "note": "Exactly what is dropped is proved for the three forms of the check; that every isolated word is dropped is false: the loop stops at the first accepted word of a part (C63_counterexample_isolated)."
 },
 "C65": {
  "note": "Exact conditions proved; the check on the right looks one character too far (C65_counterexample_offset)."
 },
 "C66": {
  "note": "Exact conditions proved; a codec that overlaps its own profile is dropped (C66_counterexample_own_codec)."
 },
 "C67": {
  "note": "Exact conditions proved; a two-letter source prefix is never accepted (C67_counterexample_short_prefix)."
 },
 "C79": {
  "note": "Proved when one element is in brackets; false with two (C79_counterexample)."
 },
 "C85": {
  "note": "Proved when the element is the first of the path or begins with free text; otherwise nothing is reported (C85_lost, C85_counterexample)."
 },
 "C86": {
  "note": "Nothing is invented (all texts); plain, wrapped, prefixed and credited names proved exactly. A forbidden word at the end cuts the wrong number of characters: C86_suffix_counterexample."
 },
 "C87": {
  "note": "Exact result of the rule (end, start, none) when no path element but the first begins with a separator; without it the result depends on unrelated matches: C87_parity_counterexample. A match can be dropped without a group being reported: C87_removed_counterexample."
 },
 "C90": {
  "note": "Exact result of the rule for anime, other names and movies. Independence of path elements is false: C90_leak_counterexample (both readings of a number are lost because of a directory)."
 },
 "C91": {
  "note": "Exact result of the rule. A lone weak number is taken for an absolute episode, with no other episode present: C91_lone_counterexample."
 },
 "C93": {
  "note": "Exact result of the rule and exact condition for raising; it does raise: C93_zero_counterexample (1920x000, ZeroDivisionError)."
 },
 "C94": {
  "note": "Frame (all states); exact when each element has at most one Blu-ray and no Ultra HD spans two elements. With two Blu-rays in an element the stated condition is false of the code: in 'BD UHD BD' the second one stays (C94_counterexample)."
 },
 "C96": {
  "note": "Exact results, and exact condition under which the rule on prefixes raises (two announced languages that overlap, C96_clash_counterexample); for prefixes it is assumed that no prefix overlaps an announced language."
 },
 "C98": {
  "note": "Exact declarations, exact condition for loading, and where it stops. The older pattern key replaces the list and is passed on as an option: C98_counterexample_older."
 },
 "C100": {
  "note": "Exact remains of the configuration. Loading a configuration with function entries twice raises the second time: C100_counterexample."
 },
 "C102": {
  "note": "Proved for one object, and for objects with the same synonyms, over every history; false in general: C102_counterexample."
 },
 "C105": {
  "note": "Proved for names the YAML dumper writes as simple keys; false for those written as explicit keys (128 characters or more): C105_counterexample_long."
 },
 "C106": {
  "note": "Frame, settled, reason (up to a match that stays), exact result without solvers and for isolated pairs. The match one is dropped for need not stay: C106_counterexample_cascade."
 },
 "C109": {
  "note": "Proved for pairs ordered by priorities and dependencies of effective rules (C109_order_partial); the general statement is false of the code: C109_counterexample."
 },
 "C110": {
  "note": "Proved for the first rule of each class (an iff); false for the second instance of RemoveLessSpecificSeasonEpisode: C110_counterexample for every options, C110_effect shows it matters. Rests on rebulk comparing rules by class in effective_rules."
 },
 "C111": {
  "note": "Proved: the rules that run depend only on the type option and 22 names (C111_unaffected_partial); false for alternative_title: C111_counterexample."
 },
 "C117": {
  "note": "The exact sets of cd and cd_count matches are proved (C117_disc, C117_count). That cd is a word of its own, and that a count out of bounds does not hide the number, are false of the code: C117_counterexample."
 },
 "C118": {
  "note": "The exact set is proved (C118_exact, C118_no_error). That every number word is recognised is false (fourteen, sixteen, ..., deux, dix, vingt: C118_counterexample); 'part ſix' raises ValueError out of the formatter: C118_counterexample_error."
 },
 "C120": {
  "note": "Exact set proved for every name whose lower-case form is made character by character (C120_exact, C120_container). False for names with characters like U+0130, whose lower-case form is two characters: spans are shifted and 'foo' is reported as a container (C120_counterexample)."
 },
 "C124": {
  "note": "C124_sound and C124_complete hold for every name. The counterexamples show what is false of the code: C124_counterexample_second (the character after a website is consumed, so `b.com` in `a.com b.com` is missed), C124_counterexample_empty (every file of extensions that ends with a newline gives the empty extension) and C124_counterexample_bare (`www.foo.` is a website with the default configuration)."
 },
 "C126": {
  "note": "C126_sound and C126_complete hold for every name; C126_complete asks that no marker stands before the separator in front, and C126_counterexample_x shows that it is needed: in `Show 5 x 1x02` the first `1` is read as the episode of `5 x 1`."
 },
 "C128": {
  "note": "Proved for the chains 12, 112, 1, e112 and 102 (the chains 012, ep112 and cap112 are in C143 to C145). C128_list and C128_complete ask that a number and a dash are not in front; C128_counterexample_list shows why: in `2012-12` the last two digits are not reported."
 },
 "C132": {
  "note": "C132_sound holds for every name. C132_complete asks that `of` is not in front (in `1 of 2 of 3` only the first two numbers are read) and takes the first word of the list that is written after the count; C132_counterexample_plural shows that `4 of 10 episodes` is not reported with the default words."
 },
 "C135": {
  "note": "The exception in the statement is met by Alternative Cut, Remastered and Restored (`x4k.remaster`): C135_exception; all other values need none."
 },
 "C136": {
  "note": "The exception in the statement is met by Fix, Screener, Ultra HD, East and West Coast Feed (`xproof.sample.fix`): C136_exception. `Repack`/`Rerip` with a count, `HDRip` and the `complete` words have theorems of their own."
 },
 "C137": {
  "note": "The exception in the statement is met by Dolby Digital and DTS-HD (`DDD`): C137_exception. `LAME` with its number and `DTS` before `MA` have theorems of their own."
 },
 "C138": {
  "note": "The exception in the statement is met by the fourteen services whose word can overlap itself (`ccc`): C138_exception. `iT`, which is case-sensitive, has a theorem of its own."
 },
 "C139": {
  "note": "The exception in the statement is met by H.264 (`MPEG4AVCHD`): C139_codec_exception. `hevc10`, codec and depth at once, has a theorem of its own."
 },
 "C140": {
  "note": "The exception in the statement is met by `DVDVD`: C140_exception."
 },
 "C141": {
  "note": "C141_sound: whatever the pattern reports is a numeral after a word (or later in the list) with its value, the list ends at a separator, and begins at one, with a numeral that is not refused; C141_complete: word + numeral between separators is reported; C141_list: so is every number of the list after it; C141_count: so is the count. The text has none of the characters that regular expressions take for letters when ignoring case (PlainCase). The exception in the statement is real: C141_words_exception."
 },
 "C142": {
  "note": "C142_sound, C142_complete; the exceptions in the statement are shown real by C142_episodio_exception and C142_capitulo_exception."
 },
 "C143": {
  "note": "C143_list, C143_complete, C143_sound, C143_sound_version; C143_reported is about the chain of three or four digits. An earlier version of the model let a chain begin at its first group and so claimed that this pattern reports nothing; running the model on the names of the test suite (003-004. Show Name) showed the mistake."
 },
 "C144": {
  "note": "C144_sound, C144_sound_version, C144_complete, C144_list."
 },
 "C145": {
  "note": "C145_sound, C145_complete, C145_pair, C145_decreasing. The separator before the second number is not looked at: the group nearest to the episode is the season."
 },
 "C146": {
  "note": "C146_names_partial: the names of every result are the documented ones and three undocumented ones, and `another` only when `other` is disabled. C146_counterexample: `another` and `episode_title` do appear. Assumes of the environment that lowering does not make a text empty, and that children of screen sizes and of marked episodes are not weak episodes."
 },
 "C148": {
  "note": "C148_movie_partial: with `type` and `episode_title` not disabled, a result that is not an episode has no episode title, but one tagged `alternative-replaced`. C148_counterexample: with `type` excluded the title of an episode becomes an alternative title."
 },
 "C149": {
  "note": "C149_season is the full first half. C149_year is the second half for seasons whose value is set when they are found (`val`), as all the season patterns of guessit do; a value recomputed from a raw text that StripSeparators shortens is not covered."
 },
 "C150": {
  "note": "full, given `mimetypes.guess_type` as a function of the name."
 },
 "C151": {
  "note": "full; no assumption on the patterns nor on the environment."
 },
 "C152": {
  "note": "For the matches the patterns give (PatternsGive), non-empty stretches; the environment gives children that are stretches of the input. C152_name discharges the hypotheses on the markers for those guessit itself makes of the name. C152_program says it of the whole program, patterns and markers included; what it assumes is that lowering a text keeps its length, and that the caller's regular expressions find things in the text. The lengths matter: C152_lowered_counterexample."
 },
 "C154": {
  "note": "For the 34 properties of `excludable`; the others leak (C18_leaks). Whole program: patterns, rules, dictionary, API."
 },
 "C158": {
  "note": "The values are followed from the declarations (every pattern of every property with words has a constant value from the list: ProgramValues) through all the rules (EngineValues) to the dictionary (ValuesWhole). EquivalentHoles may add the property again with the case of the name, and StripSeparators may peel such a text before it is cleaned up: MeantAs says so. The 40 undocumented values (VC-1, DTS-HD, DTS:X, 32 streaming services, five of other) are listed in Spec/Values; vc1_call is a call that gives one."
 },
 "C159": {
  "note": "The formatter of every match with such a name quotes whatever text the match covers (Quotes), its fixed value, if any, is taken from the name (expected titles and groups, EquivalentHoles): kept by every rule (EngineQuoted), given by every declaration (ProgramQuoted), and carried to the dictionary (QuotedWhole). Reordering of articles moves an end of the text to its beginning; EquivalentHoles may take the spelling of another place (up to case)."
 },
 "C160": {
  "note": "Assumes digits and spaces are as in Python (Sane), that babelfish knows no language with an empty name, and that a date, a country or a language is not a list. The value of a match stays what the finder gave (Made) through every rule; only languages become subtitle languages; EquivalentHoles may write the word of an undetermined language as it stands elsewhere in the name."
 },
 "C161": {
  "note": "Assumes letters and digits are as in Python (Usual, Cased, Capitalizes) and that the name has none of the few characters that Python folds to plain letters (PlainCase, as in C119). The value of a match stays what the finder gave (Made) through every rule; BitRateTypeRule only renames. C30_guess: the round trip, for floats that print in plain notation and read back."
 },
 "C162": {
  "note": "Values of these names are computed lazily by int() or parse_numeral from the raw text of the match, so the proof follows the raw text: C162_engine shows that a non-private match that is a number when the rules begin keeps its raw text and formatter through every rule (EnlargeGroupMatches moves the ends but keeps raw_start/raw_end, StripSeparators leaves texts that begin and finish with a digit or letter, EquivalentHoles copies only texts), and that the private match around a bonus or film number is gone before EquivalentHoles runs. Assumes Usual, Cased and PlainCase (as C115-C118)."
 },
 "C163": {
  "note": "Proofs/Marks is a calculus for what a named group may capture, through sequences, alternatives, repetitions and the chains of episodes.py (breaker and validator included: they only drop matches). Every expression that has the version group captures it after a v, so every version object begins as such a number; C162_engine then follows its raw text and formatter through every rule. Assumes Usual (Python's character tables)."
 },
 "C164": {
  "note": "A count is captured by group 9 of the episode words (digits) or of the chain of season words (a numeral, validated by validate_roman): Proofs/Marks follows the group through the expressions and chains. CountValidator renames count to episode_count or season_count; the rule trace records that a renamed match keeps value, formatter and raw text, so the engine theorem (C162_engine, with names closed under such renamings) carries the number to the end. Assumes Usual, Cased and PlainCase (as C141)."
 },
 "C165": {
  "note": "Every season declaration (the SxxExx chain, the words, the roman numerals, the crossed form, cap) is followed from its groups to the number it parses; the season range rule's copies lie between two seasons that it stands between (EngineRanges); SeasonYear renames only valid years, YearSeason copies a year; the engine theorem carries each to the end. Episodes are not claimed: the RemoveWeak rules can leave a copy whose value is the integer 0, which rebulk's Match.value treats as absent. Assumes Usual, Cased, Literal and PlainCase (as C141)."
 },
 "C166": {
  "note": "C166_digits: no digits, no week, cd, cd_count, bonus, film, version; C166_amounts: no digits, no size and no bit rate (by C161); C166_numerals: no written number, no season, year, part, episode_count, season_count, count. For the whole program, by the Python names of the rules, and for text and bytes names. It assumes that the name has only letters which the regex engine folds as Python does (Usual, Cased, PlainCase), and C166_numerals that the engine reads literal letters as such (Literal). Episodes are not claimed here. The example is the call on Abba.mkv, whose dictionary is computed."
 }
}