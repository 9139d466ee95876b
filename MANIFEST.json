{
 "claims": [
  {
   "property": "C01",
   "status": "proved",
   "theorems": [
    "Guessit.C01_last_non_null_wins",
    "Guessit.C01_scalar_is_replaced",
    "Guessit.C01_null_never_overrides"
   ],
   "note": ""
  },
  {
   "property": "C02",
   "status": "proved",
   "theorems": [
    "Guessit.C02_lists_accumulate",
    "Guessit.C02_lists_never_shrink"
   ],
   "note": ""
  },
  {
   "property": "C03",
   "status": "proved",
   "theorems": [
    "Guessit.C03_key_local",
    "Guessit.C03_keys"
   ],
   "note": ""
  },
  {
   "property": "C04",
   "status": "proved",
   "theorems": [
    "Guessit.C04_pristine_true",
    "Guessit.C04_named_reset",
    "Guessit.C04_others_untouched",
    "Guessit.C04_pristine_not_merged"
   ],
   "note": ""
  },
  {
   "property": "C05",
   "status": "proved",
   "theorems": [
    "Guessit.C05_nested_merge"
   ],
   "note": ""
  },
  {
   "property": "C06",
   "status": "partial",
   "theorems": [
    "Guessit.C06_merge_twice_partial",
    "Guessit.C06_pristine_counterexample"
   ],
   "note": "Proved (exact equality, order included) for configurations and options without pristine entries; with pristine the property is false of the code: C06_pristine_counterexample."
  },
  {
   "property": "C07",
   "status": "proved",
   "theorems": [
    "Guessit.C07_sources_in_order",
    "Guessit.C07_advanced_config_present",
    "Guessit.C07_location_order"
   ],
   "note": ""
  },
  {
   "property": "C08",
   "status": "proved",
   "theorems": [
    "Guessit.C08_rules_match_own_configuration",
    "Guessit.C08_after_successful_calls"
   ],
   "note": ""
  },
  {
   "property": "C09",
   "status": "partial",
   "theorems": [
    "Guessit.C09_history_independent_partial",
    "Guessit.C09_order_counterexample"
   ],
   "note": "Proved for builders that respect ==; false otherwise because the rules cache compares configurations with == (dict order, 1/True ignored): C09_order_counterexample."
  },
  {
   "property": "C10",
   "status": "partial",
   "theorems": [
    "Guessit.C10_poisoned_counterexample",
    "Guessit.C10_failure_repeats_partial",
    "Guessit.C10_load_failure_changes_nothing"
   ],
   "note": "False of the code: C10_poisoned_counterexample. Proved for never-configured objects and forced calls, and for load failures."
  },
  {
   "property": "C11",
   "status": "proved",
   "theorems": [
    "Guessit.C11_reset_is_fresh"
   ],
   "note": ""
  },
  {
   "property": "C12",
   "status": "partial",
   "theorems": [
    "Guessit.C12_only_guessit_exception_partial",
    "Guessit.C12_no_other_exception",
    "Guessit.C12_option_string_counterexample"
   ],
   "note": "Proved for dict/None options; for option strings argparse raises SystemExit which is not caught (C12_option_string_counterexample); C12_no_other_exception holds unconditionally."
  },
  {
   "property": "C13",
   "status": "proved",
   "theorems": [
    "Guessit.C13_guessit",
    "Guessit.C13_properties",
    "Guessit.C13_configure",
    "Guessit.C13_apart",
    "Guessit.C13_edit",
    "Guessit.C13_configure_returns_cache",
    "Guessit.C13_merge_options"
   ],
   "note": ""
  },
  {
   "property": "C14",
   "status": "partial",
   "theorems": [
    "Guessit.C14_counterexample_advanced",
    "Guessit.C14_bytes_result_partial",
    "Guessit.C14_text_unchanged",
    "Guessit.C14_counterexample_input_string"
   ],
   "note": "Proved for every property except input_string, which stays text for a bytes name (C14_counterexample_input_string)."
  },
  {
   "property": "C15",
   "status": "proved",
   "theorems": [
    "Guessit.C15_output_shape",
    "Guessit.C15_keys",
    "Guessit.C15_enforce_list",
    "Guessit.C15_single_value",
    "Guessit.C15_default",
    "Guessit.C15_guessit"
   ],
   "note": ""
  },
  {
   "property": "C16",
   "status": "proved",
   "theorems": [
    "Guessit.C16_exactly_the_non_bare_titles",
    "Guessit.C16_failure_propagates"
   ],
   "note": ""
  },
  {
   "property": "C17",
   "status": "proved",
   "theorems": [
    "Guessit.C17_disabled_iff"
   ],
   "note": ""
  },
  {
   "property": "C18",
   "status": "partial",
   "theorems": [
    "Guessit.C18_engine_partial",
    "Guessit.C18_excluded_partial",
    "Guessit.C18_leaks",
    "Guessit.C18_counterexample_year",
    "Guessit.C18_removeAmbiguous",
    "Guessit.C18_removeLessSpecific",
    "Guessit.C18_keepMarkedYear",
    "Guessit.C18_screenSizeOnlyOne",
    "Guessit.C18_seasonYear",
    "Guessit.C18_yearSeason",
    "Guessit.C18_equivalentHoles",
    "Guessit.C18_episodeRange",
    "Guessit.C18_seasonRange",
    "Guessit.C18_countValidator",
    "Guessit.C18_seePatternRange",
    "Guessit.C18_properCount",
    "Guessit.C18_mimetype",
    "Guessit.C18_typeProcessor"
   ],
   "note": "Proved for 34 properties on every run of a nondeterministic engine model (table of pattern declarations and rule effects; the rules modelled step by step are proved to refine their entries, C18_<rule>). C18_engine_partial proves the same for the concrete rules run in their schedule (Model/Engine). False for 16 others, listed with the unguarded producer by C18_leaks; C18_counterexample_year shows it on the code of SeasonYear."
  },
  {
   "property": "C19",
   "status": "partial",
   "theorems": [
    "Guessit.C19_no_double_space",
    "Guessit.C19_start_partial",
    "Guessit.C19_end_partial",
    "Guessit.C19_plain_text",
    "Guessit.C19_inner",
    "Guessit.C19_counterexample_spaced_letters",
    "Guessit.C19_raw_cleanup"
   ],
   "note": "No double space, inner separators and the ends up to acronym separators are proved for every text; the strict claim on the ends is false of the code: C19_counterexample_spaced_letters."
  },
  {
   "property": "C20",
   "status": "proved",
   "theorems": [
    "Guessit.C20_word_characters",
    "Guessit.C20_raw_cleanup",
    "Guessit.C20_length"
   ],
   "note": ""
  },
  {
   "property": "C21",
   "status": "proved",
   "theorems": [
    "Guessit.C21_unchanged",
    "Guessit.C21_moved",
    "Guessit.C21_characterwise"
   ],
   "note": ""
  },
  {
   "property": "C22",
   "status": "proved",
   "theorems": [
    "Guessit.C22_words_are_runs",
    "Guessit.C22_words_in_order",
    "Guessit.C22_words_cover"
   ],
   "note": ""
  },
  {
   "property": "C23",
   "status": "proved",
   "theorems": [
    "Guessit.C23_state_laid",
    "Guessit.C23_elements",
    "Guessit.C23_ordered",
    "Guessit.C23_cover",
    "Guessit.C23_name_only"
   ],
   "note": ""
  },
  {
   "property": "C24",
   "status": "partial",
   "theorems": [
    "Guessit.C24_groups_partial",
    "Guessit.C24_delimited",
    "Guessit.C24_well_nested",
    "Guessit.C24_configuration",
    "Guessit.C24_counterexample_bracket_kind"
   ],
   "note": "Groups are characterised exactly (iff) up to bracket kind; same-kind is false of the code because the openings stacks are one shared list: C24_counterexample_bracket_kind."
  },
  {
   "property": "C25",
   "status": "proved",
   "theorems": [
    "Guessit.C25_reads",
    "Guessit.C25_only",
    "Guessit.C25_iff",
    "Guessit.C25_error"
   ],
   "note": ""
  },
  {
   "property": "C26",
   "status": "proved",
   "theorems": [
    "Guessit.C26_reading",
    "Guessit.C26_words",
    "Guessit.C26_signed",
    "Guessit.C26_error",
    "Guessit.C26_flags"
   ],
   "note": ""
  },
  {
   "property": "C27",
   "status": "proved",
   "theorems": [
    "Guessit.C27_year",
    "Guessit.C27_week"
   ],
   "note": "For every run of the engine model of Model/Pipeline.lean (any matches from the enabled declarations, any rule order); the rules that touch years are proved to refine their table entries in Props/Refine.lean."
  },
  {
   "property": "C28",
   "status": "proved",
   "theorems": [
    "Guessit.C28_sound",
    "Guessit.C28_none",
    "Guessit.C28_seen"
   ],
   "note": ""
  },
  {
   "property": "C29",
   "status": "partial",
   "theorems": [
    "Guessit.C29_symm",
    "Guessit.C29_trans",
    "Guessit.C29_hash_text",
    "Guessit.C29_hash_partial",
    "Guessit.C29_counterexample_int_float",
    "Guessit.C29_text_faithful"
   ],
   "note": "Symmetry, transitivity and the text case are proved; equal quantities with an integer and a float magnitude (1GB, 1.0GB) hash differently: C29_counterexample_int_float."
  },
  {
   "property": "C30",
   "status": "partial",
   "theorems": [
    "Guessit.C30_guess",
    "Guessit.C30_round_trip",
    "Guessit.C30_counterexample_no_units",
    "Guessit.C30_size",
    "Guessit.C30_bit_rate",
    "Guessit.C30_frame_rate"
   ],
   "note": "Every size, bit rate and frame rate that guessit reports, in any name, round-trips (C30_size, C30_bit_rate, C30_frame_rate; floats that print in plain notation). For any text given to fromstring itself: proved for ASCII text whenever the quantity has units (C30_round_trip); C30_counterexample_no_units shows why."
  },
  {
   "property": "C31",
   "status": "proved",
   "theorems": [
    "Guessit.C31_decision",
    "Guessit.C31_exactly_one"
   ],
   "note": ""
  },
  {
   "property": "C32",
   "status": "proved",
   "theorems": [
    "Guessit.C32_never_fails",
    "Guessit.C32_nothing_else",
    "Guessit.C32_every_number",
    "Guessit.C32_ends_kept",
    "Guessit.C32_once",
    "Guessit.C32_no_separator_reported",
    "Guessit.C32_reported_in_order",
    "Guessit.C32_whole_range",
    "Guessit.C32_episodes",
    "Guessit.C32_seasons"
   ],
   "note": ""
  },
  {
   "property": "C33",
   "status": "proved",
   "theorems": [
    "Guessit.C33_ambiguous",
    "Guessit.C33_less_specific"
   ],
   "note": ""
  },
  {
   "property": "C34",
   "status": "proved",
   "theorems": [
    "Guessit.C34_weight",
    "Guessit.C34_permutation",
    "Guessit.C34_order",
    "Guessit.C34_unique"
   ],
   "note": ""
  },
  {
   "property": "C35",
   "status": "proved",
   "theorems": [
    "Guessit.C35_year",
    "Guessit.C35_year_error",
    "Guessit.C35_season"
   ],
   "note": ""
  },
  {
   "property": "C36",
   "status": "proved",
   "theorems": [
    "Guessit.C36_preferred",
    "Guessit.C36_holes",
    "Guessit.C36_complete"
   ],
   "note": ""
  },
  {
   "property": "C37",
   "status": "partial",
   "theorems": [
    "Guessit.C37_reported",
    "Guessit.C37_expected_counterexample",
    "Guessit.C37_lowered_counterexample",
    "Guessit.C37_program",
    "Guessit.C37_inside",
    "Guessit.C37_acronym",
    "Guessit.C37_fails_iff",
    "Guessit.C37_all",
    "Guessit.C37_never_fails_counterexample"
   ],
   "note": "Exact characterisation of the rule, and end to end (C37_reported: after a whole run of the rules every reported text but type and mimetype is non-empty and has no separator dangling at either end, acronym endings excepted); that it never fails is false of the code: a one-separator match makes StripSeparators raise IndexError (C37_never_fails_counterexample). C37_program says it of the whole program, patterns and markers included; what it assumes is that lowering a text keeps its length. EnlargeGroupMatches is followed for any matches of the patterns (EnlargeEarly.early_enlarge: each match it leaves is one it was given with its ends moved to the brackets); where two found matches are equal but for a bracket at the start, Python's list may hold one object twice where the model holds two, both of this kind. Whole calls that fail for that reason: guessit('a - b', {'expected_title': ['-']}) (C37_expected_counterexample) and guessit('\u0130\u0130\u0130.4k.') with Python's lowering (C37_lowered_counterexample)."
  },
  {
   "property": "C38",
   "status": "proved",
   "theorems": [
    "Guessit.C38_enlarge"
   ],
   "note": ""
  },
  {
   "property": "C39",
   "status": "proved",
   "theorems": [
    "Guessit.C39_one_value",
    "Guessit.C39_keeps_last"
   ],
   "note": ""
  },
  {
   "property": "C40",
   "status": "proved",
   "theorems": [
    "Guessit.C40_kept",
    "Guessit.C40_never_last"
   ],
   "note": ""
  },
  {
   "property": "C41",
   "status": "partial",
   "theorems": [
    "Guessit.C41_count",
    "Guessit.C41_representatives",
    "Guessit.C41_zero_counterexample"
   ],
   "note": "The count and its representatives are exact; C41_zero_counterexample: an explicit count of 0 is taken as 1."
  },
  {
   "property": "C42",
   "status": "partial",
   "theorems": [
    "Guessit.C42_plain",
    "Guessit.C42_counterexample_empty",
    "Guessit.C42_counterexample_length_changing_lower"
   ],
   "note": "Plain expected texts are found exactly (C42_plain); the empty text never terminates and a length-changing lower() shifts the span (counterexamples)."
  },
  {
   "property": "C43",
   "status": "proved",
   "theorems": [
    "Guessit.C43_guessed",
    "Guessit.C43_help",
    "Guessit.C43_from_command_line"
   ],
   "note": ""
  },
  {
   "property": "C44",
   "status": "partial",
   "theorems": [
    "Guessit.C44_absent_options_partial",
    "Guessit.C44_counterexample_output_input_string",
    "Guessit.C44_kinds",
    "Guessit.C44_given_flag",
    "Guessit.C44_given_value",
    "Guessit.C44_given_list"
   ],
   "note": "Absent options and given options are exact except output_input_string, whose default False overrides the configuration (counterexample)."
  },
  {
   "property": "C45",
   "status": "proved",
   "theorems": [
    "Guessit.C45_exactly_the_runs",
    "Guessit.C45_in_order"
   ],
   "note": ""
  },
  {
   "property": "C46",
   "status": "proved",
   "theorems": [
    "Guessit.C46_union",
    "Guessit.C46_named",
    "Guessit.C46_escape",
    "Guessit.C46_one_meaning",
    "Guessit.C46_empty_is_invalid"
   ],
   "note": "Exact language of the built pattern; the empty list gives an invalid pattern."
  },
  {
   "property": "C47",
   "status": "partial",
   "theorems": [
    "Guessit.C47_exact_partial",
    "Guessit.C47_counterexample_leading_space"
   ],
   "note": "Exact for names without leading whitespace; with it the span is shifted (counterexample)."
  },
  {
   "property": "C48",
   "status": "proved",
   "theorems": [
    "Guessit.C48_reported",
    "Guessit.C48_undetermined_alone"
   ],
   "note": ""
  },
  {
   "property": "C49",
   "status": "proved",
   "theorems": [
    "Guessit.C49_languages",
    "Guessit.C49_countries"
   ],
   "note": ""
  },
  {
   "property": "C50",
   "status": "proved",
   "theorems": [
    "Guessit.C50_and",
    "Guessit.C50_or",
    "Guessit.C50_short_circuit",
    "Guessit.C50_surround"
   ],
   "note": ""
  },
  {
   "property": "C51",
   "status": "partial",
   "theorems": [
    "Guessit.C51_first_pattern_partial",
    "Guessit.C51_counterexample_flag_leaks"
   ],
   "note": "Holds for the first date pattern that occurs; false in general because the guessed flag survives to later patterns: C51_counterexample_flag_leaks."
  },
  {
   "property": "C52",
   "status": "proved",
   "theorems": [
    "Guessit.C52_no_bytes",
    "Guessit.C52_text_unchanged",
    "Guessit.C52_idempotent",
    "Guessit.C52_lookup",
    "Guessit.C52_only_unicode_error"
   ],
   "note": ""
  },
  {
   "property": "C53",
   "status": "partial",
   "theorems": [
    "Guessit.C53_tagged_first",
    "Guessit.C53_leftmost_partial",
    "Guessit.C53_rightmost_counterexample"
   ],
   "note": "Tagged first is exact; the documented rightmost preference is false, the leftmost is kept (counterexample)."
  },
  {
   "property": "C54",
   "status": "partial",
   "theorems": [
    "Guessit.C54_span_partial",
    "Guessit.C54_span_counterexample"
   ],
   "note": "Exact unless a match starts at 0, where the code's truth test drops it (counterexample)."
  },
  {
   "property": "C55",
   "status": "partial",
   "theorems": [
    "Guessit.C55_plain_entries_independent",
    "Guessit.C55_regex_entry",
    "Guessit.C55_counterexample_regex_after_plain"
   ],
   "note": "Plain entries are independent; a regex entry sees the text modified by the preceding plain entries (counterexample)."
  },
  {
   "property": "C56",
   "status": "proved",
   "theorems": [
    "Guessit.C56_whole_words",
    "Guessit.C56_names"
   ],
   "note": ""
  },
  {
   "property": "C57",
   "status": "proved",
   "theorems": [
    "Guessit.C57_every_number",
    "Guessit.C57_nothing_else"
   ],
   "note": ""
  },
  {
   "property": "C58",
   "status": "proved",
   "theorems": [
    "Guessit.C58_counts_renamed",
    "Guessit.C58_no_raw_count"
   ],
   "note": ""
  },
  {
   "property": "C59",
   "status": "partial",
   "theorems": [
    "Guessit.C59_accepted_iff",
    "Guessit.C59_accepted_iff_strong",
    "Guessit.C59_in_order",
    "Guessit.C59_increasing",
    "Guessit.C59_repeated_counterexample"
   ],
   "note": "The exact acceptance condition is proved (C59_accepted_iff_strong); strict monotonicity is false for repeated numbers: E01-E02-E01 is accepted."
  },
  {
   "property": "C60",
   "status": "partial",
   "theorems": [
    "Guessit.C60_chain_is_close",
    "Guessit.C60_range_is_bounded",
    "Guessit.C60_nothing_invented",
    "Guessit.C60_unbounded_counterexample"
   ],
   "note": "Chain steps are bounded and nothing is invented; the total expansion is not bounded by the configured maximum (counterexample)."
  },
  {
   "property": "C61",
   "status": "proved",
   "theorems": [
    "Guessit.C61_readings",
    "Guessit.C61_reported"
   ],
   "note": ""
  },
  {
   "property": "C62",
   "status": "partial",
   "theorems": [
    "Guessit.C62_counterexample_shared"
   ],
   "note": "False of the code when a document contains the same list object twice (a YAML anchor): deepcopy keeps the sharing and the in-place append changes both options (C62_counterexample_shared). Documents without sharing are covered by the value model (C01-C05)."
  },
  {
   "property": "C63",
   "status": "partial",
   "theorems": [
    "Guessit.C63_has_neighbor",
    "Guessit.C63_has_neighbor_before",
    "Guessit.C63_has_neighbor_after",
    "Guessit.C63_counterexample_isolated"
   ],
   "note": "Exactly what is dropped is proved for the three forms of the check; that every isolated word is dropped is false: the loop stops at the first accepted word of a part (C63_counterexample_isolated)."
  },
  {
   "property": "C64",
   "status": "proved",
   "theorems": [
    "Guessit.C64_screener",
    "Guessit.C64_mux",
    "Guessit.C64_hardcoded",
    "Guessit.C64_at_end",
    "Guessit.C64_real"
   ],
   "note": ""
  },
  {
   "property": "C65",
   "status": "partial",
   "theorems": [
    "Guessit.C65_video_codec",
    "Guessit.C65_video_profile",
    "Guessit.C65_counterexample_offset"
   ],
   "note": "Exact conditions proved; the check on the right looks one character too far (C65_counterexample_offset)."
  },
  {
   "property": "C66",
   "status": "partial",
   "theorems": [
    "Guessit.C66_audio",
    "Guessit.C66_channels",
    "Guessit.C66_hq",
    "Guessit.C66_profile",
    "Guessit.C66_counterexample_own_codec"
   ],
   "note": "Exact conditions proved; a codec that overlaps its own profile is dropped (C66_counterexample_own_codec)."
  },
  {
   "property": "C67",
   "status": "partial",
   "theorems": [
    "Guessit.C67_source",
    "Guessit.C67_weak_source",
    "Guessit.C67_service",
    "Guessit.C67_service_neighbor",
    "Guessit.C67_website_prefix",
    "Guessit.C67_website",
    "Guessit.C67_counterexample_short_prefix"
   ],
   "note": "Exact conditions proved; a two-letter source prefix is never accepted (C67_counterexample_short_prefix)."
  },
  {
   "property": "C68",
   "status": "proved",
   "theorems": [
    "Guessit.C68_sxxexx",
    "Guessit.C68_duplicate",
    "Guessit.C68_movie",
    "Guessit.C68_detached",
    "Guessit.C68_detached_error",
    "Guessit.C68_remove_weak"
   ],
   "note": ""
  },
  {
   "property": "C69",
   "status": "proved",
   "theorems": [
    "Guessit.C69_details",
    "Guessit.C69_version",
    "Guessit.C69_single_digit",
    "Guessit.C69_season",
    "Guessit.C69_episode"
   ],
   "note": ""
  },
  {
   "property": "C70",
   "status": "proved",
   "theorems": [
    "Guessit.C70_common",
    "Guessit.C70_undetermined"
   ],
   "note": ""
  },
  {
   "property": "C71",
   "status": "proved",
   "theorems": [
    "Guessit.C71_conflict"
   ],
   "note": ""
  },
  {
   "property": "C72",
   "status": "proved",
   "theorems": [
    "Guessit.C72_prefer"
   ],
   "note": ""
  },
  {
   "property": "C73",
   "status": "proved",
   "theorems": [
    "Guessit.C73_where"
   ],
   "note": ""
  },
  {
   "property": "C74",
   "status": "proved",
   "theorems": [
    "Guessit.C74_removed",
    "Guessit.C74_inside"
   ],
   "note": ""
  },
  {
   "property": "C75",
   "status": "proved",
   "theorems": [
    "Guessit.C75_expected"
   ],
   "note": ""
  },
  {
   "property": "C76",
   "status": "proved",
   "theorems": [
    "Guessit.C76_found",
    "Guessit.C76_first"
   ],
   "note": ""
  },
  {
   "property": "C77",
   "status": "proved",
   "theorems": [
    "Guessit.C77_total"
   ],
   "note": ""
  },
  {
   "property": "C78",
   "status": "proved",
   "theorems": [
    "Guessit.C78_whole",
    "Guessit.C78_leftmost"
   ],
   "note": ""
  },
  {
   "property": "C79",
   "status": "partial",
   "theorems": [
    "Guessit.C79_brackets",
    "Guessit.C79_counterexample"
   ],
   "note": "Proved when one element is in brackets; false with two (C79_counterexample)."
  },
  {
   "property": "C80",
   "status": "proved",
   "theorems": [
    "Guessit.C80_three_parts",
    "Guessit.C80_three_parts_only",
    "Guessit.C80_two_parts",
    "Guessit.C80_two_parts_only"
   ],
   "note": ""
  },
  {
   "property": "C81",
   "status": "proved",
   "theorems": [
    "Guessit.C81_title_after_episode"
   ],
   "note": ""
  },
  {
   "property": "C82",
   "status": "proved",
   "theorems": [
    "Guessit.C82_movie",
    "Guessit.C82_alternative",
    "Guessit.C82_alternative_only"
   ],
   "note": ""
  },
  {
   "property": "C83",
   "status": "proved",
   "theorems": [
    "Guessit.C83_inside_title"
   ],
   "note": ""
  },
  {
   "property": "C84",
   "status": "proved",
   "theorems": [
    "Guessit.C84_no_number",
    "Guessit.C84_bonus_title"
   ],
   "note": ""
  },
  {
   "property": "C85",
   "status": "partial",
   "theorems": [
    "Guessit.C85_no_number",
    "Guessit.C85_film_title_partial",
    "Guessit.C85_lost",
    "Guessit.C85_counterexample"
   ],
   "note": "Proved when the element is the first of the path or begins with free text; otherwise nothing is reported (C85_lost, C85_counterexample)."
  },
  {
   "property": "C86",
   "status": "partial",
   "theorems": [
    "Guessit.C86_nothing_invented",
    "Guessit.C86_plain_name",
    "Guessit.C86_wrapped",
    "Guessit.C86_one_side",
    "Guessit.C86_forbidden_prefix",
    "Guessit.C86_credit",
    "Guessit.C86_suffix_counterexample",
    "Guessit.C86_edge_counterexample"
   ],
   "note": "Nothing is invented (all texts); plain, wrapped, prefixed and credited names proved exactly. A forbidden word at the end cuts the wrong number of characters: C86_suffix_counterexample."
  },
  {
   "property": "C87",
   "status": "partial",
   "theorems": [
    "Guessit.C87_one_group",
    "Guessit.C87_end_partial",
    "Guessit.C87_start_partial",
    "Guessit.C87_none_partial",
    "Guessit.C87_removed_counterexample",
    "Guessit.C87_parity_counterexample"
   ],
   "note": "Exact result of the rule (end, start, none) when no path element but the first begins with a separator; without it the result depends on unrelated matches: C87_parity_counterexample. A match can be dropped without a group being reported: C87_removed_counterexample."
  },
  {
   "property": "C88",
   "status": "proved",
   "theorems": [
    "Guessit.C88_scene",
    "Guessit.C88_one_per_part"
   ],
   "note": ""
  },
  {
   "property": "C89",
   "status": "proved",
   "theorems": [
    "Guessit.C89_one_group",
    "Guessit.C89_anime",
    "Guessit.C89_value"
   ],
   "note": ""
  },
  {
   "property": "C90",
   "status": "partial",
   "theorems": [
    "Guessit.C90_anime",
    "Guessit.C90_not_anime",
    "Guessit.C90_movie",
    "Guessit.C90_leak_counterexample"
   ],
   "note": "Exact result of the rule for anime, other names and movies. Independence of path elements is false: C90_leak_counterexample (both readings of a number are lost because of a directory)."
  },
  {
   "property": "C91",
   "status": "partial",
   "theorems": [
    "Guessit.C91_leading",
    "Guessit.C91_two",
    "Guessit.C91_lone_counterexample"
   ],
   "note": "Exact result of the rule. A lone weak number is taken for an absolute episode, with no other episode present: C91_lone_counterexample."
  },
  {
   "property": "C92",
   "status": "proved",
   "theorems": [
    "Guessit.C92_disabled",
    "Guessit.C92_disc"
   ],
   "note": ""
  },
  {
   "property": "C93",
   "status": "partial",
   "theorems": [
    "Guessit.C93_raises",
    "Guessit.C93_sizes",
    "Guessit.C93_zero_counterexample"
   ],
   "note": "Exact result of the rule and exact condition for raising; it does raise: C93_zero_counterexample (1920x000, ZeroDivisionError)."
  },
  {
   "property": "C94",
   "status": "partial",
   "theorems": [
    "Guessit.C94_frame",
    "Guessit.C94_merged",
    "Guessit.C94_counterexample"
   ],
   "note": "Frame (all states); exact when each element has at most one Blu-ray and no Ultra HD spans two elements. With two Blu-rays in an element the stated condition is false of the code: in 'BD UHD BD' the second one stays (C94_counterexample)."
  },
  {
   "property": "C95",
   "status": "proved",
   "theorems": [
    "Guessit.C95_renamed",
    "Guessit.C95_video_excluded",
    "Guessit.C95_audio_excluded"
   ],
   "note": ""
  },
  {
   "property": "C96",
   "status": "partial",
   "theorems": [
    "Guessit.C96_prefix_raises",
    "Guessit.C96_prefix",
    "Guessit.C96_suffix",
    "Guessit.C96_no_extension",
    "Guessit.C96_extension",
    "Guessit.C96_clash_counterexample"
   ],
   "note": "Exact results, and exact condition under which the rule on prefixes raises (two announced languages that overlap, C96_clash_counterexample); for prefixes it is assumed that no prefix overlaps an announced language."
  },
  {
   "property": "C97",
   "status": "proved",
   "theorems": [
    "Guessit.C97_another",
    "Guessit.C97_language"
   ],
   "note": ""
  },
  {
   "property": "C98",
   "status": "partial",
   "theorems": [
    "Guessit.C98_declares",
    "Guessit.C98_loads_iff",
    "Guessit.C98_stops_at_bad",
    "Guessit.C98_texts",
    "Guessit.C98_counterexample_older"
   ],
   "note": "Exact declarations, exact condition for loading, and where it stops. The older pattern key replaces the list and is passed on as an option: C98_counterexample_older."
  },
  {
   "property": "C99",
   "status": "proved",
   "theorems": [
    "Guessit.C99_history",
    "Guessit.C99_reference"
   ],
   "note": ""
  },
  {
   "property": "C100",
   "status": "partial",
   "theorems": [
    "Guessit.C100_leaves",
    "Guessit.C100_again",
    "Guessit.C100_counterexample"
   ],
   "note": "Exact remains of the configuration. Loading a configuration with function entries twice raises the second time: C100_counterexample."
  },
  {
   "property": "C101",
   "status": "proved",
   "theorems": [
    "Guessit.C101_country",
    "Guessit.C101_country_raises",
    "Guessit.C101_roundtrip",
    "Guessit.C101_codes",
    "Guessit.C101_language",
    "Guessit.C101_language_case",
    "Guessit.C101_synonym_codes"
   ],
   "note": ""
  },
  {
   "property": "C102",
   "status": "partial",
   "theorems": [
    "Guessit.C102_single",
    "Guessit.C102_same_synonyms",
    "Guessit.C102_counterexample"
   ],
   "note": "Proved for one object, and for objects with the same synonyms, over every history; false in general: C102_counterexample."
  },
  {
   "property": "C103",
   "status": "proved",
   "theorems": [
    "Guessit.C103_int",
    "Guessit.C103_prints",
    "Guessit.C103_reads_back",
    "Guessit.C103_one_reading",
    "Guessit.C103_one_line",
    "Guessit.C103_json_mode",
    "Guessit.C103_plain_mode",
    "Guessit.C103_show_text",
    "Guessit.C103_show_mode",
    "Guessit.C103_run"
   ],
   "note": ""
  },
  {
   "property": "C104",
   "status": "proved",
   "theorems": [
    "Guessit.C104_plain",
    "Guessit.C104_json"
   ],
   "note": ""
  },
  {
   "property": "C105",
   "status": "partial",
   "theorems": [
    "Guessit.C105_simple",
    "Guessit.C105_counterexample_long"
   ],
   "note": "Proved for names the YAML dumper writes as simple keys; false for those written as explicit keys (128 characters or more): C105_counterexample_long."
  },
  {
   "property": "C106",
   "status": "partial",
   "theorems": [
    "Guessit.C106_frame",
    "Guessit.C106_settled",
    "Guessit.C106_reason",
    "Guessit.C106_longest",
    "Guessit.C106_pair",
    "Guessit.C106_counterexample_cascade"
   ],
   "note": "Frame, settled, reason (up to a match that stays), exact result without solvers and for isolated pairs. The match one is dropped for need not stay: C106_counterexample_cascade."
  },
  {
   "property": "C107",
   "status": "proved",
   "theorems": [
    "Guessit.C107_table",
    "Guessit.C107_apart",
    "Guessit.C107_dropped",
    "Guessit.C107_expected",
    "Guessit.C107_fair",
    "Guessit.C107_unfair"
   ],
   "note": ""
  },
  {
   "property": "C108",
   "status": "proved",
   "theorems": [
    "Guessit.C108_once",
    "Guessit.C108_priority",
    "Guessit.C108_dependency",
    "Guessit.C108_ignored",
    "Guessit.C108_circle",
    "Guessit.C108_progress",
    "Guessit.C108_deterministic",
    "Guessit.C108_ties",
    "Guessit.C108_effective",
    "Guessit.C108_guessit",
    "Guessit.C108_default_order"
   ],
   "note": ""
  },
  {
   "property": "C109",
   "status": "partial",
   "theorems": [
    "Guessit.C109_order_partial",
    "Guessit.C109_counterexample"
   ],
   "note": "Proved for pairs ordered by priorities and dependencies of effective rules (C109_order_partial); the general statement is false of the code: C109_counterexample."
  },
  {
   "property": "C110",
   "status": "partial",
   "theorems": [
    "Guessit.C110_first_partial",
    "Guessit.C110_counterexample",
    "Guessit.C110_effect"
   ],
   "note": "Proved for the first rule of each class (an iff); false for the second instance of RemoveLessSpecificSeasonEpisode: C110_counterexample for every options, C110_effect shows it matters. Rests on rebulk comparing rules by class in effective_rules."
  },
  {
   "property": "C111",
   "status": "partial",
   "theorems": [
    "Guessit.C111_counterexample",
    "Guessit.C111_unaffected_partial",
    "Guessit.C111_names"
   ],
   "note": "Proved: the rules that run depend only on the type option and 22 names (C111_unaffected_partial); false for alternative_title: C111_counterexample."
  },
  {
   "property": "C112",
   "status": "proved",
   "theorems": [
    "Guessit.C112_describes",
    "Guessit.C112_equal",
    "Guessit.C112_shape",
    "Guessit.C112_all",
    "Guessit.C112_plain_from_advanced",
    "Guessit.C112_off"
   ],
   "note": ""
  },
  {
   "property": "C113",
   "status": "proved",
   "theorems": [
    "Guessit.C113_exact",
    "Guessit.C113_once"
   ],
   "note": ""
  },
  {
   "property": "C114",
   "status": "proved",
   "theorems": [
    "Guessit.C114_exact",
    "Guessit.C114_no_error"
   ],
   "note": ""
  },
  {
   "property": "C115",
   "status": "proved",
   "theorems": [
    "Guessit.C115_exact"
   ],
   "note": ""
  },
  {
   "property": "C116",
   "status": "proved",
   "theorems": [
    "Guessit.C116_bonus",
    "Guessit.C116_film"
   ],
   "note": ""
  },
  {
   "property": "C117",
   "status": "partial",
   "theorems": [
    "Guessit.C117_disc",
    "Guessit.C117_count",
    "Guessit.C117_counterexample"
   ],
   "note": "The exact sets of cd and cd_count matches are proved (C117_disc, C117_count). That cd is a word of its own, and that a count out of bounds does not hide the number, are false of the code: C117_counterexample."
  },
  {
   "property": "C118",
   "status": "partial",
   "theorems": [
    "Guessit.C118_exact",
    "Guessit.C118_no_error",
    "Guessit.C118_counterexample",
    "Guessit.C118_counterexample_error"
   ],
   "note": "The exact set is proved (C118_exact, C118_no_error). That every number word is recognised is false (fourteen, sixteen, ..., deux, dix, vingt: C118_counterexample); 'part \u017fix' raises ValueError out of the formatter: C118_counterexample_error."
  },
  {
   "property": "C119",
   "status": "proved",
   "theorems": [
    "Guessit.C119_size",
    "Guessit.C119_bit_rate"
   ],
   "note": ""
  },
  {
   "property": "C120",
   "status": "partial",
   "theorems": [
    "Guessit.C120_exact",
    "Guessit.C120_container",
    "Guessit.C120_counterexample"
   ],
   "note": "Exact set proved for every name whose lower-case form is made character by character (C120_exact, C120_container). False for names with characters like U+0130, whose lower-case form is two characters: spans are shifted and 'foo' is reported as a container (C120_counterexample)."
  },
  {
   "property": "C121",
   "status": "proved",
   "theorems": [
    "Guessit.C121_extension",
    "Guessit.C121_default",
    "Guessit.C121_one"
   ],
   "note": ""
  },
  {
   "property": "C122",
   "status": "proved",
   "theorems": [
    "Guessit.C122_sound",
    "Guessit.C122_complete",
    "Guessit.C122_order"
   ],
   "note": ""
  },
  {
   "property": "C123",
   "status": "proved",
   "theorems": [
    "Guessit.C123_exact",
    "Guessit.C123_order"
   ],
   "note": ""
  },
  {
   "property": "C124",
   "status": "partial",
   "theorems": [
    "Guessit.C124_sound",
    "Guessit.C124_complete",
    "Guessit.C124_counterexample_empty",
    "Guessit.C124_counterexample_second",
    "Guessit.C124_counterexample_bare"
   ],
   "note": "C124_sound and C124_complete hold for every name. The counterexamples show what is false of the code: C124_counterexample_second (the character after a website is consumed, so `b.com` in `a.com b.com` is missed), C124_counterexample_empty (every file of extensions that ends with a newline gives the empty extension) and C124_counterexample_bare (`www.foo.` is a website with the default configuration)."
  },
  {
   "property": "C125",
   "status": "proved",
   "theorems": [
    "Guessit.C125_ordered",
    "Guessit.C125_list",
    "Guessit.C125_sound",
    "Guessit.C125_complete"
   ],
   "note": ""
  },
  {
   "property": "C126",
   "status": "partial",
   "theorems": [
    "Guessit.C126_sound",
    "Guessit.C126_complete",
    "Guessit.C126_counterexample_x"
   ],
   "note": "C126_sound and C126_complete hold for every name; C126_complete asks that no marker stands before the separator in front, and C126_counterexample_x shows that it is needed: in `Show 5 x 1x02` the first `1` is read as the episode of `5 x 1`."
  },
  {
   "property": "C127",
   "status": "proved",
   "theorems": [
    "Guessit.C127_sound",
    "Guessit.C127_list",
    "Guessit.C127_complete"
   ],
   "note": ""
  },
  {
   "property": "C128",
   "status": "partial",
   "theorems": [
    "Guessit.C128_list",
    "Guessit.C128_complete",
    "Guessit.C128_sound",
    "Guessit.C128_sound_version",
    "Guessit.C128_counterexample_list"
   ],
   "note": "Proved for the chains 12, 112, 1, e112 and 102 (the chains 012, ep112 and cap112 are in C143 to C145). C128_list and C128_complete ask that a number and a dash are not in front; C128_counterexample_list shows why: in `2012-12` the last two digits are not reported."
  },
  {
   "property": "C129",
   "status": "proved",
   "theorems": [
    "Guessit.C129_exact"
   ],
   "note": ""
  },
  {
   "property": "C130",
   "status": "proved",
   "theorems": [
    "Guessit.C130_exact"
   ],
   "note": ""
  },
  {
   "property": "C131",
   "status": "proved",
   "theorems": [
    "Guessit.C131_exact"
   ],
   "note": ""
  },
  {
   "property": "C132",
   "status": "partial",
   "theorems": [
    "Guessit.C132_sound",
    "Guessit.C132_complete",
    "Guessit.C132_counterexample_plural"
   ],
   "note": "C132_sound holds for every name. C132_complete asks that `of` is not in front (in `1 of 2 of 3` only the first two numbers are read) and takes the first word of the list that is written after the count; C132_counterexample_plural shows that `4 of 10 episodes` is not reported with the default words."
  },
  {
   "property": "C133",
   "status": "proved",
   "theorems": [
    "Guessit.C133_details",
    "Guessit.C133_format"
   ],
   "note": ""
  },
  {
   "property": "C134",
   "status": "proved",
   "theorems": [
    "Guessit.C134_separators",
    "Guessit.C134_noBrackets",
    "Guessit.C134_noSlashes",
    "Guessit.C134_titles",
    "Guessit.C134_between",
    "Guessit.C134_weak",
    "Guessit.C134_number"
   ],
   "note": ""
  },
  {
   "property": "C135",
   "status": "proved",
   "theorems": [
    "Guessit.C135_exception",
    "Guessit.C135_sound",
    "Guessit.C135_found",
    "Guessit.C135_exact"
   ],
   "note": "The exception in the statement is met by Alternative Cut, Remastered and Restored (`x4k.remaster`): C135_exception; all other values need none."
  },
  {
   "property": "C136",
   "status": "proved",
   "theorems": [
    "Guessit.C136_repack",
    "Guessit.C136_complete",
    "Guessit.C136_complete_found",
    "Guessit.C136_hdrip",
    "Guessit.C136_exception",
    "Guessit.C136_sound",
    "Guessit.C136_found",
    "Guessit.C136_exact"
   ],
   "note": "The exception in the statement is met by Fix, Screener, Ultra HD, East and West Coast Feed (`xproof.sample.fix`): C136_exception. `Repack`/`Rerip` with a count, `HDRip` and the `complete` words have theorems of their own."
  },
  {
   "property": "C137",
   "status": "proved",
   "theorems": [
    "Guessit.C137_dts",
    "Guessit.C137_lame",
    "Guessit.C137_exception",
    "Guessit.C137_sound",
    "Guessit.C137_found",
    "Guessit.C137_exact"
   ],
   "note": "The exception in the statement is met by Dolby Digital and DTS-HD (`DDD`): C137_exception. `LAME` with its number and `DTS` before `MA` have theorems of their own."
  },
  {
   "property": "C138",
   "status": "proved",
   "theorems": [
    "Guessit.C138_it",
    "Guessit.C138_exception",
    "Guessit.C138_sound",
    "Guessit.C138_found",
    "Guessit.C138_exact"
   ],
   "note": "The exception in the statement is met by the fourteen services whose word can overlap itself (`ccc`): C138_exception. `iT`, which is case-sensitive, has a theorem of its own."
  },
  {
   "property": "C139",
   "status": "proved",
   "theorems": [
    "Guessit.C139_hevc10",
    "Guessit.C139_codec_exception",
    "Guessit.C139_codec_sound",
    "Guessit.C139_codec_found",
    "Guessit.C139_codec_exact",
    "Guessit.C139_profile_sound",
    "Guessit.C139_profile_found",
    "Guessit.C139_profile_exact",
    "Guessit.C139_depth_sound",
    "Guessit.C139_depth_found",
    "Guessit.C139_depth_exact"
   ],
   "note": "The exception in the statement is met by H.264 (`MPEG4AVCHD`): C139_codec_exception. `hevc10`, codec and depth at once, has a theorem of its own."
  },
  {
   "property": "C140",
   "status": "proved",
   "theorems": [
    "Guessit.C140_sound",
    "Guessit.C140_found",
    "Guessit.C140_across",
    "Guessit.C140_exact",
    "Guessit.C140_exception"
   ],
   "note": "The exception in the statement is met by `DVDVD`: C140_exception."
  },
  {
   "property": "C141",
   "status": "proved",
   "theorems": [
    "Guessit.C141_sound",
    "Guessit.C141_words_exception",
    "Guessit.C141_list",
    "Guessit.C141_complete",
    "Guessit.C141_count"
   ],
   "note": "C141_sound: whatever the pattern reports is a numeral after a word (or later in the list) with its value, the list ends at a separator, and begins at one, with a numeral that is not refused; C141_complete: word + numeral between separators is reported; C141_list: so is every number of the list after it; C141_count: so is the count. The text has none of the characters that regular expressions take for letters when ignoring case (PlainCase). The exception in the statement is real: C141_words_exception."
  },
  {
   "property": "C142",
   "status": "proved",
   "theorems": [
    "Guessit.C142_sound",
    "Guessit.C142_complete",
    "Guessit.C142_episodio_exception",
    "Guessit.C142_capitulo_exception"
   ],
   "note": "C142_sound, C142_complete; the exceptions in the statement are shown real by C142_episodio_exception and C142_capitulo_exception."
  },
  {
   "property": "C143",
   "status": "proved",
   "theorems": [
    "Guessit.C143_reported",
    "Guessit.C143_list",
    "Guessit.C143_complete",
    "Guessit.C143_sound",
    "Guessit.C143_sound_version"
   ],
   "note": "C143_list, C143_complete, C143_sound, C143_sound_version; C143_reported is about the chain of three or four digits. An earlier version of the model let a chain begin at its first group and so claimed that this pattern reports nothing; running the model on the names of the test suite (003-004. Show Name) showed the mistake."
  },
  {
   "property": "C144",
   "status": "proved",
   "theorems": [
    "Guessit.C144_list",
    "Guessit.C144_complete",
    "Guessit.C144_sound",
    "Guessit.C144_sound_version"
   ],
   "note": "C144_sound, C144_sound_version, C144_complete, C144_list."
  },
  {
   "property": "C145",
   "status": "proved",
   "theorems": [
    "Guessit.C145_complete",
    "Guessit.C145_pair",
    "Guessit.C145_sound",
    "Guessit.C145_decreasing"
   ],
   "note": "C145_sound, C145_complete, C145_pair, C145_decreasing. The separator before the second number is not looked at: the group nearest to the episode is the season."
  },
  {
   "property": "C146",
   "status": "partial",
   "theorems": [
    "Guessit.C146_counterexample",
    "Guessit.C146_names_partial"
   ],
   "note": "C146_names_partial: the names of every result are the documented ones and three undocumented ones, and `another` only when `other` is disabled. C146_counterexample: `another` and `episode_title` do appear. Assumes of the environment that lowering does not make a text empty, and that children of screen sizes and of marked episodes are not weak episodes."
  },
  {
   "property": "C147",
   "status": "proved",
   "theorems": [
    "Guessit.C147_type"
   ],
   "note": ""
  },
  {
   "property": "C148",
   "status": "partial",
   "theorems": [
    "Guessit.C148_counterexample",
    "Guessit.C148_movie_partial"
   ],
   "note": "C148_movie_partial: with `type` and `episode_title` not disabled, a result that is not an episode has no episode title, but one tagged `alternative-replaced`. C148_counterexample: with `type` excluded the title of an episode becomes an alternative title."
  },
  {
   "property": "C149",
   "status": "proved",
   "theorems": [
    "Guessit.C149_season",
    "Guessit.C149_year"
   ],
   "note": "C149_season is the full first half. C149_year is the second half for seasons whose value is set when they are found (`val`), as all the season patterns of guessit do; a value recomputed from a raw text that StripSeparators shortens is not covered."
  },
  {
   "property": "C150",
   "status": "proved",
   "theorems": [
    "Guessit.C150_mimetype"
   ],
   "note": "full, given `mimetypes.guess_type` as a function of the name."
  },
  {
   "property": "C151",
   "status": "proved",
   "theorems": [
    "Guessit.C151_public"
   ],
   "note": "full; no assumption on the patterns nor on the environment."
  },
  {
   "property": "C152",
   "status": "partial",
   "theorems": [
    "Guessit.C152_name",
    "Guessit.C152_place",
    "Guessit.C152_lowered_counterexample",
    "Guessit.C152_program"
   ],
   "note": "For the matches the patterns give (PatternsGive), non-empty stretches; the environment gives children that are stretches of the input. C152_name discharges the hypotheses on the markers for those guessit itself makes of the name. C152_program says it of the whole program, patterns and markers included; what it assumes is that lowering a text keeps its length, and that the caller's regular expressions find things in the text. The lengths matter: C152_lowered_counterexample."
  },
  {
   "property": "C153",
   "status": "proved",
   "theorems": [
    "Guessit.C153_keys"
   ],
   "note": ""
  },
  {
   "property": "C154",
   "status": "partial",
   "theorems": [
    "Guessit.C154_excluded_partial"
   ],
   "note": "For the 34 properties of `excludable`; the others leak (C18_leaks). Whole program: patterns, rules, dictionary, API."
  },
  {
   "property": "C155",
   "status": "proved",
   "theorems": [
    "Guessit.C155_type"
   ],
   "note": ""
  },
  {
   "property": "C156",
   "status": "proved",
   "theorems": [
    "Guessit.C156_mimetype"
   ],
   "note": ""
  },
  {
   "property": "C157",
   "status": "proved",
   "theorems": [
    "Guessit.C157_season"
   ],
   "note": ""
  },
  {
   "property": "C158",
   "status": "proved",
   "theorems": [
    "Guessit.C158_engine",
    "Guessit.C158_program",
    "Guessit.C158_values"
   ],
   "note": "The values are followed from the declarations (every pattern of every property with words has a constant value from the list: ProgramValues) through all the rules (EngineValues) to the dictionary (ValuesWhole). EquivalentHoles may add the property again with the case of the name, and StripSeparators may peel such a text before it is cleaned up: MeantAs says so. The 40 undocumented values (VC-1, DTS-HD, DTS:X, 32 streaming services, five of other) are listed in Spec/Values; vc1_call is a call that gives one."
  },
  {
   "property": "C159",
   "status": "proved",
   "theorems": [
    "Guessit.C159_engine",
    "Guessit.C159_program",
    "Guessit.C159_guess"
   ],
   "note": "The formatter of every match with such a name quotes whatever text the match covers (Quotes), its fixed value, if any, is taken from the name (expected titles and groups, EquivalentHoles): kept by every rule (EngineQuoted), given by every declaration (ProgramQuoted), and carried to the dictionary (QuotedWhole). Reordering of articles moves an end of the text to its beginning; EquivalentHoles may take the spelling of another place (up to case)."
  },
  {
   "property": "C160",
   "status": "proved",
   "theorems": [
    "Guessit.C160_engine",
    "Guessit.C160_guess",
    "Guessit.C160_program"
   ],
   "note": "Assumes digits and spaces are as in Python (Sane), that babelfish knows no language with an empty name, and that a date, a country or a language is not a list. The value of a match stays what the finder gave (Made) through every rule; only languages become subtitle languages; EquivalentHoles may write the word of an undetermined language as it stands elsewhere in the name."
  },
  {
   "property": "C161",
   "status": "proved",
   "theorems": [
    "Guessit.C161_program",
    "Guessit.C161_guess"
   ],
   "note": "Assumes letters and digits are as in Python (Usual, Cased, Capitalizes) and that the name has none of the few characters that Python folds to plain letters (PlainCase, as in C119). The value of a match stays what the finder gave (Made) through every rule; BitRateTypeRule only renames. C30_guess: the round trip, for floats that print in plain notation and read back."
  },
  {
   "property": "C162",
   "status": "proved",
   "theorems": [
    "Guessit.C162_engine",
    "Guessit.C162_guess",
    "Guessit.C162_program"
   ],
   "note": "Values of these names are computed lazily by int() or parse_numeral from the raw text of the match, so the proof follows the raw text: C162_engine shows that a non-private match that is a number when the rules begin keeps its raw text and formatter through every rule (EnlargeGroupMatches moves the ends but keeps raw_start/raw_end, StripSeparators leaves texts that begin and finish with a digit or letter, EquivalentHoles copies only texts), and that the private match around a bonus or film number is gone before EquivalentHoles runs. Assumes Usual, Cased and PlainCase (as C115-C118)."
  },
  {
   "property": "C163",
   "status": "proved",
   "theorems": [
    "Guessit.C163_program",
    "Guessit.C163_guess"
   ],
   "note": "Proofs/Marks is a calculus for what a named group may capture, through sequences, alternatives, repetitions and the chains of episodes.py (breaker and validator included: they only drop matches). Every expression that has the version group captures it after a v, so every version object begins as such a number; C162_engine then follows its raw text and formatter through every rule. Assumes Usual (Python's character tables)."
  },
  {
   "property": "C164",
   "status": "proved",
   "theorems": [
    "Guessit.C164_guess",
    "Guessit.C164_program"
   ],
   "note": "A count is captured by group 9 of the episode words (digits) or of the chain of season words (a numeral, validated by validate_roman): Proofs/Marks follows the group through the expressions and chains. CountValidator renames count to episode_count or season_count; the rule trace records that a renamed match keeps value, formatter and raw text, so the engine theorem (C162_engine, with names closed under such renamings) carries the number to the end. Assumes Usual, Cased and PlainCase (as C141)."
  },
  {
   "property": "C165",
   "status": "proved",
   "theorems": [
    "Guessit.C165_program",
    "Guessit.C165_guess"
   ],
   "note": "Every season declaration (the SxxExx chain, the words, the roman numerals, the crossed form, cap) is followed from its groups to the number it parses; the season range rule's copies lie between two seasons that it stands between (EngineRanges); SeasonYear renames only valid years, YearSeason copies a year; the engine theorem carries each to the end. Episodes are not claimed: the RemoveWeak rules can leave a copy whose value is the integer 0, which rebulk's Match.value treats as absent. Assumes Usual, Cased, Literal and PlainCase (as C141)."
  },
  {
   "property": "C166",
   "status": "proved",
   "theorems": [
    "Guessit.C166_digits",
    "Guessit.C166_numerals",
    "Guessit.C166_amounts"
   ],
   "note": "C166_digits: no digits, no week, cd, cd_count, bonus, film, version; C166_amounts: no digits, no size and no bit rate (by C161); C166_numerals: no written number, no season, year, part, episode_count, season_count, count. For the whole program, by the Python names of the rules, and for text and bytes names. It assumes that the name has only letters which the regex engine folds as Python does (Usual, Cased, PlainCase), and C166_numerals that the engine reads literal letters as such (Literal). Episodes are not claimed here. The example is the call on Abba.mkv, whose dictionary is computed."
  }
 ]
}