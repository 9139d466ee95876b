# Axioms of each theorem (output of #print axioms, grouped; generated by tools/axioms.py)

## none

C90_movie, C101_language_case

## propext

C04_pristine_true, C06_pristine_counterexample, C07_sources_in_order, C07_advanced_config_present, C09_order_counterexample, C10_poisoned_counterexample, C10_load_failure_changes_nothing, C11_reset_is_fresh, C12_no_other_exception, C12_option_string_counterexample, C13_configure_returns_cache, C14_counterexample_advanced, C14_counterexample_input_string, C18_leaks, C18_counterexample_year, C18_removeAmbiguous, C18_removeLessSpecific, C18_keepMarkedYear, C18_screenSizeOnlyOne, C18_countValidator, C18_mimetype, C18_typeProcessor, C19_counterexample_spaced_letters, C19_raw_cleanup, C23_name_only, C24_configuration, C25_error, C26_error, C29_symm, C29_trans, C29_hash_text, C29_hash_partial, C29_counterexample_int_float, C30_counterexample_no_units, C31_exactly_one, C34_permutation, C37_expected_counterexample, C37_lowered_counterexample, C37_all, C37_never_fails_counterexample, C41_zero_counterexample, C42_counterexample_empty, C44_counterexample_output_input_string, C44_kinds, C46_empty_is_invalid, C50_short_circuit, C51_counterexample_flag_leaks, C52_lookup, C53_rightmost_counterexample, C54_span_counterexample, C60_chain_is_close, C60_nothing_invented, C62_counterexample_shared, C66_counterexample_own_codec, C86_edge_counterexample, C87_removed_counterexample, C87_parity_counterexample, C89_value, C98_counterexample_older, C100_counterexample, C102_counterexample, C103_show_mode, C108_default_order, C110_effect, C111_counterexample, C111_names, C112_off, C117_counterexample, C118_counterexample, C120_counterexample, C124_counterexample_bare, C132_counterexample_plural, C134_separators, C134_noBrackets, C134_noSlashes, C134_titles, C134_number, C141_words_exception, C142_episodio_exception, C142_capitulo_exception

## propext, Classical.choice, Quot.sound

C01_last_non_null_wins, C01_scalar_is_replaced, C01_null_never_overrides, C02_lists_accumulate, C02_lists_never_shrink, C03_key_local, C03_keys, C04_named_reset, C04_others_untouched, C04_pristine_not_merged, C05_nested_merge, C06_merge_twice_partial, C08_rules_match_own_configuration, C08_after_successful_calls, C09_history_independent_partial, C13_guessit, C13_properties, C13_configure, C13_apart, C13_edit, C13_merge_options, C14_bytes_result_partial, C14_text_unchanged, C15_output_shape, C15_keys, C15_enforce_list, C15_single_value, C15_default, C15_guessit, C16_exactly_the_non_bare_titles, C18_engine_partial, C18_equivalentHoles, C21_characterwise, C23_state_laid, C23_elements, C23_cover, C24_well_nested, C25_reads, C25_only, C25_iff, C26_reading, C26_words, C26_flags, C28_sound, C28_seen, C29_text_faithful, C30_guess, C30_round_trip, C30_size, C30_bit_rate, C30_frame_rate, C32_never_fails, C32_nothing_else, C32_every_number, C32_ends_kept, C32_no_separator_reported, C32_reported_in_order, C32_whole_range, C32_episodes, C32_seasons, C33_ambiguous, C33_less_specific, C34_order, C34_unique, C35_year, C35_year_error, C35_season, C36_holes, C36_complete, C37_reported, C37_program, C37_inside, C37_acronym, C37_fails_iff, C38_enlarge, C39_one_value, C39_keeps_last, C40_kept, C40_never_last, C41_count, C42_plain, C43_from_command_line, C44_absent_options_partial, C44_given_flag, C44_given_value, C45_exactly_the_runs, C45_in_order, C46_escape, C48_reported, C48_undetermined_alone, C49_languages, C50_or, C53_tagged_first, C53_leftmost_partial, C56_whole_words, C56_names, C57_every_number, C57_nothing_else, C59_accepted_iff, C59_accepted_iff_strong, C59_repeated_counterexample, C61_reported, C63_has_neighbor, C63_has_neighbor_before, C63_has_neighbor_after, C63_counterexample_isolated, C64_hardcoded, C64_at_end, C64_real, C65_video_codec, C65_video_profile, C66_audio, C66_channels, C66_profile, C67_source, C67_weak_source, C67_service, C67_service_neighbor, C67_website_prefix, C67_website, C68_sxxexx, C68_duplicate, C68_movie, C68_detached, C68_remove_weak, C69_details, C69_single_digit, C69_season, C69_episode, C70_common, C70_undetermined, C71_conflict, C72_prefer, C73_where, C74_removed, C74_inside, C76_found, C76_first, C77_total, C78_whole, C78_leftmost, C79_brackets, C80_three_parts, C80_three_parts_only, C80_two_parts, C80_two_parts_only, C81_title_after_episode, C82_alternative, C82_alternative_only, C83_inside_title, C84_bonus_title, C85_film_title_partial, C85_lost, C86_nothing_invented, C86_plain_name, C86_wrapped, C86_one_side, C86_forbidden_prefix, C86_credit, C87_one_group, C87_end_partial, C87_start_partial, C87_none_partial, C88_scene, C88_one_per_part, C89_one_group, C89_anime, C90_anime, C90_not_anime, C90_leak_counterexample, C91_leading, C91_two, C91_lone_counterexample, C92_disc, C93_raises, C93_zero_counterexample, C94_frame, C94_merged, C94_counterexample, C95_renamed, C95_video_excluded, C96_prefix_raises, C96_prefix, C96_suffix, C96_no_extension, C96_extension, C96_clash_counterexample, C101_country, C101_roundtrip, C101_language, C103_reads_back, C103_one_reading, C103_json_mode, C103_plain_mode, C103_run, C104_plain, C104_json, C106_frame, C106_settled, C106_reason, C106_longest, C106_pair, C106_counterexample_cascade, C107_table, C107_apart, C107_dropped, C107_expected, C107_fair, C107_unfair, C108_once, C108_priority, C108_dependency, C108_ignored, C108_circle, C108_progress, C108_ties, C108_guessit, C109_order_partial, C110_first_partial, C110_counterexample, C112_equal, C112_shape, C112_all, C112_plain_from_advanced, C113_exact, C113_once, C114_exact, C114_no_error, C115_exact, C116_bonus, C116_film, C117_disc, C117_count, C118_exact, C118_no_error, C118_counterexample_error, C119_size, C119_bit_rate, C122_sound, C122_complete, C122_order, C123_exact, C123_order, C124_sound, C124_complete, C125_ordered, C125_list, C125_sound, C125_complete, C126_sound, C126_complete, C127_sound, C127_list, C127_complete, C128_list, C128_complete, C128_sound, C128_sound_version, C129_exact, C130_exact, C131_exact, C132_sound, C132_complete, C133_format, C135_sound, C135_found, C135_exact, C136_repack, C136_complete, C136_complete_found, C136_hdrip, C136_sound, C136_found, C136_exact, C137_dts, C137_lame, C137_sound, C137_found, C137_exact, C138_it, C138_sound, C138_found, C138_exact, C139_hevc10, C139_codec_sound, C139_codec_found, C139_codec_exact, C139_profile_sound, C139_profile_found, C139_profile_exact, C139_depth_sound, C139_depth_found, C139_depth_exact, C140_sound, C140_found, C140_exact, C141_sound, C141_list, C141_complete, C141_count, C142_sound, C142_complete, C143_reported, C143_list, C143_complete, C143_sound, C143_sound_version, C144_list, C144_complete, C144_sound, C144_sound_version, C145_complete, C145_pair, C145_sound, C145_decreasing, C146_names_partial, C147_type, C148_movie_partial, C149_season, C149_year, C150_mimetype, C151_public, C152_name, C152_place, C152_program, C153_keys, C154_excluded_partial, C155_type, C156_mimetype, C157_season, C158_engine, C158_program, C158_values, C159_engine, C159_program, C159_guess, C160_engine, C160_guess, C160_program, C161_program, C161_guess, C162_engine, C162_guess, C162_program, C163_program, C163_guess, C164_guess, C164_program, C165_program, C165_guess, C166_digits, C166_numerals

## propext, Quot.sound

C07_location_order, C10_failure_repeats_partial, C12_only_guessit_exception_partial, C16_failure_propagates, C17_disabled_iff, C18_excluded_partial, C18_seasonYear, C18_yearSeason, C18_episodeRange, C18_seasonRange, C18_seePatternRange, C18_properCount, C19_no_double_space, C19_start_partial, C19_end_partial, C19_plain_text, C19_inner, C20_word_characters, C20_raw_cleanup, C20_length, C21_unchanged, C21_moved, C22_words_are_runs, C22_words_in_order, C22_words_cover, C23_ordered, C24_groups_partial, C24_delimited, C24_counterexample_bracket_kind, C26_signed, C27_year, C27_week, C28_none, C31_decision, C32_once, C34_weight, C36_preferred, C41_representatives, C42_counterexample_length_changing_lower, C43_guessed, C43_help, C44_given_list, C46_union, C46_named, C46_one_meaning, C47_exact_partial, C47_counterexample_leading_space, C49_countries, C50_and, C50_surround, C51_first_pattern_partial, C52_no_bytes, C52_text_unchanged, C52_idempotent, C52_only_unicode_error, C54_span_partial, C55_plain_entries_independent, C55_regex_entry, C55_counterexample_regex_after_plain, C58_counts_renamed, C58_no_raw_count, C59_in_order, C59_increasing, C60_range_is_bounded, C60_unbounded_counterexample, C61_readings, C64_screener, C64_mux, C65_counterexample_offset, C66_hq, C67_counterexample_short_prefix, C68_detached_error, C69_version, C75_expected, C79_counterexample, C82_movie, C84_no_number, C85_no_number, C85_counterexample, C86_suffix_counterexample, C92_disabled, C93_sizes, C95_audio_excluded, C97_another, C97_language, C98_declares, C98_loads_iff, C98_stops_at_bad, C98_texts, C99_history, C99_reference, C100_leaves, C100_again, C101_country_raises, C101_codes, C101_synonym_codes, C102_single, C102_same_synonyms, C103_int, C103_prints, C103_one_line, C103_show_text, C105_simple, C105_counterexample_long, C108_deterministic, C108_effective, C109_counterexample, C111_unaffected_partial, C112_describes, C120_exact, C120_container, C121_extension, C121_default, C121_one, C124_counterexample_empty, C124_counterexample_second, C126_counterexample_x, C128_counterexample_list, C133_details, C134_between, C134_weak, C135_exception, C136_exception, C137_exception, C138_exception, C139_codec_exception, C140_across, C140_exception, C146_counterexample, C148_counterexample, C152_lowered_counterexample
