{
 "claims": [
  {
   "property": "C01",
   "status": "proved",
   "theorems": [
    "Verif.LineRegions.C01_compact_regions_never_overlap"
   ],
   "note": "every legal call history"
  },
  {
   "property": "C02",
   "status": "proved",
   "theorems": [
    "Verif.LineRegions.C02_compact_regions_paint_like_layers"
   ],
   "note": ""
  },
  {
   "property": "C03",
   "status": "proved",
   "theorems": [
    "Verif.LineRegions.C03_window_lines_do_not_alias",
    "Verif.LineRegions.C03_window_move_keeps_lines",
    "Verif.LineRegions.C03_outside_events_ignored",
    "Verif.LineRegions.C03_picture_changes_only_by_own_events"
   ],
   "note": ""
  },
  {
   "property": "C04",
   "status": "proved",
   "theorems": [
    "Verif.LineRegions.C04_background_restored_after_blocks",
    "Verif.LineRegions.C04_transparent_scheme_adds_nothing"
   ],
   "note": ""
  },
  {
   "property": "C05",
   "status": "proved",
   "theorems": [
    "Verif.LineRegions.C05_special_regions_kept"
   ],
   "note": ""
  },
  {
   "property": "C06",
   "status": "partial",
   "theorems": [
    "C06_tokenWrite",
    "C06_markupWrite",
    "C06_htmlRGBWrite",
    "C06_token_class",
    "C06_written_text_is_the_line",
    "C06_violated_beyond_line_end"
   ],
   "note": "Regions inside the line, in order: exact output for all three writers; end to end theorem for every legal history of the compact store whose columns lie inside the text. Columns beyond the line end are read outside the string (C06_violated_beyond_line_end): that part of the quantifier is false of the code."
  },
  {
   "property": "C07",
   "status": "partial",
   "theorems": [
    "C07_load_divides_the_text",
    "C07_division_unique",
    "C07_getLine",
    "C07_failed_load_is_empty",
    "C07_violated_load_after_stdin"
   ],
   "note": "Proved for a fresh object or one holding a named file; loading after the standard input was loaded appends instead of replacing (violated)."
  },
  {
   "property": "C08",
   "status": "proved",
   "theorems": [
    "Verif.Keywords.C08_reported_keyword_is_in_text"
   ],
   "note": "all prepared keyword lists, lines, positions; per-character case folding"
  },
  {
   "property": "C09",
   "status": "partial",
   "theorems": [
    "Verif.Keywords.C09_longest_keyword_found_partial",
    "Verif.Keywords.C09_violated_first_keyword",
    "Verif.Keywords.C09_violated_ignore_case"
   ],
   "note": "longest keyword found for case-sensitive lists unless the only acceptable keyword is the smallest of the list; the full claim is false (negation theorems)"
  },
  {
   "property": "C10",
   "status": "partial",
   "theorems": [
    "Verif.VTList.C10_substitutions_undone_partial",
    "Verif.VTList.C10_store_restore",
    "Verif.VTList.C10_substitution_is_resolution",
    "Verif.VTList.C10_violated_self_substitution",
    "Verif.VTList.C10_violated_self_substitution_crash",
    "Verif.VTList.C10_cleared"
   ],
   "note": "The full statement is false of the code (C10_violated_self_substitution, ..._crash: a block whose scheme is substituted by itself through a chain skips popvirt). Proved: for every tree of inherits/blocks without such a self-substitution the list is restored exactly and no pointer error occurs; store/restore and resolution order hold without restriction."
  },
  {
   "property": "C11",
   "status": "proved",
   "theorems": [
    "Verif.ParseCache.C11_lookup_finds_innermost_block",
    "Verif.ParseCache.C11_restart_point_exists"
   ],
   "note": "For every well-formed cache tree (siblings ordered without overlap, children inside parents)."
  },
  {
   "property": "C12",
   "status": "proved",
   "theorems": [
    "Verif.Outliner.C12_levels_are_tree_depths",
    "Verif.Outliner.C12_level_grows_by_at_most_one"
   ],
   "note": "For every sequence of item levels."
  },
  {
   "property": "C13",
   "status": "partial",
   "theorems": [
    "Verif.Outliner.C13_outline_contents_partial",
    "Verif.Outliner.C13_modify_forgets",
    "Verif.Outliner.C13_violated_duplicate_item"
   ],
   "note": "Proved for every history in which no parse stops exactly at the first uncovered line; false otherwise (C13_violated_duplicate_item: off-by-one in endParsing)."
  },
  {
   "property": "C14",
   "status": "proved",
   "theorems": [
    "C14_registry",
    "C14_numbers_stable",
    "C14_lookup_registered",
    "C14_lookup_sound",
    "C14_hasParent",
    "C14_violated_colon_in_type_name",
    "Verif.Hrc.C14_lookup_by_type_and_name"
   ],
   "note": "Type names without ':' (XML names of HRC types); the violation with colons is proved separately."
  },
  {
   "property": "C15",
   "status": "partial",
   "theorems": [
    "Verif.Styles.C15_lookup_finds_nearest_style_partial",
    "Verif.Styles.C15_violated_region_zero"
   ],
   "note": "Proved for every lookup history whose first lookup is not for region number 0; then an exception is thrown (C15_violated_region_zero)."
  },
  {
   "property": "C16",
   "status": "proved",
   "theorems": [
    "Verif.Styles.C16_styled_fills_only_unset",
    "Verif.Styles.C16_styled_laws"
   ],
   "note": ""
  },
  {
   "property": "C17",
   "status": "partial",
   "theorems": [
    "Verif.CharClass.C17_class_denotes_its_set_partial",
    "Verif.CharClass.C17_class_construction_is_safe",
    "Verif.CharClass.C17_violated_aligned_range",
    "Verif.CharClass.C17_violated_clear_range",
    "Verif.CharClass.C17_violated_intersect_full",
    "Verif.CharClass.C17_violated_astral"
   ],
   "note": "The full statement is false of the code (the C17_violated_* theorems give the inputs). Proved: membership equals the set operation for every sequence of operations within the preconditions stated in the theorem, and no operation touches memory outside its tables."
  },
  {
   "property": "C18",
   "status": "partial",
   "theorems": [
    "Verif.Encodings.C18_utf8_roundtrip_partial",
    "Verif.Encodings.C18_violated_astral",
    "Verif.Encodings.C18_violated_truncated_read",
    "Verif.Encodings.C18_single_bytes"
   ],
   "note": "Proved for every text of BMP characters; false beyond (C18_violated_astral, C18_violated_truncated_read)."
  },
  {
   "property": "C19",
   "status": "proved",
   "theorems": [
    "C19_compare",
    "C19_total_order",
    "C19_equality",
    "C19_caseCompare",
    "C19_equalsIgnoreCase",
    "C19_violated_case_equality",
    "Verif.Strings.C19_hash_is_a_number_to_the_base_31"
   ],
   "note": "Legacy string class; for texts of character codes without 32 bit overflow."
  },
  {
   "property": "C20",
   "status": "proved",
   "theorems": [
    "C20_parameters",
    "C20_throws",
    "C20_reset",
    "C20_listing"
   ],
   "note": ""
  },
  {
   "property": "C21",
   "status": "partial",
   "theorems": [
    "C21_choice",
    "C21_first_maximum",
    "C21_none",
    "C21_score",
    "C21_typeNo_partial",
    "C21_violated_no_score",
    "C21_violated_typeNo"
   ],
   "note": "Best-score choice proved (exact arithmetic instead of double); the clauses 'nothing if no type scores' and 'typeNo-th candidate' are false of the code (witnesses proved)."
  },
  {
   "property": "C22",
   "status": "partial",
   "theorems": [
    "Verif.Editor.C22_query_is_fresh_partial",
    "Verif.Editor.C22_screen_is_fresh_partial",
    "Verif.Editor.C22_violated_scroll_up",
    "Verif.Editor.C22_violated_line_below_window",
    "Verif.Editor.C22_violated_idle_after_resize",
    "Verif.Editor.C22_violated_empty_window",
    "Verif.Editor.C22_violated_query_in_empty_text",
    "Verif.Editor.C22_reading_down_is_fresh"
   ],
   "note": "Proved for histories where the application reports edits truthfully, the window is non-empty and each window move is followed by a query before an idle job (Hist/honest/orderly in Props.lean): a visible line's answer is that of the current text unless the same query scrolls the store up by one page past the invalid line; painting a screen from its first line is always right. False in general: five counterexamples. The parser is abstract (reports F for the text if its cache is good). C22_reading_down_is_fresh: after such a history, lines asked in descending-the-page order (each line at or below the one before) all get the answer of the current text, whatever the window."
  },
  {
   "property": "C23",
   "status": "proved",
   "theorems": [
    "Verif.Editor.C23_invalid_line_never_past_parsed_text",
    "Verif.Editor.C23_edit",
    "Verif.Editor.C23_parsing_only_extends",
    "Verif.Editor.C23_idle_time_is_a_percentage"
   ],
   "note": "For every history of honest operations."
  },
  {
   "property": "C24",
   "status": "partial",
   "theorems": [
    "Verif.Editor.C24_start",
    "Verif.Editor.C24_first_balanced",
    "Verif.Editor.C24_partners_are_mutual",
    "Verif.Editor.C24_finds_the_matching_bracket",
    "Verif.Whole.C24_local_search_in_the_editor",
    "Verif.Whole.settled_after_a_query",
    "Verif.Whole.C24_global_search_upwards_partial",
    "Verif.Whole.C24_global_search_downwards_partial",
    "Verif.Editor.LazyDemo.C24_violated_below_the_screen",
    "Verif.Editor.C24_violated_past_the_end"
   ],
   "note": "In the editor with parser and line store: the search on the screen is fully characterised after every legal history; the search in the whole text upwards too; downwards for a new window, if there is a partner. Missing: the search downwards after earlier reading, and past the end of the text, where it is false (C24_violated_below_the_screen, C24_violated_past_the_end); windows whose store is not yet filled (Holds; true after any visible line was asked for: settled_after_a_query). Search over fixed regions per line is fully characterised (first balanced place, mutual partners, matching bracket in nested text)."
  },
  {
   "property": "C25",
   "status": "proved",
   "theorems": [
    "C25_entity_expansion",
    "C25_unchanged",
    "C25_entities_in_type"
   ],
   "note": "Full function equality with the specification for an arbitrary entity table, and inside a type of a settled library."
  },
  {
   "property": "C26",
   "status": "partial",
   "theorems": [
    "C26_resolution",
    "C26_resolution_sound",
    "C26_lookup_stable",
    "C26_violated_same_name_two_objects"
   ],
   "note": "The clause 'the same name always resolves to the same object' is false for unqualified names inside a type (C26_violated_...); everything else is proved, including stability of the public lookup."
  },
  {
   "property": "C27",
   "status": "partial",
   "theorems": [
    "C27_safe",
    "C27_exact_partial",
    "C27_violated_read_keeps",
    "C27_violated_stale",
    "Verif.Io.C27_open_reads_the_file"
   ],
   "note": "C27_safe: for every history no deleted object is used and sources share by archive. C27_exact_partial: in memory exactly while used, for histories in which the XML reader does not read the archive; when it does, the code never gives its reference back (C27_violated_*: the buffer stays for ever, with its first content)."
  },
  {
   "property": "C28",
   "status": "proved",
   "theorems": [
    "Verif.RegExp.C28_inside_the_text",
    "Verif.RegExp.C28_match_within_the_range_searched",
    "Verif.RegExp.Demo.C28_back_trace_of_an_unused_group_reads_outside",
    "Verif.RegExp.Demo.C28_mark_in_a_look_behind"
   ],
   "note": "For every expression tree, including ones the compiler cannot produce. Hypotheses: 0 <= pos <= length, end <= length, groups of the back trace inside its text; C28_back_trace_of_an_unused_group_reads_outside shows the last one is needed (unused groups of the start match are not initialised by parse). The whole match is a set position when no \\m/\\M mark of an earlier call is left (see C30). C28_match_within_the_range_searched: after any history the whole match lies in the range searched, for marks passed on every way and not in look-behinds (C28_mark_in_a_look_behind: otherwise it can lie before it)."
  },
  {
   "property": "C29",
   "status": "partial",
   "theorems": [
    "Verif.RegExp.C29_parse_finds_the_preferred_match",
    "Verif.RegExp.C29_a_reported_match_is_a_match_partial",
    "Verif.RegExp.C29_success_iff_there_is_a_match_partial",
    "Verif.RegExp.mem_ends",
    "Verif.RegExp.Demo.C29_counter_is_not_restored",
    "Verif.RegExp.Demo.C29_match_is_missed",
    "Verif.RegExp.Demo.C29_optional_in_a_repetition",
    "Verif.RegExp.Demo.C29_end_of_an_inner_line",
    "Verif.RegExp.Demo.C29_named_trace_without_case",
    "Verif.RegExp.Demo.C29_group_of_a_failed_branch"
   ],
   "note": "Proved, in both directions and with termination, for the fragment inFrag (no numbered/named references into the same match, no \\Y{name}; repeated bodies consume at least one character; counted repetition {n,m} only of bodies without choices, ? and ?? of any body outside repetitions), without the flag m. C29_success_iff_there_is_a_match_partial allows the marks \\m, \\M and any earlier state of the object; where the match reported lies is proved without marks here, with them in C81. False outside: the theorems C29_counter_is_not_restored, C29_match_is_missed, C29_optional_in_a_repetition, C29_end_of_an_inner_line, C29_named_trace_without_case, C29_group_of_a_failed_branch are counterexamples on the model. With the flag i: for case functions that are well behaved (CaseOn) on the characters of the text and of the expression."
  },
  {
   "property": "C30",
   "status": "partial",
   "theorems": [
    "Verif.RegExp.C30_calls_do_not_depend_on_earlier_calls_partial",
    "Verif.RegExp.C30_tidy_calls_do_not_depend_on_earlier_calls_partial",
    "Verif.RegExp.C30_compiled_partial",
    "Verif.RegExp.C30_position_moves_is_restored",
    "Verif.RegExp.Demo.C30_mark_survives_a_call",
    "Verif.RegExp.Demo.C30_mark_of_a_failed_attempt"
   ],
   "note": "Proved for every expression in which each of \\m, \\M does not occur or is passed on every way through it (also for what the compiler produces, with fewer than 16 groups), every history and every object state; separately for every expression without \\m/\\M. False for other uses of \\m/\\M (C30_mark_survives_a_call, C30_mark_of_a_failed_attempt): startChange/endChange are never reset. positionMoves is always restored."
  },
  {
   "property": "C31",
   "status": "partial",
   "theorems": [
    "Verif.RegExp.C31_the_first_test_is_invisible_partial",
    "Verif.RegExp.Demo.C31_start_of_a_later_line_is_missed",
    "Verif.RegExp.Demo.C31_upper_case_match_is_missed"
   ],
   "note": "Proved without multiLine and, when case is ignored, for case functions where on the characters of the text and of the expression equal upper case implies equal lower case (CaseOn); the two other theorems show the property false otherwise (/^b/m after a line end; long s under /i)."
  },
  {
   "property": "C32",
   "status": "proved",
   "theorems": [
    "C32_lines_in_order",
    "C32_throws_only_for_missing_line"
   ],
   "note": "For every grammar, text, cache, range, mode and every behaviour of expressions, keyword lists and breakParse (oracles): start, then each line announced once in order with only its own events until the next, then end; all num lines unless broken off. Second theorem: an exception only for a line the source does not have. Also shown: when no line is parsed the return value is the stale endLine of the last parse."
  },
  {
   "property": "C33",
   "status": "partial",
   "theorems": [
    "C33_schemes_nest",
    "C33_violated_pseudo_scheme",
    "C33_open_at_end_is_cached"
   ],
   "note": "Every leave closes the innermost open enter with the same region and scheme, also for resumed and broken-off parses, any oracle. Exception, shown as violation: the scheme named by replayed (pseudo) enters is the innermost scheme for all levels, so only their region matches."
  },
  {
   "property": "C34",
   "status": "partial",
   "theorems": [
    "C34_resumed_parse_equals_full",
    "C34_shorter_parse_is_prefix",
    "C34_incremental_equals_full",
    "C34_any_history",
    "Verif.Engine.C34_any_history_with_the_matcher_partial",
    "C34_violated_scheme_start",
    "C34_violated_recursion_limit"
   ],
   "note": "Full and any-history equality of resumed and full parsing proved when the expressions do not use ~ (scheme start) or outside state, breakParse is not set, and the full parse stays within the recursion limit 100; outside these the claim is false of the code (violated theorems). C34_any_history_with_the_matcher_partial: the same with the library's own expressions (plain, without ~) and keyword lists in place of the oracles, each parse with its own history of the shared expressions."
  },
  {
   "property": "C35",
   "status": "proved",
   "theorems": [
    "Verif.Editor.C35_delivery",
    "Verif.Editor.C35_once_per_registration",
    "Verif.Editor.C35_remove_first"
   ],
   "note": ""
  },
  {
   "property": "C36",
   "status": "proved",
   "theorems": [
    "C36_directory",
    "C36_resolve",
    "C36_location",
    "C36_absolute_is_kept",
    "C36_relative_is_resolved",
    "C36_file_url"
   ],
   "note": "Directory and file part are specified independently (Splits); absolute = early colon or leading separator, as the code documents. Locations of archives are C54."
  },
  {
   "property": "C37",
   "status": "partial",
   "theorems": [
    "Verif.Encodings.C37_utf16_utf32_roundtrip_partial",
    "Verif.Encodings.C37_violated_utf32",
    "Verif.Encodings.C37_violated_utf16"
   ],
   "note": "Proved for every text of the characters the encoder handles; false beyond (C37_violated_utf32, C37_violated_utf16)."
  },
  {
   "property": "C38",
   "status": "proved",
   "theorems": [
    "Verif.Styles.C38_last_definition_wins"
   ],
   "note": "By-name lookup, every history of definitions, loads and lookups."
  },
  {
   "property": "C39",
   "status": "partial",
   "theorems": [
    "C39_indexOf",
    "C39_indexOfChar_partial",
    "C39_lastIndexOf",
    "C39_startsWith",
    "C39_findAndReplace",
    "C39_trim_partial",
    "C39_violated_indexOf_beyond",
    "C39_violated_empty_pattern",
    "C39_violated_trim"
   ],
   "note": "Three clauses are false of the code (witnesses proved): trim of a single visible character, replacing the empty pattern, character search from beyond the end."
  },
  {
   "property": "C40",
   "status": "proved",
   "theorems": [
    "C40_listing",
    "C40_lookup",
    "C40_schemes"
   ],
   "note": "Order is that of the latest registration of each name."
  },
  {
   "property": "C41",
   "status": "proved",
   "theorems": [
    "Verif.Encodings.C41_getChars_stays_in_buffer"
   ],
   "note": "For every text and every Unicode encoding of getChars."
  },
  {
   "property": "C42",
   "status": "partial",
   "theorems": [
    "Verif.Styles.C42_markup_pairs_filled_when_incomplete_partial",
    "Verif.Styles.C42_markup_laws",
    "Verif.Styles.C42_violated_half_markup"
   ],
   "note": "Proved pair by pair; a half-set pair is lost (C42_violated_half_markup)."
  },
  {
   "property": "C43",
   "status": "partial",
   "theorems": [
    "Verif.Styles.C43_styles_defined_before_use_partial",
    "Verif.Styles.C43_violated_dangling_style"
   ],
   "note": "Proved when all definitions precede the first lookup; false otherwise (C43_violated_dangling_style: freed object stays in the lookup cache)."
  },
  {
   "property": "C44",
   "status": "proved",
   "theorems": [
    "C44_loading_terminates"
   ],
   "note": "Nested loads limited by the number of types; sources are an arbitrary function."
  },
  {
   "property": "C45",
   "status": "partial",
   "theorems": [
    "C45_gathered_text",
    "C45_consistent",
    "C45_immediate",
    "C45_violated_endless"
   ],
   "note": "Termination is false of the code (C45_violated_endless); the text handed to detection and consistency of the result are proved."
  },
  {
   "property": "C46",
   "status": "partial",
   "theorems": [
    "C46_catalogue",
    "C46_violated_unknown_class",
    "Verif.FileTypes.C46_classes"
   ],
   "note": "Listing an unknown class is undefined behaviour in the code (witness proved); lookups proved."
  },
  {
   "property": "C47",
   "status": "partial",
   "theorems": [
    "C47_building",
    "C47_violated_append_start",
    "C47_violated_setLength_grows"
   ],
   "note": "append with a start offset and setLength beyond the length misbehave in the code (witnesses proved)."
  },
  {
   "property": "C48",
   "status": "partial",
   "theorems": [
    "C48_style_never_truncated",
    "C48_colour_digits",
    "C48_style_written_partial",
    "C48_no_colour_no_tag",
    "C48_violated_bold_without_colour"
   ],
   "note": "A style without colours is not written at all, whatever its font flags (violated); everything else proved."
  },
  {
   "property": "C49",
   "status": "proved",
   "theorems": [
    "C49_screen_columns",
    "C49_screen_bounds",
    "C49_view_stays_in_text"
   ],
   "note": "Windows part of the viewer."
  },
  {
   "property": "C50",
   "status": "partial",
   "theorems": [
    "Verif.Editor.C50_sample",
    "Verif.Editor.C50_type_fits_its_sample_partial",
    "Verif.Editor.C50_ends_if_types_agree",
    "Verif.Editor.C50_violated_endless"
   ],
   "note": "Ends only if types agree on the sample size; endless recursion otherwise (violated theorem)."
  },
  {
   "property": "C51",
   "status": "partial",
   "theorems": [
    "Verif.RegExp.C51_matching_ends_partial",
    "Verif.RegExp.Demo.C51_never_returns"
   ],
   "note": "Proved for every expression in which each repeated part takes a character at least (all other constructs allowed, any object state). False for repetitions of parts that may match nothing: C51_never_returns (/(a*)*b/ on \"a\")."
  },
  {
   "property": "C52",
   "status": "partial",
   "theorems": [
    "C52_special",
    "C52_environment_partial",
    "C52_unchanged",
    "C52_violated_value_expanded",
    "C52_violated_name_grows"
   ],
   "note": "expandSpecialEnvironment is exactly the specification. expandEnvironment is two passes; the code looks at inserted values again (C52_violated_*), so the full statement is false of it."
  },
  {
   "property": "C53",
   "status": "partial",
   "theorems": [
    "C53_log_partial",
    "C53_bounded",
    "C53_violated_empty"
   ],
   "note": "Proved for all sequences of non-empty pieces; an empty piece at the beginning of a line reads before the buffer (C53_violated_empty)."
  },
  {
   "property": "C54",
   "status": "partial",
   "theorems": [
    "C54_archive_inside",
    "C54_archive_url",
    "C54_archive_relative",
    "C54_violated_absolute_archive",
    "C54_violated_archive_beside_archive",
    "C54_violated_bang_in_name"
   ],
   "note": "Never leaves the strings; locations without '!' in the inner name resolve as specified; absolute archives with a base, archives next to archives and '!' in inner names are resolved wrongly by the code (C54_violated_*)."
  },
  {
   "property": "C55",
   "status": "proved",
   "theorems": [
    "Verif.RegExp.C55_compiling_ends",
    "Verif.RegExp.C55_inside_the_tables"
   ],
   "note": "For every text, any character functions and any start expression. Integers are unbounded in the model ({99999999999} overflows int in the code)."
  },
  {
   "property": "C56",
   "status": "partial",
   "theorems": [
    "Verif.RegExp.C56_accepted",
    "Verif.RegExp.C56_matches_what_is_written_partial",
    "Verif.RegExp.C56_the_preferred_match_partial",
    "Verif.RegExp.C56_success_iff_there_is_a_match_partial",
    "Verif.RegExp.C56_matching_ends",
    "Verif.RegExp.C56_no_memory",
    "Verif.RegExp.Demo.C56_not_a_number_is_accepted",
    "Verif.RegExp.Demo.C56_wrong_order_of_counts_is_accepted"
   ],
   "note": "The written notation (Re), its text and its meaning (Re.L) are a separate specification (Syntax.lean). Every correctly written expression is accepted with its groups (C56_accepted). Matching agrees with the meaning for the fragment of C29 (Re.frag), without flag m, classes without flag i; outside it the matcher or the class compiler is wrong (C29_*, C57_*). C56_the_preferred_match_partial: which match is reported (order of preference, Re.ends), same fragment. Termination (C51) and independence of history (C30) carried over to written expressions. C56_not_a_number_is_accepted, C56_wrong_order_of_counts_is_accepted: {x,3} and {3,2} are accepted. C56_success_iff_there_is_a_match_partial: with marks \\m, \\M too, success is as written (where the match then lies: C81). With the flag i: for case functions that are well behaved (CaseOn) on the characters of the text and of the expression."
  },
  {
   "property": "C57",
   "status": "partial",
   "theorems": [
    "Verif.RegExp.C57_a_class_is_the_set_it_describes_partial",
    "Verif.RegExp.Demo.C57_a_range_ignores_the_flag_i",
    "Verif.RegExp.Demo.C57_the_last_character_ignores_the_flag_i",
    "Verif.RegExp.Demo.C57_negated_classes_take_out",
    "Verif.RegExp.Demo.C57_line_feed_in_a_class",
    "Verif.RegExp.Demo.C57_wrong_order"
   ],
   "note": "Proved for every class without \\W, \\S and flag i; with them it is false: C57_a_range_ignores_the_flag_i, C57_the_last_character_ignores_the_flag_i, C57_negated_classes_take_out; also \\n in a class is the letter n and ranges in the wrong order are accepted."
  },
  {
   "property": "C58",
   "status": "partial",
   "theorems": [
    "Verif.Whole.C58_legal_operations_succeed",
    "Verif.Whole.C58_query_shows_text_partial",
    "Verif.Whole.C58_query_shows_regions_partial",
    "Verif.Whole.C58_screen_shows_text_partial",
    "Verif.Engine.C58_legal_operations_succeed_with_the_matcher",
    "Verif.Engine.C58_query_shows_text_with_the_matcher_partial",
    "Verif.Engine.C58_screen_shows_text_with_the_matcher_partial",
    "Verif.Whole.Demo.C58_violated_scheme",
    "Verif.Whole.Demo.C58_violated_region",
    "Verif.Whole.C58_reading_down_shows_text",
    "Verif.Whole.C58_printing_a_text",
    "Verif.Engine.C58_reading_down_with_the_matcher_partial",
    "Verif.Engine.C58_printing_a_text_with_the_matcher_partial"
   ],
   "note": "Proved for BaseEditor + TextParser + compact store as one model, for every grammar whose expressions do not depend on the history and report proper ranges, and for histories as in C22 (edits announced truthfully, window not empty, no idle job between a resize and the next query). Missing: the page-up case of C22; the region field only if every block has a region (C58_violated_region); the scheme field is wrong after a resumed parse (C58_violated_scheme). Regular expressions and keyword lists are oracles in Whole; the theorems ..._with_the_matcher put the modelled matcher and keyword search in their place (plain expressions as in C59, without ~), each operation with its own history of the shared expressions. C58_reading_down_shows_text and C58_printing_a_text: a program that reads a text from top to bottom without announcing a window (as the console tool does) gets every line as from scratch. With the matcher the answers also lie inside the line."
  },
  {
   "property": "C59",
   "status": "partial",
   "theorems": [
    "Verif.Engine.C59_colouring_does_not_depend_on_earlier_uses_partial"
   ],
   "note": "TextParser, CRegExp and keyword lists as one model: each answer is that of the object after an arbitrary history of its own. Proved for grammars whose expressions are plain (Fit: marks passed on every way or absent, none in look-behinds, no \\m in block starts, end expressions refer to existing groups, lists without empty keywords). Other expressions really depend on their history (C30_mark_survives_a_call; C60_violated_mark_on_one_way)."
  },
  {
   "property": "C60",
   "status": "proved",
   "theorems": [
    "Verif.TextParser.C60_parse_ends",
    "Verif.TextParser.C60_every_call_ends",
    "Verif.Engine.C60_next_call_ends_with_the_matcher",
    "Verif.Engine.C60_every_call_ends_with_the_matcher",
    "Verif.TextParser.Demo.C60_violated_self_inherit",
    "Verif.Engine.Demo.C60_violated_mark_on_one_way"
   ],
   "note": "For expressions and keyword lists that report matches within the range searched (start expressions at the position asked), any grammar in which no scheme inherits itself endlessly (substitutions considered), and lines that exist. With the matcher of the library itself in place of the oracle (expressions as in C59): C60_next_call_ends_with_the_matcher; and all calls of the expressions end, too, if every repeated part takes a character: C60_every_call_ends_with_the_matcher. C60_violated_self_inherit: nothing in the loader rejects a scheme that inherits itself, and then no parse ends. C60_violated_mark_on_one_way: a grammar of the one expression /(a\\m)?/ never gets past the line ab."
  },
  {
   "property": "C61",
   "status": "proved",
   "theorems": [
    "Verif.Hrc.C61_loaded_schemes_are_fine",
    "Verif.Hrc.C61_every_group_has_a_place",
    "Verif.Hrc.C61_loaded_schemes_are_final"
   ],
   "note": "For every contents of the sources and every sequence of loads and lookups (nested loads explicit). The XML reader delivers arbitrary elements; qsort and the order in which the hash map is walked are arbitrary permutations. Not modelled: unloadFileType during a load, exceptions that leave updateStarted set."
  },
  {
   "property": "C62",
   "status": "partial",
   "theorems": [
    "Verif.Hrc.C62_body_is_its_elements",
    "Verif.Hrc.C62_scheme_is_its_elements",
    "Verif.Hrc.C62_other_schemes_are_left_out",
    "Verif.Hrc.C62_word_division_is_the_class_written",
    "Verif.Hrc.C62_what_a_name_can_stand_for"
   ],
   "note": "Against a separate reading of the elements (BodySpec.lean). Partial: the library must be Ready (all known types started while the body is read); if a reference in the body makes a further type load, the names after it may stand for more than those before it (C26 has a witness)."
  },
  {
   "property": "C63",
   "status": "partial",
   "theorems": [
    "Verif.Engine.C63_loaded_grammar_fits",
    "Verif.Engine.C63_colours_come_from_sources_and_text_partial",
    "Verif.Engine.C63_parsing_a_loaded_type_ends_partial",
    "Verif.Engine.C63_screen_of_a_loaded_type_partial",
    "Verif.Engine.C63_operations_with_a_loaded_type_succeed_partial",
    "Verif.Engine.C63_printing_with_a_loaded_type_partial"
   ],
   "note": "Loader, parser, matcher, keyword lists, editor and line store in one model. Conditions left: expressions pass marks on every way or have none and end expressions refer to numbered groups the start has (SteadyLib); for termination repeated parts take a character and inheritance is ranked; for the editor also no ~ and the restrictions of C58. C63_printing_with_a_loaded_type_partial: all lines of a text printed with a type of a loaded library."
  },
  {
   "property": "C64",
   "status": "proved",
   "theorems": [
    "Verif.Engine.C64_later_loads_change_nothing",
    "Verif.Engine.C64_loading_first_or_in_between",
    "Verif.Engine.C64_same_colours_with_and_without_loads_partial",
    "Verif.Engine.C64_calls_between_loads_end_partial"
   ],
   "note": "C64_later_loads_change_nothing: the results of calls with loads in between are results of the same calls without them, for any expressions; C64_loading_first_or_in_between: and conversely those with everything loaded first. Uniqueness and termination under the conditions of C63. One call at a time: loads happen between calls, not during one (the code has no locks)."
  },
  {
   "property": "C65",
   "status": "proved",
   "theorems": [
    "Verif.Factory.C65_the_catalogue_is_what_its_document_says",
    "Verif.Factory.C65_the_default_catalogue",
    "Verif.Factory.C65_violated_a_failed_load_changes_the_base"
   ],
   "note": "catalogue reading proved for every document; a failing load is excluded (refuted: it leaves a mixed state)"
  },
  {
   "property": "C66",
   "status": "partial",
   "theorems": [
    "Verif.Factory.C66_a_prototype_is_what_its_element_says",
    "Verif.Factory.C66_start_up_registers_what_the_sources_declare_partial",
    "Verif.Factory.C66_the_last_declaration_counts",
    "Verif.Factory.C66_start_up_of_a_new_factory_partial",
    "Verif.Factory.C66_violated_missing_place",
    "Verif.Factory.C66_violated_links_are_never_resolved",
    "Verif.Factory.C66_violated_by_the_file_system",
    "Verif.Factory.C66_violated_a_replaced_type_stays_in_part",
    "Verif.Factory.C66_a_type_is_what_its_element_says",
    "Verif.Factory.C66_a_type_declared_again_is_not_loaded",
    "Verif.Factory.C66_children_keep_their_order",
    "Verif.Hrc.C66_named_groups_as_written"
   ],
   "note": "proved when the places named by prototypes exist; refuted without that, for file system exceptions and for types already loaded. 'Nothing is loaded yet' for sources without types."
  },
  {
   "property": "C67",
   "status": "partial",
   "theorems": [
    "Verif.Factory.C67_a_scheme_is_what_its_files_say",
    "Verif.Factory.C67_colours_of_a_catalogue",
    "Verif.Factory.C67_the_default_scheme",
    "Verif.Factory.C67_colours_are_hexadecimal_numbers",
    "Verif.Factory.C67_violated_by_the_environment",
    "Verif.Factory.C67_texts_of_a_catalogue",
    "Verif.Factory.C67_colours_and_styles_of_a_catalogue"
   ],
   "note": "proved for every scheme asked for by name and for the defaults, with the reading of colour values; refuted when the name comes from COLORER_HRD (dangling pointer)"
  },
  {
   "property": "C68",
   "status": "partial",
   "theorems": [
    "Verif.Factory.C68_colours_survive",
    "Verif.Factory.C68_saved_attributes_survive_partial",
    "Verif.Factory.C68_violated_styles_change",
    "Verif.Factory.C68_violated_nothing_is_assigned",
    "Verif.Factory.C68_violated_marks_are_lost",
    "Verif.Factory.C68_violated_no_document",
    "Verif.Factory.C68_marks_under_their_own_names"
   ],
   "note": "colours survive for all 32 bits, styles below ten; everything else refuted: the file is no document, the elements and attributes have other names"
  },
  {
   "property": "C69",
   "status": "proved",
   "theorems": [
    "Verif.Factory.C69_comments_and_blanks_do_not_matter",
    "Verif.Factory.C69_the_text_of_an_element",
    "Verif.Factory.C69_violated_text_is_cut"
   ],
   "note": "for every document; text cut by a comment is outside the claim (shown)"
  },
  {
   "property": "C70",
   "status": "partial",
   "theorems": [
    "Verif.Io.Mem.C70_archive_is_a_file_partial",
    "Verif.Io.Mem.C70_behind_the_end",
    "Verif.Io.Mem.C70_no_more_than_asked",
    "Verif.Io.Mem.C70_member_partial",
    "Verif.Io.Mem.C70_member_size",
    "Verif.Io.Mem.C70_violated_far_place",
    "Verif.Io.Mem.C70_violated_large_piece",
    "Verif.Io.Mem.C70_violated_short_member",
    "Verif.Io.Mem.C70_violated_empty_member"
   ],
   "note": "Proved for archives and requests below 2 GB and places not before the start, for every adaptive reader; a member read in full is given back exactly. Fails (violation theorems): a 32-bit place of 2 GB or more in a damaged archive is accepted and the next read starts before the buffer; pieces of 2 GB or more are not cut; a short read is filled with zeros; an empty member is refused. minizip itself is outside (its answers are a parameter)."
  },
  {
   "property": "C71",
   "status": "partial",
   "theorems": [
    "Verif.Tool.C71_coloured_file_partial",
    "Verif.Tool.C71_marked_up_file_partial",
    "Verif.Tool.C71_named_file_partial",
    "Verif.Tool.C71_violated_page_texts",
    "Verif.Tool.C71_inherited_style",
    "Verif.Tool.C71_inherited_texts",
    "Verif.Tool.C71_a_line_with_links_partial"
   ],
   "note": "The grammar is one loaded by the modelled loader whose expressions are in the plain fragment (LoadedGrammar), the text can be parsed within the recursion limit, no links; region names: every block has a region. Refuted: a wrapped page with a text style without texts follows a null pointer."
  },
  {
   "property": "C72",
   "status": "partial",
   "theorems": [
    "Verif.Tool.C72_exact_name",
    "Verif.Tool.C72_detection",
    "Verif.Tool.C72_text_for_detection",
    "Verif.Tool.C72_file_name_partial",
    "Verif.Tool.C72_violated_mixed_separators",
    "Verif.Tool.C72_violated_part_of_description",
    "Verif.Tool.C72_violated_wrong_type"
   ],
   "note": "Exact names, detection and its text are proved. The part-of-a-name clause is false: the test is negated, the exact law is C72_violated_part_of_description. The file's own name is right for paths with one kind of separator only."
  },
  {
   "property": "C73",
   "status": "partial",
   "theorems": [
    "Verif.Tool.C73_coloured_page_reads_back",
    "Verif.Tool.C73_named_page_reads_back",
    "Verif.Tool.plainPage_inj",
    "Verif.Tool.C73_file_keeps_the_text_partial",
    "Verif.Tool.C73_escaping_is_needed"
   ],
   "note": "Proved for the lines of coloured pages and (region names without '>') pages of names; for a whole file without head, foot and credits. Texts of colour schemes are arbitrary, so nothing holds for them."
  },
  {
   "property": "C74",
   "status": "partial",
   "theorems": [
    "Verif.Tool.C74_bytes_in_the_file",
    "Verif.Tool.C74_file_is_utf8_partial",
    "Verif.Tool.C74_violated_emoji"
   ],
   "note": "Exact bytes for all characters: those outside the Basic Multilingual Plane are left out, so the property holds for texts without them."
  },
  {
   "property": "C75",
   "status": "partial",
   "theorems": [
    "Verif.Tool.C75_link_of_a_word",
    "Verif.Tool.C75_link_of_a_plain_word_partial",
    "Verif.Tool.C75_violated_key_collision"
   ],
   "note": "Exact law for all documents in terms of keys; the property itself for words without '-' ; false for others (key collision)."
  },
  {
   "property": "C76",
   "status": "partial",
   "theorems": [
    "Verif.Tool.Args.C76_arguments_are_read_inside",
    "Verif.Tool.Args.C76_command_line",
    "Verif.Tool.Args.C76_switches_reach_the_page",
    "Verif.Tool.Args.C76_load_type",
    "Verif.Tool.Args.C76_violated_missing_links",
    "Verif.Tool.Args.C76_violated_load_without_type"
   ],
   "note": "Proved for all words of the usage text in any order; memory safety for all arguments. Refuted: a missing value of -ls changes the command instead of being reported; -ld without -t follows a null pointer."
  },
  {
   "property": "C77",
   "status": "partial",
   "theorems": [
    "Verif.RegExp.Shared.C77_one_call_at_a_time_partial",
    "Verif.RegExp.Shared.C77_any_schedule_if_one_saves_nothing_partial",
    "Verif.RegExp.Shared.Demo.C77_two_threads_lose_a_match",
    "Verif.RegExp.Shared.Demo.C77_two_threads_find_a_match_that_is_none",
    "Verif.RegExp.Shared.Demo.C77_clearing_under_a_running_match"
   ],
   "note": "One call at a time: full, with memory safety of the shared array and its growth (for expressions whose marks are sure, else C30 fails). Any schedule of two threads when one of the expressions saves no choice points. For two backtracking expressions the property is false: shown. Interleaving by whole rounds only."
  },
  {
   "property": "C78",
   "status": "partial",
   "theorems": [
    "Verif.TextParser.C78_failure_outside_blocks_partial",
    "Verif.TextParser.Demo.C78_violated_open_block",
    "Verif.TextParser.parseX_parse"
   ],
   "note": "Proved for parses that begin outside all blocks and nobody stops (breakParse): the exception names a missing line of the range, the events are exactly those of the shorter parse, and the parser is left the same if every block entered has been left. Missing: parses resumed inside a block. Violated when a block is open at the missing line: baseScheme stays the scheme of that block and is taken for the root by every later parse (C78_violated_open_block). parseX_parse ties the model with exceptions to the one of the other theorems. Not modelled: endParsing/endJob are never sent, vtlist and backLine leak."
  },
  {
   "property": "C79",
   "status": "partial",
   "theorems": [
    "Verif.CharClass.C79_the_built_in_strings_read_a_class_as_the_set_it_describes_partial",
    "Verif.CharClass.C79_a_class_is_the_set_it_describes_or_an_intersection_is_undefined_partial",
    "Verif.CharClass.C79_both_builds_read_a_class_alike_partial",
    "Verif.CharClass.C79_every_text_is_read_to_an_end",
    "Verif.CharClass.LegacyDemo.C79_violated_intersection",
    "Verif.CharClass.LegacyDemo.C79_violated_unassigned",
    "Verif.CharClass.LegacyDemo.C79_violated_category_cn",
    "Verif.CharClass.LegacyDemo.C79_violated_range_ignoring_case",
    "Verif.CharClass.LegacyDemo.C79_violated_subtraction_ignoring_case",
    "Verif.CharClass.LegacyDemo.C79_violated_range",
    "Verif.CharClass.LegacyDemo.C79_violated_behind_the_end",
    "Verif.CharClass.LegacyDemo.C79_violated_numbers"
   ],
   "note": "Proved for classes written correctly within what OkL allows (numbers of at most eight digits, ranges of the kind of C17, ranges and subtraction only without flag i, not {UNASSIGNED}, {C}, {Cn}) and without &&[...]; with &&[...]: the set or undefined behaviour. Outside it is false: C79_violated_*. Termination is proved for every text."
  },
  {
   "property": "C80",
   "status": "partial",
   "theorems": [
    "Verif.RegExp.C80_groups_hold_what_they_matched_partial",
    "Verif.RegExp.C80_the_ways_are_the_matches",
    "Verif.RegExp.Demo.C80_a_group_that_was_given_up",
    "Verif.RegExp.Demo.C80_a_round_that_was_given_up"
   ],
   "note": "For expressions in the fragment of C29/C56 (no references to own groups, repetitions of what may be empty), at most 15 numbered and 16 named groups, groups outside repetitions other than ? and ?? and outside negative look-arounds. What the code does for the others is not the claim: C80_a_group_that_was_given_up, C80_a_round_that_was_given_up, C29_group_of_a_failed_branch. With the flag i: CaseOn as in C56."
  },
  {
   "property": "C81",
   "status": "partial",
   "theorems": [
    "Verif.RegExp.C81_marks_set_the_match_partial",
    "Verif.RegExp.C81_the_ways_are_the_matches",
    "Verif.RegExp.C81_marks_are_passed_inside_the_match",
    "Verif.RegExp.Demo.C81_a_mark_that_was_given_up",
    "Verif.RegExp.Demo.C81_a_round_that_was_given_up"
   ],
   "note": "For expressions in the fragment of C29/C56 (no references to own groups, no repetitions of what may be empty), without flag m, each of \\m, \\M written once at most, outside repetitions other than ? and ?? and outside negative look-arounds; any earlier state of the object for the marks that are written (for a mark that is not written, the flag of the object unset, as on every object that expression was compiled into). A mark the match did not pass is not part of the claim: C81_a_mark_that_was_given_up, C81_a_round_that_was_given_up, C30_mark_of_a_failed_attempt. C81_marks_are_passed_inside_the_match: without look-arounds the marks lie inside the match. With the flag i: CaseOn as in C56."
  },
  {
   "property": "C82",
   "status": "partial",
   "theorems": [
    "Verif.Chars.C82_the_tests_go_by_the_category",
    "Verif.Chars.C82_the_class_of_a_category_holds_its_characters",
    "Verif.Chars.C82_an_escape_means_the_same_inside_a_class",
    "Verif.Chars.C82_a_class_is_the_set_it_describes_with_the_built_in_tables_partial",
    "Verif.Chars.C82_the_case_functions_are_defined",
    "Verif.Chars.C82_the_laws_of_case",
    "Verif.Chars.C82_comparing_without_case",
    "Verif.Chars.C82_what_the_matcher_assumes_of_case_partial",
    "Verif.Chars.C82_the_first_test_is_invisible_with_the_built_in_tables_partial",
    "Verif.Chars.C82_violated_roman_numerals",
    "Verif.Chars.C82_violated_long_s",
    "Verif.Chars.C82_violated_micro",
    "Verif.Chars.C82_violated_lower_case_class",
    "Verif.Chars.C82_outside_16_bits",
    "Verif.Chars.C82_the_laws_of_title_case",
    "Verif.Chars.C82_the_title_case_is_the_upper_case_or"
   ],
   "note": "Proved for all 65536 characters, with the tables of the library: the tests go by the category (Answers), {Xx} classes = categories, escapes inside and outside classes agree, exact laws of case with all exceptions, comparison = equality of lower cases (and upper cases), the assumptions of C31/C79 hold. Violated for Roman numerals, circled letters, the characters Odd, [\\l] with flag i. Not modelled: toNumericValue, the other functions nothing uses; ICU's own tables."
  },
  {
   "property": "C83",
   "status": "partial",
   "theorems": [
    "Verif.Io.C83_entities_are_read_from_beside_their_declaration_partial",
    "Verif.Io.C83_entities_in_an_archive_partial",
    "Verif.Io.C83_in_an_archive_entities_are_read_from_beside_the_source",
    "Verif.Io.C83_earlier_readers_do_not_matter",
    "Verif.Io.EntityDemo.C83_violated_nested_in_an_archive",
    "Verif.Io.EntityDemo.C83_violated_environment_in_an_archive",
    "Verif.Io.EntityDemo.C83_violated_exception"
   ],
   "note": "Plain files: proved for sources with an absolute path and entities that exist, at any depth and order, any earlier readers. Archives: exact law (everything beside the source), which is the property for entities in the directory of the source; otherwise violated. libxml2 is not modelled beyond how it puts a relative name behind the directory of the declaring input (no '.' and '..')."
  },
  {
   "property": "C84",
   "status": "partial",
   "theorems": [
    "Verif.Logging.C84_formatting_gives_what_the_format_says",
    "Verif.Logging.C84_arguments_are_put_between_the_pieces",
    "Verif.Logging.C84_too_few_arguments",
    "Verif.Logging.C84_the_log_statements",
    "Verif.Logging.C84_the_level_named",
    "Verif.Logging.C84_the_file_has_the_messages_asked_for",
    "Verif.Logging.C84_the_tool_partial",
    "Verif.Logging.C84_the_tool_without_a_log",
    "Verif.Logging.C84_violated_exception_text_is_a_format",
    "Verif.Logging.C84_violated_percent_in_a_name",
    "Verif.Logging.C84_violated_backslash_is_lost",
    "Verif.Logging.C84_violated_no_log_file",
    "Verif.Logging.C84_violated_lost_after_a_failure"
   ],
   "note": "The tool's exception handler is proved for texts without percent sign and backslash; for others the violation theorems give the exact condition. Printing of an argument (operator<<, conversion to UTF-8) is left open. The job is any sequence of log calls from the listed statements."
  },
  {
   "property": "C85",
   "status": "partial",
   "theorems": [
    "Verif.Encodings.C85_a_byte_read_is_written_back",
    "Verif.Encodings.C85_a_character_written_is_read_back",
    "Verif.Encodings.C85_zero_means_not_in_the_page",
    "Verif.Encodings.C85_different_bytes_are_different_characters",
    "Verif.Encodings.C85_the_pages",
    "Verif.Encodings.C85_names",
    "Verif.Encodings.C85_the_name_of_an_encoding",
    "Verif.Encodings.C85_toBytes",
    "Verif.Encodings.C85_getChars",
    "Verif.Encodings.C85_a_name_passes_through",
    "Verif.Encodings.C85_a_text_as_a_name",
    "Verif.Encodings.C85_ascii_through_std_partial",
    "Verif.Encodings.C85_violated_name_is_cut",
    "Verif.Encodings.C85_violated_std_and_uni",
    "Verif.Encodings.C85_violated_above_16_bit"
   ],
   "note": "Tables, names and toBytes are covered in full. The round trip through a system string is proved for ASCII texts and for C strings without the byte 0x98; the violation theorems show the rest. strcasecmp is that of the C locale."
  },
  {
   "property": "C86",
   "status": "partial",
   "theorems": [
    "Verif.Encodings.C86_the_encoding_given",
    "Verif.Encodings.C86_pages_are_read",
    "Verif.Encodings.C86_recognised_by_the_sign_partial",
    "Verif.Encodings.C86_xml_without_a_name_partial",
    "Verif.Encodings.C86_large_numbers_throw",
    "Verif.Encodings.C86_violated_named_encoding",
    "Verif.Encodings.C86_violated_every_declaration",
    "Verif.Encodings.C86_violated_declarations",
    "Verif.Encodings.C86_violated_short",
    "Verif.Encodings.C86_violated_bad_number"
   ],
   "note": "Recognition by signs is proved for streams of four bytes or more, UTF-8 for XML texts of 110 bytes or more without a named encoding. Named encodings never work (violation theorems)."
  },
  {
   "property": "C87",
   "status": "partial",
   "theorems": [
    "Verif.Tool.Tester.C87_every_test_gets_the_right_verdict_partial",
    "Verif.Tool.Tester.C87_violated_never_ends",
    "Verif.Tool.Tester.C87_violated_end_of_input",
    "Verif.Tool.Tester.C87_violated_no_input",
    "Verif.Tool.Tester.C87_violated_long_line",
    "Verif.Tool.Tester.Demo.C87_violated_empty_text",
    "Verif.Tool.Tester.Demo.C87_violated_old_groups"
   ],
   "note": "Proved: in every session of expressions of the language of C56 (no \\m, \\M, flag m; flag i with regular case pairs), each with a text of 1 to 253 bytes, and of lines that are no expressions, every answer is right: ok with all groups, the first being a match at the beginning of the text, error iff there is none there. Missing: the rest of the expression language; violated: the session never ends, the empty text, long lines."
  },
  {
   "property": "C88",
   "status": "partial",
   "theorems": [
    "Verif.Hrc.Life.C88_types_live_until_they_are_declared_again_partial",
    "Verif.Hrc.Life.C88_listing_shows_every_type_once_partial",
    "Verif.Hrc.Life.Demo.C88_violated_source_declares_its_own_type",
    "Verif.Hrc.Life.Demo.C88_violated_kept_pointer",
    "Verif.Hrc.Life.Demo.C88_violated_list_shifts",
    "Verif.Hrc.Life.Demo.C88_violated_endless",
    "Verif.Hrc.Life.C88_tables_in_order"
   ],
   "note": "Proved for every program and all sources in which the sources of types declare no prototypes: every call ends, no deleted type is used, types live until redeclared, the list shows every type once. Violated (and therefore missing) when the sources of types declare prototypes. Proved for all sources and programs: whenever the calls return, names are unique, listed types exist and are listed once, loaded types were contained in a source."
  },
  {
   "property": "C89",
   "status": "partial",
   "theorems": [
    "Verif.Tool.Forward.C89_reads_the_text_partial",
    "Verif.Tool.Forward.C89_forward_partial",
    "Verif.Tool.Forward.C89_failures",
    "Verif.Tool.Forward.C89_violated_plus",
    "Verif.Tool.Forward.C89_violated_nul",
    "Verif.Tool.Forward.C89_violated_empty_stdin",
    "Verif.Tool.C89_forward_to_stdout_partial"
   ],
   "note": "Proved for every text and encoding form, given that ICU's converters read correct texts. Missing: characters outside the Basic Multilingual Plane (read, but not written: C74), the violated beginnings, malformed input."
  }
 ]
}