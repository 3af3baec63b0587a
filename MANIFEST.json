{
 "claims": [
  {
   "property": "C01",
   "status": "proved",
   "theorems": [
    "Sharg.C01_identifiers_unique_and_well_formed"
   ],
   "note": "For every history of set-up and parse calls with caught exceptions."
  },
  {
   "property": "C02",
   "status": "proved",
   "theorems": [
    "Sharg.C02_set_up_rules"
   ],
   "note": "Acceptance iff the documented rules, on histories without rejected calls."
  },
  {
   "property": "C03",
   "status": "partial",
   "theorems": [
    "Sharg.C03_rejected_option_hides_help",
    "Sharg.C03_rejected_call_leaves_a_trace",
    "Sharg.C03_no_trace_partial",
    "Sharg.C03_no_trace_unless_reused_partial"
   ],
   "note": "False for the code: identifiers of a rejected call stay reserved (C03_rejected_call_leaves_a_trace). Partial: no trace if the identifiers are not used again (observational equivalence of histories). A rejected option also hides requests behind it (C03_rejected_option_hides_help)."
  },
  {
   "property": "C04",
   "status": "proved",
   "theorems": [
    "Sharg.C04_parse_freezes"
   ],
   "note": ""
  },
  {
   "property": "C05",
   "status": "partial",
   "theorems": [
    "Sharg.C05_positional_rules_partial",
    "Sharg.C05_never_mixed_partial",
    "Sharg.C05_mixing_is_possible"
   ],
   "note": "False for subcommands added after positional options (C05_mixing_is_possible). Partial: the positional rules for all histories, and no mixing if add_subcommands is not called after a positional option."
  },
  {
   "property": "C06",
   "status": "proved",
   "theorems": [
    "Sharg.C06_subcommands_sorted_set",
    "Sharg.C06_order_irrelevant"
   ],
   "note": ""
  },
  {
   "property": "C07",
   "status": "proved",
   "theorems": [
    "Sharg.C07_nested_names_clean",
    "Sharg.C07_bad_names_stop_parse"
   ],
   "note": "Bad names stop parse() first; names are clean at every nesting depth."
  },
  {
   "property": "C08",
   "status": "partial",
   "theorems": [
    "Sharg.C08_requests_take_effect_partial",
    "Sharg.C08_predefined_requests_keep_meaning_partial",
    "Sharg.C08_version_check_can_be_taken_over",
    "Sharg.C08_subcommand_can_take_over"
   ],
   "note": "False for --version-check (id not reserved) and for subcommands named like a request. Partial: all other predefined options. The requests are followed to the end of parse()."
  },
  {
   "property": "C09",
   "status": "proved",
   "theorems": [
    "Sharg.C09_request_never_runs_program"
   ],
   "note": ""
  },
  {
   "property": "C10",
   "status": "proved",
   "theorems": [
    "Sharg.C10_last_request_decides"
   ],
   "note": ""
  },
  {
   "property": "C11",
   "status": "proved",
   "theorems": [
    "Sharg.C11_short_help_iff"
   ],
   "note": ""
  },
  {
   "property": "C12",
   "status": "proved",
   "theorems": [
    "Sharg.C12_options_are_known",
    "Sharg.C12_registered_value_is_shielded",
    "Sharg.C12_value_is_shielded"
   ],
   "note": "From the accepted add_option calls of any history to what parse() hands to the option parser."
  },
  {
   "property": "C13",
   "status": "proved",
   "theorems": [
    "Sharg.C13_nested_sub_parsers",
    "Sharg.C16_C13_what_remains"
   ],
   "note": "Also nested sub-parsers, by induction over the chain."
  },
  {
   "property": "C14",
   "status": "proved",
   "theorems": [
    "Sharg.C14_unknown_subcommand_reported"
   ],
   "note": ""
  },
  {
   "property": "C15",
   "status": "partial",
   "theorems": [
    "Sharg.C15_words_behind_dashes_verbatim_partial",
    "Sharg.C15_request_behind_dashes_obeyed",
    "Sharg.C15_flag_behind_dashes_taken"
   ],
   "note": "False for requests behind -- (obeyed) and for characters that are short flags (taken). Partial: verbatim delivery if no argument behind -- is reserved or contains a registered short flag in flag position."
  },
  {
   "property": "C16",
   "status": "proved",
   "theorems": [
    "Sharg.C16_C13_what_remains",
    "Sharg.C16_subsequence"
   ],
   "note": ""
  },
  {
   "property": "C17",
   "status": "partial",
   "theorems": [
    "Sharg.C17_line_has_its_meaning",
    "Sharg.C17_well_formed_line_delivers",
    "Sharg.C17_only_meaningful_lines_partial",
    "Sharg.C17_C23_mixed_lines"
   ],
   "note": "Round trip over the item grammar; C17_only_meaningful_lines_partial is the converse for lines of that grammar. C17_C23_mixed_lines: both directions for lines on which a list option is given with both its identifiers."
  },
  {
   "property": "C18",
   "status": "proved",
   "theorems": [
    "Sharg.C18_every_argument_accounted_for"
   ],
   "note": ""
  },
  {
   "property": "C19",
   "status": "partial",
   "theorems": [
    "Sharg.C19_spellings_equivalent_partial",
    "Sharg.C19_respelling_changes_list",
    "Sharg.C19_respelling_changes_exception"
   ],
   "note": "False if both identifiers of a list option are used, and for the kind of exception (witnesses). Partial: equivalence of outcome, variables and world for each list option spelled uniformly."
  },
  {
   "property": "C20",
   "status": "partial",
   "theorems": [
    "Sharg.C20_only_registered_variables_change",
    "Sharg.C20_unset_options_keep_their_default_partial",
    "Sharg.C20_flag_not_given_is_set"
   ],
   "note": "False in one accident (-a- sets a flag without long id that was not given). Partial: a changed variable belongs to an option that is named, a flag that is seen or a positional."
  },
  {
   "property": "C21",
   "status": "proved",
   "theorems": [
    "Sharg.C21_required_options_occur",
    "Sharg.C21_missing_required_option_reported"
   ],
   "note": ""
  },
  {
   "property": "C22",
   "status": "proved",
   "theorems": [
    "Sharg.C22_scalar_option_at_most_once",
    "Sharg.C22_second_occurrence_reported"
   ],
   "note": ""
  },
  {
   "property": "C23",
   "status": "partial",
   "theorems": [
    "Sharg.C23_C31_list_holds_all_values_partial",
    "Sharg.C23_mixed_identifiers_lose_values",
    "Sharg.C23_short_values_ignored",
    "Sharg.C17_C23_mixed_lines",
    "Sharg.C23_long_values_only",
    "Sharg.C23_ignored_values_still_read"
   ],
   "note": "False if both identifiers are used (witness). Partial: all values in order if one identifier is used. C23_short_values_ignored, C17_C23_mixed_lines, C23_long_values_only: for every line exactly what happens otherwise - the values given with the short identifier are read but have no effect."
  },
  {
   "property": "C24",
   "status": "proved",
   "theorems": [
    "Sharg.C24_only_values_flags_and_words_matter",
    "Sharg.C24_flag_groups_can_be_split"
   ],
   "note": ""
  },
  {
   "property": "C25",
   "status": "proved",
   "theorems": [
    "Sharg.C25_repeated_flag_not_swallowed",
    "Sharg.C25_repeated_flag_reported"
   ],
   "note": ""
  },
  {
   "property": "C26",
   "status": "proved",
   "theorems": [
    "Sharg.C26_unknown_identifiers_rejected"
   ],
   "note": ""
  },
  {
   "property": "C27",
   "status": "proved",
   "theorems": [
    "Sharg.C27_too_few_words_reported",
    "Sharg.C27_too_many_words_reported",
    "Sharg.C27_words_delivered"
   ],
   "note": ""
  },
  {
   "property": "C28",
   "status": "partial",
   "theorems": [
    "Sharg.C28_no_empty_attached_value",
    "Sharg.C28_missing_value_reported_partial",
    "Sharg.C28_missing_value_not_noticed",
    "Sharg.C28_missing_value_ending_partial",
    "Sharg.C28_reported_partial"
   ],
   "note": "False: -p -o x with o registered before p silently gives p an empty value (witness). Partial: C28_missing_value_ending_partial gives the exception and the variables exactly for an identifier without value (last, in front of --, or -k= / --key= anywhere) on lines whose other options are written unambiguously; C28_reported_partial: too_few_arguments if nothing comes earlier; on any line: C28_missing_value_reported_partial; no empty attached value ever."
  },
  {
   "property": "C29",
   "status": "proved",
   "theorems": [
    "Sharg.C29_C30_unreadable_text_reported",
    "Sharg.C29_C30_unreadable_word_reported",
    "Sharg.C29_integers_exact",
    "Sharg.C29_printed_number_read_back"
   ],
   "note": "Accepted texts and values exactly; every number in range is read back from its decimal form."
  },
  {
   "property": "C30",
   "status": "partial",
   "theorems": [
    "Sharg.C29_C30_unreadable_text_reported",
    "Sharg.C29_C30_unreadable_word_reported",
    "Sharg.C30_variable_unchanged_on_error",
    "Sharg.C30_booleans_exact",
    "Sharg.C30_enumerations_exact"
   ],
   "note": "Booleans and enumerators exactly. False for an empty table of names: std::out_of_range is thrown instead of user_input_error."
  },
  {
   "property": "C31",
   "status": "partial",
   "theorems": [
    "Sharg.C23_C31_list_holds_all_values_partial",
    "Sharg.C31_bad_element_reported_partial",
    "Sharg.C31_bad_word_reported_partial",
    "Sharg.C31_element_lost_in_release_build"
   ],
   "note": "False in release builds for numbers out of range (witness). Partial otherwise."
  },
  {
   "property": "C32",
   "status": "partial",
   "theorems": [
    "Sharg.C32_unmentioned_untouched_partial",
    "Sharg.C32_behind_mistake_untouched_partial",
    "Sharg.C32_failed_parse_changes_variables",
    "Sharg.C32_early_failures_leave_variables_partial"
   ],
   "note": "False (witnesses). Partial: failures before the options are read, and all pages, leave all variables alone; on every line of declared identifiers only variables of given options, mentioned flags and positional options change; options behind a mistake, flags and positional options keep their values. The exact content of all variables after an exception: C100."
  },
  {
   "property": "C33",
   "status": "proved",
   "theorems": [
    "Sharg.C33_rejected_value_reported",
    "Sharg.C33_rejected_word_reported",
    "Sharg.C33_validated_in_the_same_world",
    "Sharg.C33_given_option_validated",
    "Sharg.C33_changed_option_validated",
    "Sharg.C33_validator_not_called"
   ],
   "note": ""
  },
  {
   "property": "C34",
   "status": "proved",
   "theorems": [
    "Sharg.C34_success_in_any_order",
    "Sharg.C34_registration_order_irrelevant"
   ],
   "note": "On well-formed lines."
  },
  {
   "property": "C35",
   "status": "partial",
   "theorems": [
    "Sharg.C35_misuse_reported",
    "Sharg.C35_unregistered_reported",
    "Sharg.C35_tells_whether_identifier_occurs",
    "Sharg.C35_tells_whether_given_partial",
    "Sharg.C35_tells_whether_option_given",
    "Sharg.C35_other_answers"
   ],
   "note": "False for values that look like the identifier and for flags inside a group (C35_other_answers). Partial: exact meaning in terms of the raw arguments, and on well-formed lines."
  },
  {
   "property": "C36",
   "status": "partial",
   "theorems": [
    "Sharg.C83_C36_value_in_interval",
    "Sharg.C83_C36_values_in_interval",
    "Sharg.C36_accepts_closed_interval",
    "Sharg.C36_accepts_ranges_of_values",
    "Sharg.C36_fractional_values_partial",
    "Sharg.C36_fraction_is_dropped",
    "Sharg.C36_large_value_undefined",
    "Sharg.C36_large_integer_wraps",
    "Sharg.C36_parsed_value_in_interval"
   ],
   "note": "Proved for values of the type of the bounds. False for values of another arithmetic type, which are converted first (20.9 passes [1,20], 1e10 is undefined, 261 passes uint8_t [0,10]). Partial: error less than one for fractional values."
  },
  {
   "property": "C37",
   "status": "partial",
   "theorems": [
    "Sharg.C37_accepts_listed_values",
    "Sharg.C37_accepts_ranges_of_listed_values",
    "Sharg.C37_empty_list",
    "Sharg.C37_converted_value_accepted"
   ],
   "note": "For values of the listed type; with an implicit conversion in front the converted value counts (C37_converted_value_accepted)."
  },
  {
   "property": "C38",
   "status": "proved",
   "theorems": [
    "Sharg.C38_left_to_right",
    "Sharg.C38_grouping_irrelevant",
    "Sharg.C38_conjunction",
    "Sharg.C38_help_text"
   ],
   "note": "Also for validators with side effects; also the help text."
  },
  {
   "property": "C39",
   "status": "partial",
   "theorems": [
    "Sharg.C39_extension_check_partial",
    "Sharg.C39_listed_extension_passes_partial",
    "Sharg.C39_passing_name_partial",
    "Sharg.C39_dot_not_required",
    "Sharg.C39_hidden_file_rejected"
   ],
   "note": "False: no dot is required in front of the extension, and a hidden file without further dot is rejected (witnesses). Partial: exact characterisation."
  },
  {
   "property": "C40",
   "status": "proved",
   "theorems": [
    "Sharg.C40_input_file",
    "Sharg.C40_input_directory",
    "Sharg.C40_lists_of_files"
   ],
   "note": ""
  },
  {
   "property": "C41",
   "status": "partial",
   "theorems": [
    "Sharg.C41_open_or_create_accepts_exactly",
    "Sharg.C41_create_new_changes_nothing",
    "Sharg.C41_create_new_accepts_exactly",
    "Sharg.C41_create_new_rejection",
    "Sharg.C41_open_or_create_new_file_partial",
    "Sharg.C41_open_or_create_deletes_the_file",
    "Sharg.C41_open_or_create_truncates_the_file"
   ],
   "note": "create_new: proved. open_or_create: false, an existing file or device is deleted, also if it is rejected (general theorem); partial: paths where nothing is. The open_or_create mode accepts exactly the paths of a new theorem (C41_open_or_create_accepts_exactly)."
  },
  {
   "property": "C42",
   "status": "partial",
   "theorems": [
    "Sharg.C42_new_directory",
    "Sharg.C42_existing_directory_partial",
    "Sharg.C42_other_files_kept",
    "Sharg.C42_dummy_file_deleted",
    "Sharg.C42_dummy_directory_rejected"
   ],
   "note": "False: an existing dummy.txt is deleted (general theorem). Partial: everything else is kept; no dummy.txt: nothing changes; new directories: nothing changes."
  },
  {
   "property": "C43",
   "status": "partial",
   "theorems": [
    "Sharg.C43_hidden_never_shown",
    "Sharg.C43_advanced_not_shown_partial",
    "Sharg.C43_all_visible_in_order_partial",
    "Sharg.C43_man_page_option",
    "Sharg.C43_tool_description_partial",
    "Sharg.C43_texts_not_in_tool_description",
    "Sharg.C43_advanced_missing_in_exports"
   ],
   "note": "False: advanced options are missing in HTML and man page exports although config.hpp promises them in every export; sections, lines and list items never reach tool descriptions. Partial: hidden entries influence no page (noninterference), advanced ones only the advanced help page and tool descriptions, all others appear in the order of registration."
  },
  {
   "property": "C44",
   "status": "proved",
   "theorems": [
    "Sharg.C44_escaping_is_safe_and_reversible"
   ],
   "note": "All five characters, including texts that already contain entities."
  },
  {
   "property": "C45",
   "status": "partial",
   "theorems": [
    "Sharg.C45_texts_are_not_escaped",
    "Sharg.C45_tags_are_not_balanced",
    "Sharg.C45_page_is_nested_partial",
    "Sharg.C45_title_is_escaped_partial"
   ],
   "note": "False: only the page title is escaped; angle brackets in a text or default, and fonts left on, break the nesting (witnesses). Partial: texts with nested fonts and without angle brackets give a properly nested page for every set-up; the title is always escaped."
  },
  {
   "property": "C46",
   "status": "partial",
   "theorems": [
    "Sharg.C46_pages_may_fail",
    "Sharg.C46_default_value_may_fail",
    "Sharg.C46_printable_texts",
    "Sharg.C46_pages_are_printed_partial",
    "Sharg.C46_synopsis_partial",
    "Sharg.C46_no_other_failures"
   ],
   "note": "False: cut off backslash sequences, unmatched \\fP in HTML, a synopsis line without blank (witnesses). Partial: all other texts; the man page exactly if the synopsis is fine; no other failures exist."
  },
  {
   "property": "C47",
   "status": "partial",
   "theorems": [
    "Sharg.C47_page_is_drawn_partial",
    "Sharg.C47_wrong_indentation",
    "Sharg.C47_wrapped_text_partial",
    "Sharg.C47_long_first_word_partial"
   ],
   "note": "False: if the first word does not fit, the second line is indented one column too far or is empty (witness). Partial: exact greedy wrapping otherwise, and the exact form in that case. C47_page_is_drawn_partial carries this to whole help pages: every line of the page is wrapped at column 4, what is said about list items at column 10, on a screen of the documented width."
  },
  {
   "property": "C48",
   "status": "partial",
   "theorems": [
    "Sharg.C48_width_differs",
    "Sharg.C48_width_of_markup_partial"
   ],
   "note": "False for a doubled or stray backslash and for the heading (C48_width_differs). Partial: texts whose backslashes start \\- or a font command."
  },
  {
   "property": "C49",
   "status": "partial",
   "theorems": [
    "Sharg.C49_description_starts_early",
    "Sharg.C49_layout_never_underflows",
    "Sharg.C49_list_item_partial"
   ],
   "note": "False: columns are computed from the marked up term, not from what is shown (witness). Underflow never happens: proved for all widths. Partial: exact layout of an item for terms without markup and for long terms."
  },
  {
   "property": "C50",
   "status": "proved",
   "theorems": [
    "Sharg.C50_line_decides",
    "Sharg.C50_C55_application_asks_once",
    "Sharg.C50_who_decides"
   ],
   "note": "For every checker that the constructor can make: the exact table. Lines of a cookie that are no plain number are read by an arbitrary function. C50_line_decides goes from the arguments to the end of parse(); in an application with subcommands at most one level asks the server (C50_C55_application_asks_once)."
  },
  {
   "property": "C51",
   "status": "partial",
   "theorems": [
    "Sharg.C51_never_is_permanent_partial",
    "Sharg.C51_answer_n_is_remembered",
    "Sharg.C51_never_is_forgotten"
   ],
   "note": "False: a cookie that cannot be written or read is forgotten (witness). Partial: for every history of runs of this and other apps, builds and times, as long as ~/.config/seqan is usable; the answer n is remembered."
  },
  {
   "property": "C52",
   "status": "partial",
   "theorems": [
    "Sharg.C52_simultaneous_requests",
    "Sharg.C52_a_day_between_requests_partial",
    "Sharg.C52_always_means_every_run",
    "Sharg.C52_old_always_cookie"
   ],
   "note": "False: a cookie with ALWAYS that is a day old is never refreshed, so every run sends a request (general theorem and witness). Partial: without ALWAYS, less than a day after the question no request is sent, for every history. Also false for two runs at the same time (witness with a schedule)."
  },
  {
   "property": "C53",
   "status": "proved",
   "theorems": [
    "Sharg.C53_parse_sends_name_and_version",
    "Sharg.C53_command_parts",
    "Sharg.C53_only_clean_names"
   ],
   "note": "For every run; and parse() calls the check only with proper names. The path in the command comes from HOME or the directory for temporary files, not from the developer; it is not quoted."
  },
  {
   "property": "C54",
   "status": "partial",
   "theorems": [
    "Sharg.C54_parse_message_partial",
    "Sharg.C54_message_text",
    "Sharg.C54_update_message_partial",
    "Sharg.C54_messages_for_developers",
    "Sharg.C54_large_numbers_ignored",
    "Sharg.C54_debug_build_silent",
    "Sharg.C54_one_line_read_twice"
   ],
   "note": "False: numbers of 2^31 and more count as 0, and debug builds never print the message (witnesses). Partial: exact for release builds and smaller numbers; exact messages of debug builds."
  },
  {
   "property": "C55",
   "status": "partial",
   "theorems": [
    "Sharg.C50_C55_application_asks_once",
    "Sharg.C55_switched_off_partial",
    "Sharg.C55_no_trace_partial",
    "Sharg.C55_parse_partial",
    "Sharg.C55_directories_created",
    "Sharg.C55_dummy_deleted"
   ],
   "note": "False: ~/.config/seqan is created and dummy.txt in it deleted (witness, general theorem). Partial: no command, no output, no other change on the disk, also for the whole of parse()."
  },
  {
   "property": "C56",
   "status": "partial",
   "theorems": [
    "Sharg.C56_ambiguous",
    "Sharg.C56_string_defaults_recoverable_partial",
    "Sharg.C56_integer_defaults_recoverable_partial",
    "Sharg.C56_bytes_in_lists",
    "Sharg.C56_char_defaults_recoverable"
   ],
   "note": "False for unquoted lists, for blanks on the console and for lists of one-byte integers (witnesses). Partial: strings and integers, single and in lists."
  },
  {
   "property": "C57",
   "status": "partial",
   "theorems": [
    "Sharg.C57_flag_group_text_differs",
    "Sharg.C57_flag_group_lists_every_flag_partial"
   ],
   "note": "False for every group: the blank before \"and\" is missing. Partial: exact text."
  },
  {
   "property": "C58",
   "status": "partial",
   "theorems": [
    "Sharg.C58_overflow_fails_assertion",
    "Sharg.C58_only_parser_errors_partial",
    "Sharg.C58_empty_enumeration_out_of_range",
    "Sharg.C58_empty_argv_undefined",
    "Sharg.C58_real_system_partial",
    "Sharg.C58_home_not_set",
    "Sharg.C58_parse_without_home",
    "Sharg.C58_no_temporary_directory",
    "Sharg.C58_test_file_not_removed"
   ],
   "note": "False: empty enumeration table, overflow in a list in debug builds, empty argv; on a real system also a missing HOME, no directory for temporary files, and a test file that cannot be removed (witnesses). Partial: complete list of the accidents, for arbitrary environments and for a real system with the modelled version check and pages."
  },
  {
   "property": "C59",
   "status": "partial",
   "theorems": [
    "Sharg.C59_inputs_untouched",
    "Sharg.C59_outside_kept",
    "Sharg.C59_create_new_moments",
    "Sharg.C59_open_or_create_new_moments",
    "Sharg.C59_open_or_create_existing_moments",
    "Sharg.C59_new_directory_moments",
    "Sharg.C59_existing_directory_moments",
    "Sharg.C59_create_new_leftover",
    "Sharg.C59_create_new_leftover_harmless",
    "Sharg.C59_open_or_create_again_partial",
    "Sharg.C59_new_directory_again_partial"
   ],
   "note": "False: killed between creating and deleting the test file, create_new rejects the same path in the next run (general theorem); an existing file in open_or_create mode is truncated or deleted (C41). Proved for every crash point: the exact list of possible disks for each mode, nothing outside the path changes, input checks change nothing. Partial: open_or_create and new directories are accepted again."
  },
  {
   "property": "C60",
   "status": "partial",
   "theorems": [
    "Sharg.C60_simultaneous_checks_partial",
    "Sharg.C60_never_held_up",
    "Sharg.C60_same_file_rejected",
    "Sharg.C60_same_file_deleted",
    "Sharg.C60_file_in_new_directory_deleted"
   ],
   "note": "False for the same path and for paths inside a checked directory: a good path is rejected, a file written in the meantime is deleted (three witnesses with schedules). Partial: for any number of programs, schedules and kills, checks of which none disturbs another give the verdict of a run alone and the disk is the expected one; every check ends after at most eight steps of its own."
  },
  {
   "property": "C61",
   "status": "partial",
   "theorems": [
    "Sharg.C61_never_with_others_partial",
    "Sharg.C61_never_lost_to_other_run",
    "Sharg.C61_never_lost_when_killed"
   ],
   "note": "False: a run that asked before NEVER was written overwrites it with ASK, and a run killed while writing the answer leaves an empty cookie (witnesses with schedules). Partial: with NEVER on the disk when the programs start, for any number of version checks and other programs that leave the cookie alone, any schedule and kills, NEVER stays and runs of the app send, ask and print nothing."
  },
  {
   "property": "C62",
   "status": "partial",
   "theorems": [
    "Sharg.C62_registrations_are_lost",
    "Sharg.C62_destroyed_is_undefined",
    "Sharg.C62_moved_before_registrations_partial",
    "Sharg.C62_moved_after_parse_partial",
    "Sharg.C62_assigned_registrations_are_lost",
    "Sharg.C62_moved_back_partial"
   ],
   "note": "False: the deferred operations refer to the old object; after a move the registrations made before it are lost, and if the old object is destroyed parse() runs into undefined behaviour (two general theorems); the same holds after move assignment, where the registrations of both objects are lost. Partial: a parser moved before the first registration, one moved after parse(), and one moved away and back into the same object work."
  },
  {
   "property": "C63",
   "status": "partial",
   "theorems": [
    "Sharg.C63_as_specified_partial",
    "Sharg.C63_nothing_after_range_error",
    "Sharg.C63_all_later_conversions_fail",
    "Sharg.C63_same_text_other_verdict",
    "Sharg.C63_only_float_values",
    "Sharg.C63_double_precision_lost",
    "Sharg.C63_accepts_what_strto_reads",
    "Sharg.C63_hexadecimal_cut",
    "Sharg.C63_exponent_formats",
    "Sharg.C63_exponent_behind_the_number",
    "Sharg.C63_buffer_overrun",
    "Sharg.C63_nearest_float",
    "Sharg.C63_day_within_a_minute_partial",
    "Sharg.C63_day_is_off"
   ],
   "note": "False: errno is not reset, so after one range error no text is accepted any more (general theorem); values of double and long double go through float (16777217 becomes 16777216; time stamps are off by up to 64 seconds); in hexadecimal format the last two characters are cut off; the buffer is overrun by long texts; white space and hexadecimal prefixes in front are accepted. Partial: in general format without an earlier range error, texts that strtod and from_chars read alike give the specified result if float represents the value. What is left of a natural number is the nearest number that float represents, ties to even (C63_nearest_float)."
  },
  {
   "property": "C64",
   "status": "partial",
   "theorems": [
    "Sharg.C64_mapping_exact",
    "Sharg.C64_usable_partial",
    "Sharg.C64_flags_are_not_mapped",
    "Sharg.C64_short_only_is_mapped_to_dashes",
    "Sharg.C64_names_clash",
    "Sharg.C64_meta_data",
    "Sharg.C64_scalar_defaults_partial",
    "Sharg.C64_list_defaults_are_false",
    "Sharg.C64_option_tags",
    "Sharg.C64_option_tags_exactly",
    "Sharg.C64_other_tags"
   ],
   "note": "False: flags are parameters without a mapping to the command line (general theorem); options with a short identifier only have an empty name and are mapped to \"--\", the end of the options (general theorem); names clash (two such options; long identifier positional_0); lists always have the default value false; flags have no advanced tag and positional options no file tags. Partial: tools without visible flags whose visible options have long identifiers other than positional_<n> have a usable description; scalar defaults, meta data, subcommand path and the tags of options are right."
  },
  {
   "property": "C65",
   "status": "partial",
   "theorems": [
    "Sharg.C65_integer_range",
    "Sharg.C65_real_range_not_told",
    "Sharg.C65_value_list_partial",
    "Sharg.C65_integer_list",
    "Sharg.C65_value_list_not_told",
    "Sharg.C65_file_texts_partial",
    "Sharg.C65_pattern",
    "Sharg.C65_pattern_accepts",
    "Sharg.C65_real_text",
    "Sharg.C65_real_range_partial",
    "Sharg.C65_wording"
   ],
   "note": "False: floating point bounds are shown with six digits; texts in lists are not quoted, so that [\"a\", \"b\"] and [\"a, b\"] have the same text, and [\"\"] and []. Proved for integer ranges and lists and for patterns; partial for floating point ranges (the text is the bound rounded to the nearest millionth, and determines the bounds up to a millionth) and for lists of texts and extensions that are not empty and contain no comma or closing bracket. C65_wording gives the texts in full."
  },
  {
   "property": "C66",
   "status": "partial",
   "theorems": [
    "Sharg.C66_default_read_back_partial",
    "Sharg.C66_char_default_rejected",
    "Sharg.C66_unnamed_default_rejected",
    "Sharg.C66_type_shown",
    "Sharg.C66_message_shown",
    "Sharg.C66_list_default_read_back_partial",
    "Sharg.C66_byte_list_rejected",
    "Sharg.C66_option_entry",
    "Sharg.C66_positional_entry"
   ],
   "note": "False: the default value of a char option is shown as a character, which is rejected as a value (numbers are read); so are the elements of lists of int8_t and uint8_t, although single values of these types are shown as numbers; enumerators without a name are shown as <UNKNOWN_VALUE>, which is rejected. Partial: texts, truth values, other integers and named enumerators, alone and in lists, can be read back at the level of parse(). Types, messages and the whole entries are shown as specified."
  },
  {
   "property": "C67",
   "status": "partial",
   "theorems": [
    "Sharg.C67_error_texts_partial",
    "Sharg.C67_texts_only",
    "Sharg.C67_enumeration_text_names_no_option",
    "Sharg.C67_rejected_list_has_wrong_number",
    "Sharg.C67_range_text_excludes_negative_numbers",
    "Sharg.C67_text_quotes_what_nobody_wrote",
    "Sharg.C67_subcommand_text_without_the_word"
   ],
   "note": "False in five places, each with a theorem: enumerations (the text does not name the option), a rejected positional list (wrong number), floating point ranges (the text excludes negative numbers), a value used up by another option (an empty text is quoted that nobody wrote), unknown subcommands (the word is not repeated). Partial: every text is one of the listed forms and its reason is true of the command line. Texts of validators and of type names are parameters."
  },
  {
   "property": "C68",
   "status": "proved",
   "theorems": [
    "Sharg.C68_outline",
    "Sharg.C68_version_page",
    "Sharg.C68_short_help_page",
    "Sharg.C68_copyright_page",
    "Sharg.C68_printed_to_standard_output"
   ],
   "note": "The layout within a line (indentation, breaks) is left open here (C47-C49); the texts of developer supplied elements are those of C43 and C66."
  },
  {
   "property": "C69",
   "status": "partial",
   "theorems": [
    "Sharg.C69_elements_are_placed",
    "Sharg.C69_own_lines_partial",
    "Sharg.C69_flags_share_a_line"
   ],
   "note": "False: print_text ends the line only if there was a word, so that a flag (or required option) without description and its successor share a line (C69_flags_share_a_line). C69_elements_are_placed gives the exact condition for every element; C69_own_lines_partial the positive statement for set-ups whose texts have words."
  },
  {
   "property": "C70",
   "status": "partial",
   "theorems": [
    "Sharg.C70_man_page_is_read_back_partial",
    "Sharg.C70_same_characters",
    "Sharg.C70_description_is_an_instruction",
    "Sharg.C70_description_begins_a_section"
   ],
   "note": "False: texts that begin with a dot or apostrophe are instructions, and line feeds begin new lines (C70_description_is_an_instruction, C70_description_begins_a_section). Partial: true if every text is a single non-empty line that does not begin with a blank, a dot or an apostrophe. The reading of man pages is described for the requests sharg uses; the arguments of .SH and .SS are not split into words; other escape sequences than fonts and \\- are not described."
  },
  {
   "property": "C71",
   "status": "partial",
   "theorems": [
    "Sharg.C71_texts_only",
    "Sharg.C71_query_texts_only",
    "Sharg.C71_sub_parser_text_only",
    "Sharg.C71_setup_texts_partial",
    "Sharg.C71_setup_texts_without_refusals_partial",
    "Sharg.C71_late_calls",
    "Sharg.C71_query_texts",
    "Sharg.C71_used_by_a_refused_call",
    "Sharg.C71_sub_parser_before_parse"
   ],
   "note": "False: an identifier \"already used before\" may come from a refused call (C71_used_by_a_refused_call, for every short identifier); get_sub_parser says that no subcommand was provided at the construction whenever parse() has not chosen one yet (C71_sub_parser_before_parse). Partial: every text is one of the listed ones with its true reason, where identifiers used before are those of all earlier calls; in full if no earlier call was refused (C71_setup_texts_without_refusals_partial); is_option_set in full (C71_query_texts). C71_texts_only, C71_query_texts_only and C71_sub_parser_text_only tie the functions with texts to those of the other properties."
  },
  {
   "property": "C72",
   "status": "partial",
   "theorems": [
    "Sharg.C72_thirteen_characters",
    "Sharg.C72_written_number_iff",
    "Sharg.C72_large_numbers_rounded",
    "Sharg.C72_buffer_partial",
    "Sharg.C72_large_numbers_share_their_text",
    "Sharg.C72_seven_digits",
    "Sharg.C72_small_numbers_come_back_partial"
   ],
   "note": "False: a fresh stream prints six significant digits, so that every number of eight digits and more shares its text with another number (C72_large_numbers_share_their_text). Partial: the use of the buffer in full generality (C72_buffer_partial); numbers of at most six digits come back (C72_small_numbers_come_back_partial); for float and double thirteen characters always suffice, and the text stands for the number if and only if the number is nearest to some decimal with at most six digits (C72_written_number_iff). For whole numbers of a million or more the text is determined: the closest number with six digits, ties to even, in the notation of %g (C72_large_numbers_rounded). The parser does not use to_chars."
  },
  {
   "property": "C73",
   "status": "partial",
   "theorems": [
    "Sharg.C73_one_value",
    "Sharg.C73_waits_three_seconds_at_most",
    "Sharg.C73_never_hangs",
    "Sharg.C73_no_check_no_waiting",
    "Sharg.C73_cut_off_after_three_seconds_partial",
    "Sharg.C73_cut_off_by_exit"
   ],
   "note": "The last claim is false: pages are ended by std::exit, which does not destroy the parser (C73_cut_off_by_exit). All others hold for all interleavings; C73_cut_off_after_three_seconds_partial is the last claim for programs that destroy the parser. wait_for is taken to return as soon as it may."
  },
  {
   "property": "C74",
   "status": "partial",
   "theorems": [
    "Sharg.C74_options_can_stand_anywhere_partial",
    "Sharg.C74_only_words_and_lists_have_an_order",
    "Sharg.C74_value_like_an_option"
   ],
   "note": "False if a value looks like an option (C74_value_like_an_option). Partial: on lines without such values options can be moved past everything, also if the line is wrong (C74_options_can_stand_anywhere_partial); on well-formed lines the same holds for flags (C74_only_words_and_lists_have_an_order)."
  },
  {
   "property": "C75",
   "status": "partial",
   "theorems": [
    "Sharg.C75_same_words",
    "Sharg.C75_exports_ignore_the_terminal",
    "Sharg.C75_same_width_same_page",
    "Sharg.C75_only_fonts_partial",
    "Sharg.C75_same_lines_partial",
    "Sharg.C75_copyright_only_fonts",
    "Sharg.C75_labels_count_fonts",
    "Sharg.C75_empty_date_differs"
   ],
   "note": "Same words on any two terminals and exports are proved in full. The last part is false: the font sequences of bold labels are counted when lines are broken (C75_labels_count_fonts), and an empty date leaves a blank behind (C75_empty_date_differs). Partial: every other part of the page is the same up to font sequences (C75_only_fonts_partial), and so is the page if the labelled lines fit (C75_same_lines_partial)."
  },
  {
   "property": "C76",
   "status": "proved",
   "theorems": [
    "Sharg.C76_only_pages_on_standard_output",
    "Sharg.C76_at_most_one_page",
    "Sharg.C76_same_page_for_every_command_line",
    "Sharg.C76_standard_error"
   ],
   "note": "Validators are code of the application; those of the library work on the file system only."
  },
  {
   "property": "C77",
   "status": "partial",
   "theorems": [
    "Sharg.C77_only_fixed_texts",
    "Sharg.C77_no_false_alarm_partial",
    "Sharg.C77_first_line_complete_partial",
    "Sharg.C77_cut_number_alarms",
    "Sharg.C77_cut_line_announces_sharg",
    "Sharg.C77_cut_line_announces_sharg_always"
   ],
   "note": "Only fixed texts: proved in full. Answers that are cut off: proved for release builds (numbers below 2^31, the first line a version or UNREGISTERED_APP), and for all builds if the first line has arrived with its end. False for builds with assertions: 1.2.13 cut off after 1.2.1 warns that the server knows only an older version (witness), and if the end of the first line is missing, the version of the app is announced as new version of Sharg (witness and general theorem)."
  },
  {
   "property": "C78",
   "status": "partial",
   "theorems": [
    "Sharg.C78_disk_partial",
    "Sharg.C78_cookie_in_current_directory",
    "Sharg.C78_locked_asks_every_time"
   ],
   "note": "Proved with a third place: the only changes are missing test files, the new directories ~/.config and ~/.config/seqan, and one cookie with one of three messages in ~/.config/seqan, the directory for temporary files or the current directory. False as stated: if ~/.config/seqan cannot be written, the cookie is written to the current directory, is never read, and the user is asked in every run (general theorems). What the command sent to the shell writes is not part of the model."
  },
  {
   "property": "C79",
   "status": "partial",
   "theorems": [
    "Sharg.C79_one_program_partial",
    "Sharg.C79_blank_in_home",
    "Sharg.C79_command_in_home"
   ],
   "note": "Partial: true if HOME and the directory for temporary files have no characters that mean something to a shell; names and versions are always harmless. False otherwise, because the path is not quoted: a blank in HOME sends the answer to another file and the rest of the path to the network (general theorem), and a command between semicolons in HOME is run (general theorem). The shell is described without quotes, expansions and groups."
  },
  {
   "property": "C80",
   "status": "partial",
   "theorems": [
    "Sharg.C80_last_registered_wins_partial",
    "Sharg.C80_flag_wins",
    "Sharg.C80_last_positional_wins",
    "Sharg.C80_nothing_given",
    "Sharg.C80_last_on_the_line_loses",
    "Sharg.C80_validator_is_evaded"
   ],
   "note": "Partial: true of variables none of whose options is given. Otherwise the line does not decide: of the given options the one registered last wins, a mentioned flag wins against all options, and the last positional option against everything (general theorems). Witnesses: the option that is last on the line loses, and a value stays that the validator of a given option rejects. Lines are the well-formed lines of C17."
  },
  {
   "property": "C81",
   "status": "partial",
   "theorems": [
    "Sharg.C81_one_reading",
    "Sharg.C81_only_well_formed_lines_partial",
    "Sharg.C81_accepted_exactly",
    "Sharg.C81_empty_argument_accepted",
    "Sharg.C81_dashed_group_accepted",
    "Sharg.C81_missing_value_accepted"
   ],
   "note": "Partial: for arguments that can be read in one way only (Spec.Clear: no empty argument, no dash inside a group of flags, no value of its own looking like an option, no list option with both identifiers, no flag-like word behind --) and, for the meaning, debug builds or representable list elements (C31). C81_accepted_exactly is an equivalence. C81_one_reading holds without restriction. Witnesses: an empty argument, a long flag inside a group and an option without value are accepted although the line is not well-formed."
  },
  {
   "property": "C82",
   "status": "partial",
   "theorems": [
    "Sharg.C82_application_line",
    "Sharg.C82_runs_end",
    "Sharg.C82_runs_unique",
    "Sharg.C82_every_argument_has_its_level",
    "Sharg.C82_only_well_formed_levels_partial"
   ],
   "note": "Partial: the converse (C82_only_well_formed_levels_partial) is for arguments that can be read in one way only (Spec.Clear, see C81); the other theorems have no restriction. Where code registers the options of a sub-parser is not modelled beyond the list of calls; the application goes on with the sub-parser whenever there is one."
  },
  {
   "property": "C83",
   "status": "proved",
   "theorems": [
    "Sharg.C83_accepted_exactly",
    "Sharg.C83_out_of_range",
    "Sharg.C83_floats_exact",
    "Sharg.C83_option_holds_nearest",
    "Sharg.C83_list_holds_nearest",
    "Sharg.C83_nearest",
    "Sharg.C83_order_kept",
    "Sharg.C83_same_number_same_value",
    "Sharg.C83_one_value",
    "Sharg.C83_exact_numbers",
    "Sharg.C83_accepted_numbers",
    "Sharg.C83_integers_exact",
    "Sharg.C83_C36_value_in_interval",
    "Sharg.C83_C36_values_in_interval"
   ],
   "note": "std::from_chars for floating point numbers is part of the standard library; its model (Model/Float.lean) follows [charconv.from.chars] and IEEE 754 and is trusted to describe it, in particular that underflow to 0 is out of range (as in libstdc++). long double is not covered."
  },
  {
   "property": "C84",
   "status": "partial",
   "theorems": [
    "Sharg.C84_shown_number_partial",
    "Sharg.C84_notation",
    "Sharg.C84_six_digits_shown_as_written",
    "Sharg.C84_reads_back_iff",
    "Sharg.C84_smallest_numbers_come_back",
    "Sharg.C84_shown_text_accepted",
    "Sharg.C84_infinity_and_nan",
    "Sharg.C84_on_the_page",
    "Sharg.C84_default_given_back_iff",
    "Sharg.C84_shown_as_another_number"
   ],
   "note": "False: a stream writes six significant digits, so that 1234567 is shown as 1.23457e+06 (C84_shown_as_another_number). Partial: the shown number has at most six digits and differs by at most five millionths of the value (C84_shown_number_partial); it is always accepted (C84_shown_text_accepted, float and double); exactly those numbers are read back that are nearest to some decimal with at most six digits (C84_reads_back_iff, at the level of parse() C84_default_given_back_iff); the shown number is the closest one with six digits, ties to even, in the shortest notation (C84_notation); infinity and NaN are read as such. operator<< for floating point numbers belongs to the standard library; Model/FloatShow.lean describes it as %g of printf. Missing: long double."
  },
  {
   "property": "C85",
   "status": "partial",
   "theorems": [
    "Sharg.C85_accepted_exactly",
    "Sharg.C85_verbatim_partial",
    "Sharg.C85_other_names_cannot_be_given",
    "Sharg.C85_blanks_in_front_dropped",
    "Sharg.C85_paths_exact",
    "Sharg.C85_only_nameable_paths",
    "Sharg.C85_option_holds_path",
    "Sharg.C85_list_holds_paths",
    "Sharg.C85_positionals_only_nameable_paths",
    "Sharg.C85_name_with_blank_rejected",
    "Sharg.C85_quoted_name_rejected",
    "Sharg.C85_default_on_the_page"
   ],
   "note": "False: paths are read with operator>>, which reads a word or a text between quotation marks. Whatever the arguments are, after parse() has returned a path option that was given and every positional path option hold names that are not empty, have no blanks and do not begin with a quotation mark (C85_only_nameable_paths, C85_positionals_only_nameable_paths); a name with a blank ends with user_input_error and leaves the first part in the variable (C85_name_with_blank_rejected), and so does a quoted name, because the end of the text is not noticed (C85_quoted_name_rejected); blanks in front are dropped, so that another file is named (C85_blanks_in_front_dropped). Partial: all other names are read as written (C85_verbatim_partial), and the accepted texts are described exactly, at the level of parse() for scalars and lists. The text the help page shows for a default path is never accepted (C85_default_on_the_page). operator>> and operator<< of paths belong to the standard library; Model/PathValue.lean describes them as specified (std::quoted)."
  },
  {
   "property": "C86",
   "status": "partial",
   "theorems": [
    "Sharg.C86_who_leaves_others",
    "Sharg.C86_input_files_usable_beside_partial",
    "Sharg.C86_input_directories_usable_beside_partial",
    "Sharg.C86_output_files_free_beside_partial",
    "Sharg.C86_output_directories_usable_partial",
    "Sharg.C86_other_files_unchanged_partial",
    "Sharg.C86_input_in_output_directory_is_deleted",
    "Sharg.C86_real_check_well_formed",
    "Sharg.C86_who_leaves_files",
    "Sharg.C86_input_files_usable_partial",
    "Sharg.C86_input_directories_usable_partial",
    "Sharg.C86_output_files_free_partial",
    "Sharg.C86_output_is_no_input_partial",
    "Sharg.C86_files_unchanged_partial",
    "Sharg.C86_input_given_as_output_is_deleted"
   ],
   "note": "False with output_file_open_options::open_or_create: a file given for such an output does not exist any more when parse() returns, and if it was given for an input too, the input is gone although its validator accepted it (C86_input_given_as_output_is_deleted, for all programs whose other validators leave the files alone). Partial: for programs whose validators leave the files alone (input_file_validator, input_directory_validator, output_file_validator with create_new: C86_who_leaves_files, and validators of the user) everything holds, for options and positional options, scalars and lists, for every argument vector (C86_input_files_usable_partial, C86_input_directories_usable_partial, C86_output_files_free_partial, C86_output_is_no_input_partial, C86_files_unchanged_partial). With output_directory_validator the same holds for every path that is not called dummy.txt and does not go through such a directory, and the output directories can be used (C86_..._beside_partial, C86_output_directories_usable_partial, C86_other_files_unchanged_partial); an input called dummy.txt in an output directory is deleted (C86_input_in_output_directory_is_deleted). The real version check leaves a well-formed disk (C86_real_check_well_formed). Other processes: see C60. Two outputs may be the same file (example)."
  },
  {
   "property": "C87",
   "status": "proved",
   "theorems": [
    "Sharg.C87_parsers_do_not_interfere",
    "Sharg.C87_value_validators",
    "Sharg.C87_other_variables_untouched",
    "Sharg.C87_other_variables_unread",
    "Sharg.C87_pages_on_a_real_system"
   ],
   "note": "Proved as an unwinding theorem: for every relation R between worlds that the parser cannot tell apart and every set V of its variables (C87_parsers_do_not_interfere); with validators that look at values only the other parsers may do anything (C87_value_validators). Unregistered variables: C87_other_variables_untouched, C87_other_variables_unread (on a real system with pages and version check). The relation of the version checks of two apps on a real system (both make the same directory for cookies) is left to the hypothesis of the general theorem; the replacement of from_chars shares errno, see C63; moved objects see C62."
  },
  {
   "property": "C88",
   "status": "partial",
   "theorems": [
    "Sharg.C88_name_tells_values_partial",
    "Sharg.C88_only_promised_values_accepted",
    "Sharg.C88_other_values_reported",
    "Sharg.C88_message_and_page_agree",
    "Sharg.C88_limits_in_message",
    "Sharg.C88_names_differ",
    "Sharg.C88_char_is_read_as_number",
    "Sharg.C88_char_accepts_numbers",
    "Sharg.C88_path_with_blank",
    "Sharg.C88_long_long"
   ],
   "note": "False for char, which is read as a number (C88_char_is_read_as_number, C88_char_accepts_numbers), and for paths with blanks (C88_path_with_blank). Partial: exactly the promised texts for the integers of fixed width, float, double, bool and std::string (C88_name_tells_values_partial), also for whole command lines (C88_only_promised_values_accepted, C88_other_values_reported). Messages and pages use the same name for every type (C88_message_and_page_agree), limits are right (C88_limits_in_message), names differ (C88_names_differ). Enumerations and other types are called by the name the compiler gives them, long long too (C88_long_long)."
  },
  {
   "property": "C89",
   "status": "partial",
   "theorems": [
    "Sharg.C89_blank_in_front_of_value_optional_partial",
    "Sharg.C89_hyphen_is_a_word",
    "Sharg.C89_group_with_option_rejected",
    "Sharg.C89_registered_option_called_unknown",
    "Sharg.C89_hyphen_delivered"
   ],
   "note": "Groups: C24_flag_groups_can_be_split. Values: C89_blank_in_front_of_value_optional_partial, for lines without values or other arguments that look like options; unlike C19 an option may occur with both identifiers. Double dash: C15 (with its exceptions). A single hyphen is an ordinary word (C89_hyphen_is_a_word, C89_hyphen_delivered), contrary to the remark in the documentation. A group that ends with an option is always rejected (C89_group_with_option_rejected), with a text that calls the registered option unknown (C89_registered_option_called_unknown)."
  },
  {
   "property": "C90",
   "status": "partial",
   "theorems": [
    "Sharg.C90_every_part_matches_partial",
    "Sharg.C90_plain_names_partial",
    "Sharg.C90_absolute_paths_rejected",
    "Sharg.C90_patterns_for_directories_reject_everything",
    "Sharg.C90_unmatched_path_accepted",
    "Sharg.C90_parsed_paths_partial",
    "Sharg.C90_parsed_texts",
    "Sharg.C90_not_the_whole_path"
   ],
   "note": "Texts: C90_parsed_texts, with C65_pattern_accepts for the validator. Paths: false. A std::filesystem::path is a range of its parts, and overload resolution prefers operator() for ranges, so that the parts are matched instead of the path (C90_every_part_matches_partial, C90_parsed_paths_partial). So absolute paths are rejected (C90_absolute_paths_rejected), the pattern for absolute files in the documentation rejects everything (C90_patterns_for_directories_reject_everything), and paths that do not match are accepted (C90_unmatched_path_accepted, C90_not_the_whole_path). Right for paths without slashes (C90_plain_names_partial) and for lists of paths. The overload resolution itself is not modelled but built into regexAtPaths."
  },
  {
   "property": "C91",
   "status": "partial",
   "theorems": [
    "Sharg.C91_variables_usable",
    "Sharg.C91_some_season_partial",
    "Sharg.C91_directories_must_match",
    "Sharg.C91_line_works_partial",
    "Sharg.C91_no_season_in_release",
    "Sharg.C91_files_elsewhere_rejected"
   ],
   "note": "C91_variables_usable for what parse() guarantees to run_program. At least one season: with assertions (C91_some_season_partial), not in release builds, where the required option may leave an empty list (C91_no_season_in_release). Lines are accepted in every spelling if every part of the path matches the pattern (C91_line_works_partial); files in other directories are rejected (C91_directories_must_match, C91_files_elsewhere_rejected), an instance of C90. The pattern is a fixed predicate, proved equivalent to SeasonsText; the rest of run_program is not modelled."
  },
  {
   "property": "C92",
   "status": "partial",
   "theorems": [
    "Sharg.C92_sub_parser_partial",
    "Sharg.C92_forgotten_subcommand_not_noticed",
    "Sharg.C92_mygit_endings",
    "Sharg.C92_mygit_pulls",
    "Sharg.C92_mygit_pushes",
    "Sharg.C92_mygit_terminated",
    "Sharg.C92_no_sub_parser"
   ],
   "note": "False: C92_no_sub_parser and C92_mygit_terminated (`mygit -f` leaves main with a design_error, whose text blames the construction: C92_forgotten_subcommand_not_noticed, for every parser and every line of options and flags). C92_sub_parser_partial: otherwise the sub-parser is the one of the first word that is no value, with the arguments behind it. C92_mygit_endings: nothing else goes wrong in the program; C92_mygit_pulls and C92_mygit_pushes: lines for pull and push do what they say. The lines with `-f` in other places or with version-check are not in the last two."
  },
  {
   "property": "C93",
   "status": "proved",
   "theorems": [
    "Sharg.C93_alive_validators",
    "Sharg.C93_alive_check",
    "Sharg.C93_killed_steps",
    "Sharg.C93_killed_anywhere",
    "Sharg.C93_others_survive",
    "Sharg.C93_no_invented_text",
    "Sharg.C93_nothing_after_death"
   ],
   "note": "C93_killed_anywhere, for sequences of runs that each die after any number of steps or live; C93_others_survive and C93_no_invented_text are its readings for one file. The named outputs are not safe: the examples show an existing file that is empty after 22 steps and gone after 23, whether or not the program is killed (C41). C93_alive_validators and C93_alive_check: a program that lives does what the validators and the version check of the other properties do; C93_killed_steps: one that dies does the first steps of C59 and C60; C93_nothing_after_death. Validators that are neither those for paths nor leave the files alone are excluded. Which part of an argument is the path is over-approximated: any end of it for options, any sub-sequence for positional options."
  },
  {
   "property": "C94",
   "status": "partial",
   "theorems": [
    "Sharg.C94_what_a_text_decides_partial",
    "Sharg.C94_truncated_cookie_is_replaced",
    "Sharg.C94_garbage_is_replaced",
    "Sharg.C94_young_silences",
    "Sharg.C94_future_cookie_silences",
    "Sharg.C94_infinity_silences_forever"
   ],
   "note": "False for a time in the future, which silences the app until a day after that time (C94_future_cookie_silences), and for a first line that begins with inf in any case, such as Info, which silences it forever (C94_infinity_silences_forever). Partial: C94_what_a_text_decides_partial says for every text what the next run does; C94_truncated_cookie_is_replaced: each beginning of a written cookie is replaced when its day is over; C94_garbage_is_replaced. The age is computed as the code does, in double, and compared with the rational numbers (Young). Clocks after 2^53 seconds are excluded."
  },
  {
   "property": "C95",
   "status": "partial",
   "theorems": [
    "Sharg.C95_recipe_delivers_partial",
    "Sharg.C95_every_value_can_be_given_partial",
    "Sharg.C95_expressible",
    "Sharg.C95_no_empty_word",
    "Sharg.C95_word_with_flag_sets_it",
    "Sharg.C95_no_reserved_word",
    "Sharg.C95_no_empty_list"
   ],
   "note": "C95_recipe_delivers_partial (for texts) and C95_every_value_can_be_given_partial (for values; C95_expressible says which values have texts): one argument --key=V per value, one per flag, --, the words. False in four cases, which are shown to be real for all command lines: a positional option never holds an empty text (C95_no_empty_word), nor a word containing a flag in flag position without the flag being set (C95_word_with_flag_sets_it), nor, in programs without options and flags, a predefined request (C95_no_reserved_word); a list option with a default cannot be emptied (C95_no_empty_list). Programs in which two registrations share a variable, a long-only flag is called version-check, or there are subcommands are excluded."
  },
  {
   "property": "C96",
   "status": "partial",
   "theorems": [
    "Sharg.C96_older_accepted",
    "Sharg.C96_upgrade_partial",
    "Sharg.C96_upgrade_line_partial",
    "Sharg.C96_appended_partial",
    "Sharg.C96_appended_line_partial",
    "Sharg.C96_required_breaks",
    "Sharg.C96_inserted_option_takes_value",
    "Sharg.C96_new_flag_changes_word"
   ],
   "note": "C96_upgrade_partial and C96_upgrade_line_partial: the same end for every line, also erroneous ones, on which nothing could be taken for a new option or flag. C96_appended_partial and C96_appended_line_partial: if the new options come behind the old ones, every line that worked goes on working, also if values begin like new options. C96_older_accepted: the set-up without the new calls is accepted. The conditions cannot be dropped: a new option registered in front of an old one takes its value (C96_inserted_option_takes_value), a new flag takes letters out of words behind -- (C96_new_flag_changes_word), a required one breaks all lines (C96_required_breaks). For help pages only the choice of the page is compared, not its text."
  },
  {
   "property": "C97",
   "status": "partial",
   "theorems": [
    "Sharg.C97_pages",
    "Sharg.C97_parse_partial",
    "Sharg.C97_values",
    "Sharg.C97_broken_flag_is_invalid",
    "Sharg.C97_unknown_flags_text_is_invalid",
    "Sharg.C97_umlaut_flag_breaks_message"
   ],
   "note": "C97_pages, C97_values: proved (tool descriptions: all texts handed to the tdl library are valid; provided that it writes valid text from them). C97_parse_partial: values, arguments of subcommands and messages; missing is the message about a group of unknown flags, which takes every byte for a flag: C97_unknown_flags_text_is_invalid for every group with a character outside ASCII, C97_umlaut_flag_breaks_message for a program called with -ä. C97_parse_partial shows that no other message is invalid. Texts of validators and conversions of user-defined types are assumed to keep texts valid (EntryUtf8)."
  },
  {
   "property": "C98",
   "status": "partial",
   "theorems": [
    "Sharg.C98_same_blame_partial",
    "Sharg.C98_parse_blames_iff",
    "Sharg.C98_setup_calls_blame_the_developer",
    "Sharg.C98_user_errors",
    "Sharg.C98_applications",
    "Sharg.C98_real_system",
    "Sharg.C98_get_sub_parser_blames_the_developer",
    "Sharg.C98_shared_flag_blames_the_developer"
   ],
   "note": "C98_same_blame_partial: all set-up calls, parse() and is_option_set(); missing is get_sub_parser(), which throws design_error on lines without a subcommand (C98_get_sub_parser_blames_the_developer), and flags that share a variable: a flag set by the user in front of the subcommand makes add_flag of the sub-parser throw design_error (C98_shared_flag_blames_the_developer; the value of the variable is an argument of the modelled call). C98_parse_blames_iff, C98_user_errors, C98_setup_calls_blame_the_developer, C98_applications: proved for all environments whose version check and pages do not throw design_error, which C98_real_system shows for the modelled ones."
  },
  {
   "property": "C99",
   "status": "partial",
   "theorems": [
    "Sharg.C99_setup_accepted",
    "Sharg.C99_accepts_more_partial",
    "Sharg.C99_same_pages",
    "Sharg.C99_rejects_less_partial",
    "Sharg.C99_loosens_onIntegers",
    "Sharg.C99_loosens_arithmetic_range",
    "Sharg.C99_loosens_value_list",
    "Sharg.C99_loosens_chain",
    "Sharg.C99_loosens_none",
    "Sharg.C99_widened_list_changes_in_release",
    "Sharg.C99_widened_list_rejects_in_release"
   ],
   "note": "C99_accepts_more_partial: everything but lists of a wider integer type in release builds, where an element that did not fit was dropped silently and is now kept (C99_widened_list_changes_in_release) or rejected by the same validator (C99_widened_list_rejects_in_release). C99_setup_accepted and C99_same_pages have the same hypothesis. C99_loosens_*: wider arithmetic ranges, longer value lists and dropped chained validators are looser."
  },
  {
   "property": "C100",
   "status": "proved",
   "theorems": [
    "Sharg.C100_ending",
    "Sharg.C100_declared_identifiers",
    "Sharg.C100_one_ending",
    "Sharg.C100_first_mistake"
   ],
   "note": "C100_ending is an equivalence with the inductive description LineEnds, for lines without requests whose arguments other than options cannot be taken for options and whose groups of flags have no dash inside; C100_one_ending: the description covers each line exactly once; C100_first_mistake holds for lines with any other arguments."
  },
  {
   "property": "C101",
   "status": "proved",
   "theorems": [
    "Sharg.C101_call",
    "Sharg.C101_call_has_ending",
    "Sharg.C101_application",
    "Sharg.C101_application_ending",
    "Sharg.C101_mistake_stops"
   ],
   "note": "C101_call and C101_call_has_ending: CallEnds is right and complete; C101_application_ending: equivalence of AppEnds and the run of the application; C101_mistake_stops: levels behind a mistake are not reached."
  },
  {
   "property": "C102",
   "status": "proved",
   "theorems": [
    "Sharg.C102_one_stage_to_blame",
    "Sharg.C102_progress",
    "Sharg.C102_bounded_corrections",
    "Sharg.C102_same_texts",
    "Sharg.C102_same_options_and_flags"
   ],
   "note": "C102_one_stage_to_blame, C102_progress, C102_bounded_corrections; C102_same_texts and C102_same_options_and_flags say when nothing changes for the stages in front. The lines are those of C100 (NeatLine, LooseGiven)."
  },
  {
   "property": "C103",
   "status": "partial",
   "theorems": [
    "Sharg.C103_one_meaning",
    "Sharg.C103_regex_match",
    "Sharg.C103_accepts",
    "Sharg.C103_parsed_texts",
    "Sharg.C103_name_pattern",
    "Sharg.C103_version_pattern",
    "Sharg.C103_tutorial_pattern",
    "Sharg.C103_own_version",
    "Sharg.C103_malformed",
    "Sharg.C103_unreadable_pattern_partial",
    "Sharg.C103_mistake_blamed_on_the_user",
    "Sharg.C103_email_pattern",
    "Sharg.C103_absolute_pattern",
    "Sharg.C103_documented_pattern_rejects_all_paths"
   ],
   "note": "C103_one_meaning, C103_regex_match, C103_accepts, C103_parsed_texts; C103_name_pattern, C103_version_pattern, C103_own_version, C103_tutorial_pattern and C103_email_pattern for the patterns in the code and its documentation. The last sentence is false: std::regex is constructed when a value is checked (validators.hpp line 999) and std::regex_error is caught as std::exception by get_option, so the value is blamed (C103_mistake_blamed_on_the_user, C103_unreadable_pattern_partial). std::regex itself is modelled after the standard; backreferences, look-ahead, word boundaries, characters by number and collating elements are not covered, and limits of implementations are left out. With C103_absolute_pattern, C90 applies to the pattern of the documentation: an option of type std::filesystem::path with it accepts no path (C103_documented_pattern_rejects_all_paths)."
  },
  {
   "property": "C104",
   "status": "partial",
   "theorems": [
    "Sharg.C104_both_checks",
    "Sharg.C104_parsed_texts_partial",
    "Sharg.C104_leaves_files",
    "Sharg.C104_accepted_names",
    "Sharg.C104_ending",
    "Sharg.C104_one_ending",
    "Sharg.C104_name_passed_partial",
    "Sharg.C104_no_name_passes",
    "Sharg.C104_root_directory_rejected",
    "Sharg.C104_line_breaks_rejected"
   ],
   "note": "C104_both_checks, C104_leaves_files, C104_accepted_names, C104_ending, C104_one_ending. C104_parsed_texts_partial: the other validators of the program must leave the files alone (C86 otherwise). The last two clauses are false: the option is not required, so without it the program reports the empty name as validated (C104_no_name_passes; C104_name_passed_partial says that every name that is not empty passed, for all lines), and the pattern demands a directory in front of the file name, so files in the root directory are rejected (C104_root_directory_rejected), as are names with line breaks (C104_line_breaks_rejected)."
  },
  {
   "property": "C105",
   "status": "partial",
   "theorems": [
    "Sharg.C105_endings_partial",
    "Sharg.C105_never_finishes",
    "Sharg.C105_right_lines_partial",
    "Sharg.C105_short_name",
    "Sharg.C105_long_name",
    "Sharg.C105_documented_program_terminated"
   ],
   "note": "C105_endings_partial determines the end for every line. The statement is false: the second option asked about was never added, the question is outside of the try block, and so the program never reaches its end (C105_never_finishes, C105_documented_program_terminated): whenever parse() returns, an uncaught design_error terminates it. Whether -a is reported: C105_right_lines_partial for all well-formed lines, C105_short_name and C105_long_name for every number and spelling; --aint 5 sets the same option but is not reported."
  },
  {
   "property": "C106",
   "status": "partial",
   "theorems": [
    "Sharg.C106_only_marker",
    "Sharg.C106_bare_ends_partial",
    "Sharg.C106_endings",
    "Sharg.C106_show_needs_marker",
    "Sharg.C106_pull_and_push",
    "Sharg.C106_set_url",
    "Sharg.C106_show",
    "Sharg.C106_show_alone_never_runs"
   ],
   "note": "C106_bare_ends_partial determines how parse() ends if nothing is registered (arguments without requests), C106_only_marker what was accepted, for all arguments. C106_endings, C106_pull_and_push, C106_set_url, C106_show: the program. Two clauses are false: with no arguments a command without registrations prints the short help instead of returning (first part of C106_bare_ends_partial), so git remote show never runs (C106_show_alone_never_runs, in no environment); it needs an empty argument or -- behind it (C106_show_needs_marker, a consequence of C106_only_marker)."
  }
 ]
}
