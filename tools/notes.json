{
 "C01": {
  "note": "For every history of set-up and parse calls with caught exceptions."
 },
 "C02": {
  "note": "Acceptance iff the documented rules, on histories without rejected calls."
 },
 "C03": {
  "note": "False for the code: identifiers of a rejected call stay reserved (C03_rejected_call_leaves_a_trace). Partial: no trace if the identifiers are not used again (observational equivalence of histories). A rejected option also hides requests behind it (C03_rejected_option_hides_help)."
 },
 "C04": {
  "note": ""
 },
 "C05": {
  "note": "False for subcommands added after positional options (C05_mixing_is_possible). Partial: the positional rules for all histories, and no mixing if add_subcommands is not called after a positional option."
 },
 "C06": {
  "note": ""
 },
 "C07": {
  "note": "Bad names stop parse() first; names are clean at every nesting depth."
 },
 "C08": {
  "note": "False for --version-check (id not reserved) and for subcommands named like a request. Partial: all other predefined options. The requests are followed to the end of parse()."
 },
 "C09": {
  "note": ""
 },
 "C10": {
  "note": ""
 },
 "C11": {
  "note": ""
 },
 "C12": {
  "note": "From the accepted add_option calls of any history to what parse() hands to the option parser."
 },
 "C13": {
  "note": "Also nested sub-parsers, by induction over the chain."
 },
 "C14": {
  "note": ""
 },
 "C15": {
  "note": "False for requests behind -- (obeyed) and for characters that are short flags (taken). Partial: verbatim delivery if no argument behind -- is reserved or contains a registered short flag in flag position."
 },
 "C16": {
  "note": ""
 },
 "C17": {
  "note": "Round trip over the item grammar; C17_only_meaningful_lines_partial is the converse for lines of that grammar. C17_C23_mixed_lines: both directions for lines on which a list option is given with both its identifiers."
 },
 "C18": {
  "note": ""
 },
 "C19": {
  "note": "False if both identifiers of a list option are used, and for the kind of exception (witnesses). Partial: equivalence of outcome, variables and world for each list option spelled uniformly."
 },
 "C20": {
  "note": "False in one accident (-a- sets a flag without long id that was not given). Partial: a changed variable belongs to an option that is named, a flag that is seen or a positional."
 },
 "C21": {
  "note": ""
 },
 "C22": {
  "note": ""
 },
 "C23": {
  "note": "False if both identifiers are used (witness). Partial: all values in order if one identifier is used. C23_short_values_ignored, C17_C23_mixed_lines, C23_long_values_only: for every line exactly what happens otherwise - the values given with the short identifier are read but have no effect."
 },
 "C24": {
  "note": ""
 },
 "C25": {
  "note": ""
 },
 "C26": {
  "note": ""
 },
 "C27": {
  "note": ""
 },
 "C28": {
  "note": "False: -p -o x with o registered before p silently gives p an empty value (witness). Partial: C28_missing_value_ending_partial gives the exception and the variables exactly for an identifier without value (last, in front of --, or -k= / --key= anywhere) on lines whose other options are written unambiguously; C28_reported_partial: too_few_arguments if nothing comes earlier; on any line: C28_missing_value_reported_partial; no empty attached value ever."
 },
 "C29": {
  "note": "Accepted texts and values exactly; every number in range is read back from its decimal form."
 },
 "C30": {
  "note": "Booleans and enumerators exactly. False for an empty table of names: std::out_of_range is thrown instead of user_input_error.",
  "status": "partial"
 },
 "C31": {
  "note": "False in release builds for numbers out of range (witness). Partial otherwise."
 },
 "C32": {
  "note": "False (witnesses). Partial: failures before the options are read, and all pages, leave all variables alone; on every line of declared identifiers only variables of given options, mentioned flags and positional options change; options behind a mistake, flags and positional options keep their values. The exact content of all variables after an exception: C100."
 },
 "C33": {
  "note": ""
 },
 "C34": {
  "note": "On well-formed lines."
 },
 "C35": {
  "note": "False for values that look like the identifier and for flags inside a group (C35_other_answers). Partial: exact meaning in terms of the raw arguments, and on well-formed lines."
 },
 "C36": {
  "note": "Proved for values of the type of the bounds. False for values of another arithmetic type, which are converted first (20.9 passes [1,20], 1e10 is undefined, 261 passes uint8_t [0,10]). Partial: error less than one for fractional values."
 },
 "C37": {
  "note": "For values of the listed type; with an implicit conversion in front the converted value counts (C37_converted_value_accepted).",
  "status": "partial"
 },
 "C38": {
  "note": "Also for validators with side effects; also the help text."
 },
 "C39": {
  "note": "False: no dot is required in front of the extension, and a hidden file without further dot is rejected (witnesses). Partial: exact characterisation."
 },
 "C40": {
  "note": ""
 },
 "C41": {
  "note": "create_new: proved. open_or_create: false, an existing file or device is deleted, also if it is rejected (general theorem); partial: paths where nothing is. The open_or_create mode accepts exactly the paths of a new theorem (C41_open_or_create_accepts_exactly)."
 },
 "C42": {
  "note": "False: an existing dummy.txt is deleted (general theorem). Partial: everything else is kept; no dummy.txt: nothing changes; new directories: nothing changes."
 },
 "C44": {
  "note": "All five characters, including texts that already contain entities."
 },
 "C48": {
  "note": "False for a doubled or stray backslash and for the heading (C48_width_differs). Partial: texts whose backslashes start \\- or a font command."
 },
 "C56": {
  "note": "False for unquoted lists, for blanks on the console and for lists of one-byte integers (witnesses). Partial: strings and integers, single and in lists."
 },
 "C57": {
  "note": "False for every group: the blank before \"and\" is missing. Partial: exact text."
 },
 "C58": {
  "note": "False: empty enumeration table, overflow in a list in debug builds, empty argv; on a real system also a missing HOME, no directory for temporary files, and a test file that cannot be removed (witnesses). Partial: complete list of the accidents, for arbitrary environments and for a real system with the modelled version check and pages."
 },
 "C45": {
  "note": "False: only the page title is escaped; angle brackets in a text or default, and fonts left on, break the nesting (witnesses). Partial: texts with nested fonts and without angle brackets give a properly nested page for every set-up; the title is always escaped."
 },
 "C46": {
  "note": "False: cut off backslash sequences, unmatched \\fP in HTML, a synopsis line without blank (witnesses). Partial: all other texts; the man page exactly if the synopsis is fine; no other failures exist."
 },
 "C47": {
  "note": "False: if the first word does not fit, the second line is indented one column too far or is empty (witness). Partial: exact greedy wrapping otherwise, and the exact form in that case. C47_page_is_drawn_partial carries this to whole help pages: every line of the page is wrapped at column 4, what is said about list items at column 10, on a screen of the documented width."
 },
 "C49": {
  "note": "False: columns are computed from the marked up term, not from what is shown (witness). Underflow never happens: proved for all widths. Partial: exact layout of an item for terms without markup and for long terms."
 },
 "C50": {
  "note": "For every checker that the constructor can make: the exact table. Lines of a cookie that are no plain number are read by an arbitrary function. C50_line_decides goes from the arguments to the end of parse(); in an application with subcommands at most one level asks the server (C50_C55_application_asks_once)."
 },
 "C51": {
  "note": "False: a cookie that cannot be written or read is forgotten (witness). Partial: for every history of runs of this and other apps, builds and times, as long as ~/.config/seqan is usable; the answer n is remembered."
 },
 "C52": {
  "note": "False: a cookie with ALWAYS that is a day old is never refreshed, so every run sends a request (general theorem and witness). Partial: without ALWAYS, less than a day after the question no request is sent, for every history. Also false for two runs at the same time (witness with a schedule)."
 },
 "C53": {
  "note": "For every run; and parse() calls the check only with proper names. The path in the command comes from HOME or the directory for temporary files, not from the developer; it is not quoted."
 },
 "C54": {
  "note": "False: numbers of 2^31 and more count as 0, and debug builds never print the message (witnesses). Partial: exact for release builds and smaller numbers; exact messages of debug builds."
 },
 "C55": {
  "note": "False: ~/.config/seqan is created and dummy.txt in it deleted (witness, general theorem). Partial: no command, no output, no other change on the disk, also for the whole of parse()."
 },
 "C43": {
  "note": "False: advanced options are missing in HTML and man page exports although config.hpp promises them in every export; sections, lines and list items never reach tool descriptions. Partial: hidden entries influence no page (noninterference), advanced ones only the advanced help page and tool descriptions, all others appear in the order of registration."
 },
 "C59": {
  "note": "False: killed between creating and deleting the test file, create_new rejects the same path in the next run (general theorem); an existing file in open_or_create mode is truncated or deleted (C41). Proved for every crash point: the exact list of possible disks for each mode, nothing outside the path changes, input checks change nothing. Partial: open_or_create and new directories are accepted again."
 },
 "C60": {
  "note": "False for the same path and for paths inside a checked directory: a good path is rejected, a file written in the meantime is deleted (three witnesses with schedules). Partial: for any number of programs, schedules and kills, checks of which none disturbs another give the verdict of a run alone and the disk is the expected one; every check ends after at most eight steps of its own."
 },
 "C61": {
  "note": "False: a run that asked before NEVER was written overwrites it with ASK, and a run killed while writing the answer leaves an empty cookie (witnesses with schedules). Partial: with NEVER on the disk when the programs start, for any number of version checks and other programs that leave the cookie alone, any schedule and kills, NEVER stays and runs of the app send, ask and print nothing."
 },
 "C62": {
  "note": "False: the deferred operations refer to the old object; after a move the registrations made before it are lost, and if the old object is destroyed parse() runs into undefined behaviour (two general theorems); the same holds after move assignment, where the registrations of both objects are lost. Partial: a parser moved before the first registration, one moved after parse(), and one moved away and back into the same object work."
 },
 "C63": {
  "note": "False: errno is not reset, so after one range error no text is accepted any more (general theorem); values of double and long double go through float (16777217 becomes 16777216; time stamps are off by up to 64 seconds); in hexadecimal format the last two characters are cut off; the buffer is overrun by long texts; white space and hexadecimal prefixes in front are accepted. Partial: in general format without an earlier range error, texts that strtod and from_chars read alike give the specified result if float represents the value. What is left of a natural number is the nearest number that float represents, ties to even (C63_nearest_float)."
 },
 "C64": {
  "note": "False: flags are parameters without a mapping to the command line (general theorem); options with a short identifier only have an empty name and are mapped to \"--\", the end of the options (general theorem); names clash (two such options; long identifier positional_0); lists always have the default value false; flags have no advanced tag and positional options no file tags. Partial: tools without visible flags whose visible options have long identifiers other than positional_<n> have a usable description; scalar defaults, meta data, subcommand path and the tags of options are right."
 },
 "C65": {
  "note": "False: floating point bounds are shown with six digits; texts in lists are not quoted, so that [\"a\", \"b\"] and [\"a, b\"] have the same text, and [\"\"] and []. Proved for integer ranges and lists and for patterns; partial for floating point ranges (the text is the bound rounded to the nearest millionth, and determines the bounds up to a millionth) and for lists of texts and extensions that are not empty and contain no comma or closing bracket. C65_wording gives the texts in full."
 },
 "C66": {
  "note": "False: the default value of a char option is shown as a character, which is rejected as a value (numbers are read); so are the elements of lists of int8_t and uint8_t, although single values of these types are shown as numbers; enumerators without a name are shown as <UNKNOWN_VALUE>, which is rejected. Partial: texts, truth values, other integers and named enumerators, alone and in lists, can be read back at the level of parse(). Types, messages and the whole entries are shown as specified."
 },
 "C67": {
  "note": "False in five places, each with a theorem: enumerations (the text does not name the option), a rejected positional list (wrong number), floating point ranges (the text excludes negative numbers), a value used up by another option (an empty text is quoted that nobody wrote), unknown subcommands (the word is not repeated). Partial: every text is one of the listed forms and its reason is true of the command line. Texts of validators and of type names are parameters."
 },
 "C68": {
  "note": "The layout within a line (indentation, breaks) is left open here (C47-C49); the texts of developer supplied elements are those of C43 and C66."
 },
 "C69": {
  "note": "False: print_text ends the line only if there was a word, so that a flag (or required option) without description and its successor share a line (C69_flags_share_a_line). C69_elements_are_placed gives the exact condition for every element; C69_own_lines_partial the positive statement for set-ups whose texts have words."
 },
 "C70": {
  "note": "False: texts that begin with a dot or apostrophe are instructions, and line feeds begin new lines (C70_description_is_an_instruction, C70_description_begins_a_section). Partial: true if every text is a single non-empty line that does not begin with a blank, a dot or an apostrophe. The reading of man pages is described for the requests sharg uses; the arguments of .SH and .SS are not split into words; other escape sequences than fonts and \\- are not described."
 },
 "C71": {
  "note": "False: an identifier \"already used before\" may come from a refused call (C71_used_by_a_refused_call, for every short identifier); get_sub_parser says that no subcommand was provided at the construction whenever parse() has not chosen one yet (C71_sub_parser_before_parse). Partial: every text is one of the listed ones with its true reason, where identifiers used before are those of all earlier calls; in full if no earlier call was refused (C71_setup_texts_without_refusals_partial); is_option_set in full (C71_query_texts). C71_texts_only, C71_query_texts_only and C71_sub_parser_text_only tie the functions with texts to those of the other properties."
 },
 "C72": {
  "note": "False: a fresh stream prints six significant digits, so that every number of eight digits and more shares its text with another number (C72_large_numbers_share_their_text). Partial: the use of the buffer in full generality (C72_buffer_partial); numbers of at most six digits come back (C72_small_numbers_come_back_partial); for float and double thirteen characters always suffice, and the text stands for the number if and only if the number is nearest to some decimal with at most six digits (C72_written_number_iff). For whole numbers of a million or more the text is determined: the closest number with six digits, ties to even, in the notation of %g (C72_large_numbers_rounded). The parser does not use to_chars."
 },
 "C73": {
  "note": "The last claim is false: pages are ended by std::exit, which does not destroy the parser (C73_cut_off_by_exit). All others hold for all interleavings; C73_cut_off_after_three_seconds_partial is the last claim for programs that destroy the parser. wait_for is taken to return as soon as it may."
 },
 "C74": {
  "note": "False if a value looks like an option (C74_value_like_an_option). Partial: on lines without such values options can be moved past everything, also if the line is wrong (C74_options_can_stand_anywhere_partial); on well-formed lines the same holds for flags (C74_only_words_and_lists_have_an_order)."
 },
 "C75": {
  "note": "Same words on any two terminals and exports are proved in full. The last part is false: the font sequences of bold labels are counted when lines are broken (C75_labels_count_fonts), and an empty date leaves a blank behind (C75_empty_date_differs). Partial: every other part of the page is the same up to font sequences (C75_only_fonts_partial), and so is the page if the labelled lines fit (C75_same_lines_partial)."
 },
 "C76": {
  "note": "Validators are code of the application; those of the library work on the file system only."
 },
 "C77": {
  "note": "Only fixed texts: proved in full. Answers that are cut off: proved for release builds (numbers below 2^31, the first line a version or UNREGISTERED_APP), and for all builds if the first line has arrived with its end. False for builds with assertions: 1.2.13 cut off after 1.2.1 warns that the server knows only an older version (witness), and if the end of the first line is missing, the version of the app is announced as new version of Sharg (witness and general theorem)."
 },
 "C78": {
  "note": "Proved with a third place: the only changes are missing test files, the new directories ~/.config and ~/.config/seqan, and one cookie with one of three messages in ~/.config/seqan, the directory for temporary files or the current directory. False as stated: if ~/.config/seqan cannot be written, the cookie is written to the current directory, is never read, and the user is asked in every run (general theorems). What the command sent to the shell writes is not part of the model."
 },
 "C79": {
  "note": "Partial: true if HOME and the directory for temporary files have no characters that mean something to a shell; names and versions are always harmless. False otherwise, because the path is not quoted: a blank in HOME sends the answer to another file and the rest of the path to the network (general theorem), and a command between semicolons in HOME is run (general theorem). The shell is described without quotes, expansions and groups."
 },
 "C80": {
  "note": "Partial: true of variables none of whose options is given. Otherwise the line does not decide: of the given options the one registered last wins, a mentioned flag wins against all options, and the last positional option against everything (general theorems). Witnesses: the option that is last on the line loses, and a value stays that the validator of a given option rejects. Lines are the well-formed lines of C17."
 },
 "C81": {
  "note": "Partial: for arguments that can be read in one way only (Spec.Clear: no empty argument, no dash inside a group of flags, no value of its own looking like an option, no list option with both identifiers, no flag-like word behind --) and, for the meaning, debug builds or representable list elements (C31). C81_accepted_exactly is an equivalence. C81_one_reading holds without restriction. Witnesses: an empty argument, a long flag inside a group and an option without value are accepted although the line is not well-formed."
 },
 "C82": {
  "note": "Partial: the converse (C82_only_well_formed_levels_partial) is for arguments that can be read in one way only (Spec.Clear, see C81); the other theorems have no restriction. Where code registers the options of a sub-parser is not modelled beyond the list of calls; the application goes on with the sub-parser whenever there is one."
 },
 "C83": {
  "note": "std::from_chars for floating point numbers is part of the standard library; its model (Model/Float.lean) follows [charconv.from.chars] and IEEE 754 and is trusted to describe it, in particular that underflow to 0 is out of range (as in libstdc++). long double is not covered."
 },
 "C84": {
  "note": "False: a stream writes six significant digits, so that 1234567 is shown as 1.23457e+06 (C84_shown_as_another_number). Partial: the shown number has at most six digits and differs by at most five millionths of the value (C84_shown_number_partial); it is always accepted (C84_shown_text_accepted, float and double); exactly those numbers are read back that are nearest to some decimal with at most six digits (C84_reads_back_iff, at the level of parse() C84_default_given_back_iff); the shown number is the closest one with six digits, ties to even, in the shortest notation (C84_notation); infinity and NaN are read as such. operator<< for floating point numbers belongs to the standard library; Model/FloatShow.lean describes it as %g of printf. Missing: long double."
 },
 "C85": {
  "note": "False: paths are read with operator>>, which reads a word or a text between quotation marks. Whatever the arguments are, after parse() has returned a path option that was given and every positional path option hold names that are not empty, have no blanks and do not begin with a quotation mark (C85_only_nameable_paths, C85_positionals_only_nameable_paths); a name with a blank ends with user_input_error and leaves the first part in the variable (C85_name_with_blank_rejected), and so does a quoted name, because the end of the text is not noticed (C85_quoted_name_rejected); blanks in front are dropped, so that another file is named (C85_blanks_in_front_dropped). Partial: all other names are read as written (C85_verbatim_partial), and the accepted texts are described exactly, at the level of parse() for scalars and lists. The text the help page shows for a default path is never accepted (C85_default_on_the_page). operator>> and operator<< of paths belong to the standard library; Model/PathValue.lean describes them as specified (std::quoted)."
 },
 "C86": {
  "note": "False with output_file_open_options::open_or_create: a file given for such an output does not exist any more when parse() returns, and if it was given for an input too, the input is gone although its validator accepted it (C86_input_given_as_output_is_deleted, for all programs whose other validators leave the files alone). Partial: for programs whose validators leave the files alone (input_file_validator, input_directory_validator, output_file_validator with create_new: C86_who_leaves_files, and validators of the user) everything holds, for options and positional options, scalars and lists, for every argument vector (C86_input_files_usable_partial, C86_input_directories_usable_partial, C86_output_files_free_partial, C86_output_is_no_input_partial, C86_files_unchanged_partial). With output_directory_validator the same holds for every path that is not called dummy.txt and does not go through such a directory, and the output directories can be used (C86_..._beside_partial, C86_output_directories_usable_partial, C86_other_files_unchanged_partial); an input called dummy.txt in an output directory is deleted (C86_input_in_output_directory_is_deleted). The real version check leaves a well-formed disk (C86_real_check_well_formed). Other processes: see C60. Two outputs may be the same file (example)."
 },
 "C87": {
  "note": "Proved as an unwinding theorem: for every relation R between worlds that the parser cannot tell apart and every set V of its variables (C87_parsers_do_not_interfere); with validators that look at values only the other parsers may do anything (C87_value_validators). Unregistered variables: C87_other_variables_untouched, C87_other_variables_unread (on a real system with pages and version check). The relation of the version checks of two apps on a real system (both make the same directory for cookies) is left to the hypothesis of the general theorem; the replacement of from_chars shares errno, see C63; moved objects see C62."
 },
 "C88": {
  "note": "False for char, which is read as a number (C88_char_is_read_as_number, C88_char_accepts_numbers), and for paths with blanks (C88_path_with_blank). Partial: exactly the promised texts for the integers of fixed width, float, double, bool and std::string (C88_name_tells_values_partial), also for whole command lines (C88_only_promised_values_accepted, C88_other_values_reported). Messages and pages use the same name for every type (C88_message_and_page_agree), limits are right (C88_limits_in_message), names differ (C88_names_differ). Enumerations and other types are called by the name the compiler gives them, long long too (C88_long_long)."
 },
 "C89": {
  "note": "Groups: C24_flag_groups_can_be_split. Values: C89_blank_in_front_of_value_optional_partial, for lines without values or other arguments that look like options; unlike C19 an option may occur with both identifiers. Double dash: C15 (with its exceptions). A single hyphen is an ordinary word (C89_hyphen_is_a_word, C89_hyphen_delivered), contrary to the remark in the documentation. A group that ends with an option is always rejected (C89_group_with_option_rejected), with a text that calls the registered option unknown (C89_registered_option_called_unknown)."
 },
 "C90": {
  "note": "Texts: C90_parsed_texts, with C65_pattern_accepts for the validator. Paths: false. A std::filesystem::path is a range of its parts, and overload resolution prefers operator() for ranges, so that the parts are matched instead of the path (C90_every_part_matches_partial, C90_parsed_paths_partial). So absolute paths are rejected (C90_absolute_paths_rejected), the pattern for absolute files in the documentation rejects everything (C90_patterns_for_directories_reject_everything), and paths that do not match are accepted (C90_unmatched_path_accepted, C90_not_the_whole_path). Right for paths without slashes (C90_plain_names_partial) and for lists of paths. The overload resolution itself is not modelled but built into regexAtPaths."
 },
 "C91": {
  "note": "C91_variables_usable for what parse() guarantees to run_program. At least one season: with assertions (C91_some_season_partial), not in release builds, where the required option may leave an empty list (C91_no_season_in_release). Lines are accepted in every spelling if every part of the path matches the pattern (C91_line_works_partial); files in other directories are rejected (C91_directories_must_match, C91_files_elsewhere_rejected), an instance of C90. The pattern is a fixed predicate, proved equivalent to SeasonsText; the rest of run_program is not modelled."
 },
 "C92": {
  "note": "False: C92_no_sub_parser and C92_mygit_terminated (`mygit -f` leaves main with a design_error, whose text blames the construction: C92_forgotten_subcommand_not_noticed, for every parser and every line of options and flags). C92_sub_parser_partial: otherwise the sub-parser is the one of the first word that is no value, with the arguments behind it. C92_mygit_endings: nothing else goes wrong in the program; C92_mygit_pulls and C92_mygit_pushes: lines for pull and push do what they say. The lines with `-f` in other places or with version-check are not in the last two."
 },
 "C93": {
  "note": "C93_killed_anywhere, for sequences of runs that each die after any number of steps or live; C93_others_survive and C93_no_invented_text are its readings for one file. The named outputs are not safe: the examples show an existing file that is empty after 22 steps and gone after 23, whether or not the program is killed (C41). C93_alive_validators and C93_alive_check: a program that lives does what the validators and the version check of the other properties do; C93_killed_steps: one that dies does the first steps of C59 and C60; C93_nothing_after_death. Validators that are neither those for paths nor leave the files alone are excluded. Which part of an argument is the path is over-approximated: any end of it for options, any sub-sequence for positional options."
 },
 "C94": {
  "note": "False for a time in the future, which silences the app until a day after that time (C94_future_cookie_silences), and for a first line that begins with inf in any case, such as Info, which silences it forever (C94_infinity_silences_forever). Partial: C94_what_a_text_decides_partial says for every text what the next run does; C94_truncated_cookie_is_replaced: each beginning of a written cookie is replaced when its day is over; C94_garbage_is_replaced. The age is computed as the code does, in double, and compared with the rational numbers (Young). Clocks after 2^53 seconds are excluded."
 },
 "C95": {
  "note": "C95_recipe_delivers_partial (for texts) and C95_every_value_can_be_given_partial (for values; C95_expressible says which values have texts): one argument --key=V per value, one per flag, --, the words. False in four cases, which are shown to be real for all command lines: a positional option never holds an empty text (C95_no_empty_word), nor a word containing a flag in flag position without the flag being set (C95_word_with_flag_sets_it), nor, in programs without options and flags, a predefined request (C95_no_reserved_word); a list option with a default cannot be emptied (C95_no_empty_list). Programs in which two registrations share a variable, a long-only flag is called version-check, or there are subcommands are excluded."
 },
 "C96": {
  "note": "C96_upgrade_partial and C96_upgrade_line_partial: the same end for every line, also erroneous ones, on which nothing could be taken for a new option or flag. C96_appended_partial and C96_appended_line_partial: if the new options come behind the old ones, every line that worked goes on working, also if values begin like new options. C96_older_accepted: the set-up without the new calls is accepted. The conditions cannot be dropped: a new option registered in front of an old one takes its value (C96_inserted_option_takes_value), a new flag takes letters out of words behind -- (C96_new_flag_changes_word), a required one breaks all lines (C96_required_breaks). For help pages only the choice of the page is compared, not its text."
 },
 "C97": {
  "note": "C97_pages, C97_values: proved (tool descriptions: all texts handed to the tdl library are valid; provided that it writes valid text from them). C97_parse_partial: values, arguments of subcommands and messages; missing is the message about a group of unknown flags, which takes every byte for a flag: C97_unknown_flags_text_is_invalid for every group with a character outside ASCII, C97_umlaut_flag_breaks_message for a program called with -ä. C97_parse_partial shows that no other message is invalid. Texts of validators and conversions of user-defined types are assumed to keep texts valid (EntryUtf8)."
 },
 "C98": {
  "note": "C98_same_blame_partial: all set-up calls, parse() and is_option_set(); missing is get_sub_parser(), which throws design_error on lines without a subcommand (C98_get_sub_parser_blames_the_developer), and flags that share a variable: a flag set by the user in front of the subcommand makes add_flag of the sub-parser throw design_error (C98_shared_flag_blames_the_developer; the value of the variable is an argument of the modelled call). C98_parse_blames_iff, C98_user_errors, C98_setup_calls_blame_the_developer, C98_applications: proved for all environments whose version check and pages do not throw design_error, which C98_real_system shows for the modelled ones."
 },
 "C99": {
  "note": "C99_accepts_more_partial: everything but lists of a wider integer type in release builds, where an element that did not fit was dropped silently and is now kept (C99_widened_list_changes_in_release) or rejected by the same validator (C99_widened_list_rejects_in_release). C99_setup_accepted and C99_same_pages have the same hypothesis. C99_loosens_*: wider arithmetic ranges, longer value lists and dropped chained validators are looser."
 },
 "C100": {
  "note": "C100_ending is an equivalence with the inductive description LineEnds, for lines without requests whose arguments other than options cannot be taken for options and whose groups of flags have no dash inside; C100_one_ending: the description covers each line exactly once; C100_first_mistake holds for lines with any other arguments."
 },
 "C101": {
  "note": "C101_call and C101_call_has_ending: CallEnds is right and complete; C101_application_ending: equivalence of AppEnds and the run of the application; C101_mistake_stops: levels behind a mistake are not reached."
 },
 "C102": {
  "note": "C102_one_stage_to_blame, C102_progress, C102_bounded_corrections; C102_same_texts and C102_same_options_and_flags say when nothing changes for the stages in front. The lines are those of C100 (NeatLine, LooseGiven)."
 },
 "C103": {
  "note": "C103_one_meaning, C103_regex_match, C103_accepts, C103_parsed_texts; C103_name_pattern, C103_version_pattern, C103_own_version, C103_tutorial_pattern and C103_email_pattern for the patterns in the code and its documentation. The last sentence is false: std::regex is constructed when a value is checked (validators.hpp line 999) and std::regex_error is caught as std::exception by get_option, so the value is blamed (C103_mistake_blamed_on_the_user, C103_unreadable_pattern_partial). std::regex itself is modelled after the standard; backreferences, look-ahead, word boundaries, characters by number and collating elements are not covered, and limits of implementations are left out. With C103_absolute_pattern, C90 applies to the pattern of the documentation: an option of type std::filesystem::path with it accepts no path (C103_documented_pattern_rejects_all_paths)."
 },
 "C104": {
  "note": "C104_both_checks, C104_leaves_files, C104_accepted_names, C104_ending, C104_one_ending. C104_parsed_texts_partial: the other validators of the program must leave the files alone (C86 otherwise). The last two clauses are false: the option is not required, so without it the program reports the empty name as validated (C104_no_name_passes; C104_name_passed_partial says that every name that is not empty passed, for all lines), and the pattern demands a directory in front of the file name, so files in the root directory are rejected (C104_root_directory_rejected), as are names with line breaks (C104_line_breaks_rejected)."
 },
 "C105": {
  "note": "C105_endings_partial determines the end for every line. The statement is false: the second option asked about was never added, the question is outside of the try block, and so the program never reaches its end (C105_never_finishes, C105_documented_program_terminated): whenever parse() returns, an uncaught design_error terminates it. Whether -a is reported: C105_right_lines_partial for all well-formed lines, C105_short_name and C105_long_name for every number and spelling; --aint 5 sets the same option but is not reported."
 },
 "C106": {
  "note": "C106_bare_ends_partial determines how parse() ends if nothing is registered (arguments without requests), C106_only_marker what was accepted, for all arguments. C106_endings, C106_pull_and_push, C106_set_url, C106_show: the program. Two clauses are false: with no arguments a command without registrations prints the short help instead of returning (first part of C106_bare_ends_partial), so git remote show never runs (C106_show_alone_never_runs, in no environment); it needs an empty argument or -- behind it (C106_show_needs_marker, a consequence of C106_only_marker)."
 }
}