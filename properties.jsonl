{"id": "C01", "title": "Identifiers are unique and well-formed after any set-up history", "statement": "After any sequence of set-up calls (add_option, add_flag, add_positional_option, add_section, add_subcommands, parse, in any order, with exceptions caught), the identifiers of all options and flags that were accepted are pairwise different, differ from the predefined ones (h, hh, help, advanced-help, export-help, version, copyright), every accepted entry has a short or a long identifier, every short identifier is one of [A-Za-z0-9_@], and every long identifier has at least two characters, all in [A-Za-z0-9_@-], the first one not '-'.", "quantifier": "for every finite history of API calls with arbitrary configurations, including calls that threw", "why_tests_cant": "the history is unbounded and a failed call may leave partial registrations behind; tests fix a handful of two-call sequences", "anchors": ["include/sharg/parser.hpp: add_option, add_flag, verify_identifiers, id_exists, used_ids"]}
{"id": "C02", "title": "Set-up calls are rejected exactly for the documented reasons", "statement": "On a parser whose parse() has not been called and on which no earlier add call threw, add_option throws design_error exactly if: both ids are empty, an id is malformed, an id was used by an earlier accepted call or is predefined, or the option is required and has a default message. add_flag additionally throws if it has a default message or the variable is initialised with true. No other exception type is thrown.", "quantifier": "for every history of accepted calls and every next configuration", "why_tests_cant": "an 'exactly if' over all configurations and all histories needs both directions for infinitely many identifiers", "anchors": ["include/sharg/parser.hpp: add_option, add_flag, verify_option_config, verify_flag_config, verify_identifiers"]}
{"id": "C03", "title": "A rejected set-up call leaves no trace", "statement": "If add_option, add_flag or add_positional_option throws design_error and the program catches it, the parser behaves afterwards as if the call had not been made.", "quantifier": "for every history, every rejected call and every continuation", "why_tests_cant": "the statement compares two whole futures of the object; tests never continue after a design_error", "anchors": ["include/sharg/parser.hpp: verify_identifiers, verify_option_config, add_flag"]}
{"id": "C04", "title": "parse() runs at most once and freezes the set-up", "statement": "The first call of parse() decides; every later call of parse() throws design_error without touching any variable, and after it every add_option, add_flag, add_positional_option, add_section, add_subsection, add_line and add_list_item throws design_error and changes nothing.", "quantifier": "for every history of calls, whatever the first parse() did (returned, threw)", "why_tests_cant": "quantifies over all later call sequences and over all outcomes of the first parse()", "anchors": ["include/sharg/parser.hpp: parse, parse_was_called, check_parse_not_called"]}
{"id": "C05", "title": "Positional options: only the last may be a list, never mixed with subcommands", "statement": "In any accepted history, a list positional option is the last positional option, positional options carry no identifier, are neither advanced nor hidden, have no default message, and no parser has both positional options and subcommands.", "quantifier": "for every history of API calls", "why_tests_cant": "needs an invariant over arbitrary call orders (subcommands can be added before or after)", "anchors": ["include/sharg/parser.hpp: add_positional_option, verify_positional_option_config, add_subcommands, has_positional_list_option"]}
{"id": "C06", "title": "The subcommand list is an order-independent set", "statement": "However the subcommand names are split over the constructor and add_subcommands calls, in whatever order and with whatever repetitions, the resulting list is strictly ascending and contains exactly the given names; adding names again changes nothing.", "quantifier": "for all lists of names and all ways of splitting them into calls", "why_tests_cant": "permutation and duplication invariance over unbounded lists", "anchors": ["include/sharg/parser.hpp: add_subcommands, parser(std::string, std::vector<std::string>, update_notifications, std::vector<std::string>)"]}
{"id": "C07", "title": "Bad application or subcommand names stop parse() before anything happens", "statement": "If the application name or a subcommand name is empty or contains a character outside [A-Za-z0-9_-], parse() throws design_error, having modified no user variable, printed nothing and contacted no server. If parse() gets past this check, all names are clean, and the name of a sub-parser created by it (app-sub) is clean too, at every nesting depth.", "quantifier": "for all names, argument vectors and set-ups; the sub-parser part by induction on nesting", "why_tests_cant": "the dangerous inputs (shell metacharacters) are infinite in number and the guarantee is about every one of them", "anchors": ["include/sharg/parser.hpp: parse, verify_app_and_subcommand_names, app_name_regex, determine_format_and_subcommand"]}
{"id": "C08", "title": "The predefined options cannot be taken over", "statement": "Whatever options, flags and positional options a developer registers, -h, --help, -hh, --advanced-help, --version, --copyright, --export-help and --version-check, given as an argument of their own before a subcommand and not as the value of an option, keep their predefined meaning.", "quantifier": "for every accepted set-up and every argument vector", "why_tests_cant": "depends on the interaction of the reserved-name set with every possible registration history", "anchors": ["include/sharg/parser.hpp: used_ids, options, determine_format_and_subcommand"]}
{"id": "C09", "title": "A special request never runs the program", "statement": "If a special request (-h, --help, -hh, --advanced-help, --version, --copyright, --export-help with a valid value) occurs among the arguments before any subcommand and not as the value of a registered option, parse() does not return normally and modifies none of the user's variables: it prints and exits, or throws.", "quantifier": "for every set-up and every argument vector with the request at any position", "why_tests_cant": "the request may be surrounded by any valid or invalid arguments; the tests place it first or last on short lines", "anchors": ["include/sharg/parser.hpp: parse, determine_format_and_subcommand"]}
{"id": "C10", "title": "The last special request decides", "statement": "When several special requests are given and scanning throws no exception, the one given last decides what is printed.", "quantifier": "for every argument vector", "why_tests_cant": "quantifies over all interleavings of requests with other arguments", "anchors": ["include/sharg/parser.hpp: determine_format_and_subcommand"]}
{"id": "C11", "title": "Short help is printed exactly when no argument remains", "statement": "parse() prints the short help exactly if scanning does not throw, no special request is given, no subcommand is given, and every argument is part of a --version-check request (in particular if there is no argument at all).", "quantifier": "for every set-up and every argument vector", "why_tests_cant": "an 'exactly if' over all argument vectors", "anchors": ["include/sharg/parser.hpp: determine_format_and_subcommand, format_short_help"]}
{"id": "C12", "title": "The value after a registered option is shielded", "statement": "In '-o X' and '--opt X' for a registered option, X is taken literally as the option's value even if it spells a special request, --version-check, or a subcommand; scanning continues behind it.", "quantifier": "for all X, all registered options, all contexts", "why_tests_cant": "X ranges over all strings including every reserved word and subcommand name", "anchors": ["include/sharg/parser.hpp: options, determine_format_and_subcommand; include/sharg/detail/format_parse.hpp: identify_and_retrieve_option_value"]}
{"id": "C13", "title": "A sub-parser receives exactly the rest of the line", "statement": "If the first argument that is neither a registered option with its value nor part of a special or version-check request nor starts with '-' is a subcommand name s, the sub-parser is named <app>-s, receives exactly the arguments behind s in unchanged order, inherits the chain of executable names, and has update notifications switched off; the top-level parser parses exactly the arguments before s.", "quantifier": "for all set-ups and argument vectors, and all nesting depths for the chain", "why_tests_cant": "all positions of s and all suffixes, also suffixes that repeat s or contain special requests", "anchors": ["include/sharg/parser.hpp: determine_format_and_subcommand, get_sub_parser, executable_name"]}
{"id": "C14", "title": "An unknown subcommand is always reported", "statement": "For a parser with subcommands, if an argument that is not an option value, not after a subcommand and does not start with '-' is no subcommand, parse() throws user_input_error, or an exception caused by an earlier argument; no user variable is modified.", "quantifier": "for all set-ups with subcommands and all argument vectors", "why_tests_cant": "the word can be any string at any position", "anchors": ["include/sharg/parser.hpp: determine_format_and_subcommand"]}
{"id": "C15", "title": "Arguments after -- are positional and delivered verbatim", "statement": "Every argument after the first '--' (that is not an option value) is treated as positional argument: it is never interpreted as option, flag, special request or subcommand and reaches its positional variable unmodified.", "quantifier": "for all set-ups without subcommands and all argument vectors", "why_tests_cant": "the trailing arguments are arbitrary strings, in particular all strings that look like flags", "anchors": ["include/sharg/parser.hpp: determine_format_and_subcommand; include/sharg/detail/format_parse.hpp: parse, flag_is_set, check_for_unknown_ids"]}
{"id": "C16", "title": "Scanning removes only predefined requests and keeps the order", "statement": "The arguments handed from the scanning stage to the option parser are the given arguments in their order, without exactly the predefined special requests, the --export-help/--version-check requests with their values, and everything from the subcommand on.", "quantifier": "for every set-up and argument vector", "why_tests_cant": "a subsequence statement about unbounded vectors", "anchors": ["include/sharg/parser.hpp: determine_format_and_subcommand, format_arguments"]}
{"id": "C17", "title": "Every well-formed command line delivers exactly the given values", "statement": "Take any list of command line items: options in any of the spellings -kV, -k=V, '-k V', --key=V, '--key V', groups of short flags, long flags, words, optionally '--' and further words. If each scalar option and each flag occurs at most once, a list option is always spelled with the same identifier, required options occur, the values parse and validate, the number of words fits the positional options and no separately given value looks like an option identifier, then parse() returns and afterwards every given option holds its value (lists: all values in order), every given flag is true, the positional variables hold the words in order, and all other variables keep their defaults.", "quantifier": "for all set-ups, all item lists of any length and order, all values", "why_tests_cant": "a round-trip over an infinite grammar; tests cover short lines with few items", "anchors": ["include/sharg/detail/format_parse.hpp: parse, get_option, get_flag, get_positional_option, find_option_id, identify_and_retrieve_option_value"]}
{"id": "C18", "title": "A successful parse accounts for every argument", "statement": "If parse() returns normally, every non-empty argument was used: it is the '--' marker, an option identifier with or without attached value, the value following an option identifier, a long flag, a group of registered short flags, or the value of a positional option. No argument is silently ignored.", "quantifier": "for all set-ups and all argument vectors on which parse() returns", "why_tests_cant": "a converse over all accepted inputs; no finite test set can exclude an ignored argument", "anchors": ["include/sharg/detail/format_parse.hpp: parse, check_for_unknown_ids, check_for_left_over_args, flag_is_set"]}
{"id": "C19", "title": "All spellings of an option are equivalent", "statement": "Replacing one spelling of an option occurrence by another (-kV, -k=V, '-k V', --key=V, '--key V') does not change the outcome of parse(), provided V is non-empty, does not start with '=' when attached directly, and does not look like an option identifier.", "quantifier": "for all set-ups, all surrounding arguments, all V", "why_tests_cant": "equality of two runs for all contexts", "anchors": ["include/sharg/detail/format_parse.hpp: find_option_id, identify_and_retrieve_option_value"]}
{"id": "C20", "title": "Options that are not given keep their default", "statement": "parse() only modifies variables registered with the parser, and if it returns normally the variable of an option or flag whose identifiers do not occur on the command line still has its initial value.", "quantifier": "for all set-ups, stores and argument vectors", "why_tests_cant": "frame condition over all variables and inputs", "anchors": ["include/sharg/detail/format_parse.hpp: get_option, get_flag, get_option_by_id"]}
{"id": "C21", "title": "Required options are enforced", "statement": "If parse() returns normally, every option marked required occurred on the command line; if no other argument is wrong and a required option is absent, required_option_missing is thrown.", "quantifier": "for all set-ups and argument vectors", "why_tests_cant": "must hold for every combination of other arguments", "anchors": ["include/sharg/detail/format_parse.hpp: get_option"]}
{"id": "C22", "title": "A scalar option given twice is rejected", "statement": "If the identifiers of a non-list option occur more than once before '--' (in any spelling, short and long mixed, and not as the value of an option), parse() throws.", "quantifier": "for all set-ups, positions and spellings", "why_tests_cant": "all pairs of spellings at all positions with arbitrary arguments between", "anchors": ["include/sharg/detail/format_parse.hpp: get_option_by_id, get_option"]}
{"id": "C23", "title": "A list option collects every given value in command line order", "statement": "After a successful parse(), a list option that was given contains exactly all values given for it on the command line, in command line order, whichever identifiers were used; its default content is gone.", "quantifier": "for all numbers and mixtures of occurrences", "why_tests_cant": "mixtures of short and long identifiers and of list lengths are unbounded", "anchors": ["include/sharg/detail/format_parse.hpp: get_option_by_id (container), get_option, parse_option_value (container)"]}
{"id": "C24", "title": "Flags: true exactly if given, grouping and order are irrelevant", "statement": "After a successful parse() a flag variable is true exactly if the flag was given (or the variable was already true); '-abc', '-a -b -c', '-cab' and any other grouping and order of the same short flags have the same effect.", "quantifier": "for all sets of flags, all groupings and permutations, all surrounding arguments", "why_tests_cant": "number of groupings is exponential and contexts are unbounded", "anchors": ["include/sharg/detail/format_parse.hpp: flag_is_set, get_flag"]}
{"id": "C25", "title": "A repeated flag is never silently swallowed", "statement": "If a flag is given more than once before '--' (as -f -f, -ff, -f --flag, --flag --flag), parse() throws unknown_option or an exception raised earlier.", "quantifier": "for all set-ups, positions and spellings", "why_tests_cant": "all placements and spellings", "anchors": ["include/sharg/detail/format_parse.hpp: flag_is_set, get_flag, check_for_unknown_ids"]}
{"id": "C26", "title": "Unknown identifiers are rejected", "statement": "If an argument before '--' starts with '-', is not '-' itself, and is neither (the value of) a registered option nor composed of registered flags, parse() throws; it is never delivered as positional argument.", "quantifier": "for all set-ups and argument vectors", "why_tests_cant": "the unknown identifier is an arbitrary string in an arbitrary context", "anchors": ["include/sharg/detail/format_parse.hpp: check_for_unknown_ids"]}
{"id": "C27", "title": "Positional arguments are delivered in order and counted exactly", "statement": "After option and flag processing, the remaining words are assigned to the positional options in the order of registration; too few words give too_few_arguments, too many give too_many_arguments unless the last one is a list, which receives all remaining words.", "quantifier": "for all numbers of positional options and words", "why_tests_cant": "unbounded numbers of options and words; boundary at every count", "anchors": ["include/sharg/detail/format_parse.hpp: get_positional_option, check_for_left_over_args"]}
{"id": "C28", "title": "A missing option value is reported", "statement": "If an option identifier without attached value is the last argument before the end or before '--', or has the form -k= or --key=, parse() throws too_few_arguments or an exception raised earlier; the option never receives an empty or foreign value.", "quantifier": "for all set-ups and argument vectors", "why_tests_cant": "all positions and contexts", "anchors": ["include/sharg/detail/format_parse.hpp: identify_and_retrieve_option_value"]}
{"id": "C29", "title": "Integers are accepted exactly in their range", "statement": "For an integer variable of any width, the accepted strings are exactly an optional '-' (signed types only) followed by one or more decimal digits whose value lies in the range of the type; the variable then holds that value. Every other string gives user_input_error. No wrap-around or truncation ever happens, and printing the value and parsing it again yields the same value.", "quantifier": "for all strings and all integer types (any lower and upper bound)", "why_tests_cant": "the strings are unbounded in length; wrap-around hides behind long digit strings", "anchors": ["include/sharg/detail/format_parse.hpp: parse_option_value (arithmetic), throw_on_input_error"]}
{"id": "C30", "title": "Booleans and enumerations accept exactly their literals", "statement": "A bool accepts exactly 0, 1, true and false with the obvious meaning; an enumeration option accepts exactly the names registered for it and yields the associated value; any other string gives user_input_error and leaves the variable unchanged.", "quantifier": "for all strings and all name tables", "why_tests_cant": "all strings; all tables, also the empty one", "anchors": ["include/sharg/detail/format_parse.hpp: parse_option_value (bool), parse_option_value (named_enumeration)"]}
{"id": "C31", "title": "No list element is lost", "statement": "If parse() returns normally, each value given for a list option (or list positional option) produced exactly one element; a value that cannot be represented in the element type makes parse() throw.", "quantifier": "for all element types and all values", "why_tests_cant": "the failing inputs are the out-of-range ones, which differ per type", "anchors": ["include/sharg/detail/format_parse.hpp: parse_option_value (container), throw_on_input_error, get_positional_option"]}
{"id": "C32", "title": "A failed parse() leaves the variables untouched", "statement": "If parse() throws, all registered variables still have the values they had before the call.", "quantifier": "for all set-ups, inputs and points of failure", "why_tests_cant": "the failure can occur at any of unboundedly many steps", "anchors": ["include/sharg/parser.hpp: parse; include/sharg/detail/format_parse.hpp: parse, parse_option_value"]}
{"id": "C33", "title": "Validators see exactly the given values", "statement": "If parse() returns normally, the validator of each option that was given and of each positional option accepted the final value of its variable; the validator of an option that was not given is not called; a rejected value makes parse() throw validation_error.", "quantifier": "for all set-ups, validators and inputs", "why_tests_cant": "validators are arbitrary user code; the claim is about every run", "anchors": ["include/sharg/detail/format_parse.hpp: get_option, get_positional_option"]}
{"id": "C34", "title": "The order of registration of options and flags is irrelevant", "statement": "For a well-formed command line the outcome of parse() does not depend on the order in which options and flags were registered.", "quantifier": "for all permutations of the registrations and all well-formed lines", "why_tests_cant": "factorially many orders", "anchors": ["include/sharg/detail/format_parse.hpp: option_calls, flag_calls, parse"]}
{"id": "C35", "title": "is_option_set tells whether the option was given", "statement": "After parse() returned normally, is_option_set(id) is true exactly if the identifier id was given on the command line (as option or flag, not as a value of another option); before parse(), for a one-character string and for identifiers never registered it throws design_error.", "quantifier": "for all set-ups, argument vectors and identifiers", "why_tests_cant": "answers must agree with the parse for every line, including values that look like identifiers", "anchors": ["include/sharg/parser.hpp: is_option_set; include/sharg/detail/format_parse.hpp: find_option_id"]}
{"id": "C36", "title": "arithmetic_range_validator accepts exactly the closed interval", "statement": "arithmetic_range_validator{min,max} accepts a value v exactly if min <= v and v <= max, and a range of values exactly if it accepts each element; otherwise it throws validation_error.", "quantifier": "for all bounds, values and ranges", "why_tests_cant": "both boundaries for every interval and every list length", "anchors": ["include/sharg/validators.hpp: arithmetic_range_validator"]}
{"id": "C37", "title": "value_list_validator accepts exactly the listed values", "statement": "value_list_validator accepts a value exactly if it is one of the listed values, and a range exactly if all elements are; an empty list accepts nothing (but an empty range).", "quantifier": "for all lists and values", "why_tests_cant": "unbounded lists", "anchors": ["include/sharg/validators.hpp: value_list_validator"]}
{"id": "C38", "title": "Chained validators are a left-to-right conjunction", "statement": "(v1 | v2 | ... | vn) accepts a value exactly if all vi accept it, the vi are invoked from left to right, the first rejecting one determines the exception and stops the evaluation, and the grouping of the chain does not matter.", "quantifier": "for all validators (including ones with side effects), chain lengths and values", "why_tests_cant": "arbitrary validators and lengths", "anchors": ["include/sharg/validators.hpp: validator_chain_adaptor, operator|"]}
{"id": "C39", "title": "File extensions are compared case-insensitively as extensions", "statement": "A file name passes the extension check exactly if the list of extensions is empty or the name ends, ignoring case, with '.' followed by one of the listed extensions.", "quantifier": "for all file names and extension lists", "why_tests_cant": "all strings; errors hide at dots, hidden files and lengths", "anchors": ["include/sharg/validators.hpp: file_validator_base::validate_filename, case_insensitive_string_ends_with"]}
{"id": "C40", "title": "Input validators accept exactly the documented paths and modify nothing", "statement": "input_file_validator accepts exactly existing, regular (or directory), readable paths with a valid extension, input_directory_validator exactly existing readable directories; neither changes the file system.", "quantifier": "for all file system states and paths", "why_tests_cant": "all states of the file system", "anchors": ["include/sharg/validators.hpp: input_file_validator, input_directory_validator, validate_readability"]}
{"id": "C41", "title": "Validating an output file leaves the file system unchanged", "statement": "output_file_validator in either mode leaves the file system exactly as it was, whether it accepts or rejects; in create_new mode it rejects exactly existing files, directories, unwritable locations and wrong extensions.", "quantifier": "for all file system states, paths and modes", "why_tests_cant": "all prior states, especially an existing file with content", "anchors": ["include/sharg/validators.hpp: output_file_validator, validate_writeability; include/sharg/detail/safe_filesystem_entry.hpp: safe_filesystem_entry"]}
{"id": "C42", "title": "Validating an output directory leaves the file system unchanged", "statement": "output_directory_validator leaves the file system exactly as it was, whether it accepts or rejects, in particular a directory that did not exist does not exist afterwards, and all files of an existing directory are still there.", "quantifier": "for all file system states and paths", "why_tests_cant": "all prior contents of the directory", "anchors": ["include/sharg/validators.hpp: output_directory_validator, validate_writeability; include/sharg/detail/safe_filesystem_entry.hpp: safe_filesystem_entry"]}
{"id": "C43", "title": "Hidden and advanced options appear exactly where documented", "statement": "An option or flag registered as hidden never appears on a help page or export; one registered as advanced appears on the advanced help page and in every export but not on the normal help page; every other one appears on all of them. Sections, lines and list items added as advanced follow the same rule. The order of registration is kept.", "quantifier": "for every sequence of registrations and every page kind", "why_tests_cant": "all interleavings of entries and settings", "anchors": ["include/sharg/detail/format_base.hpp: store_help_page_element, format_help_base::parse; include/sharg/config.hpp: config::advanced, config::hidden"]}
{"id": "C44", "title": "XML escaping is safe and reversible", "statement": "The escaped form of a text contains no raw double quote, apostrophe, < or >, every & in it starts one of the five predefined entities, and decoding the entities gives back the text.", "quantifier": "for all texts", "why_tests_cant": "all strings, in particular texts that already contain entities", "anchors": ["include/sharg/detail/format_base.hpp: escape_special_xml_chars"]}
{"id": "C45", "title": "The HTML export is well nested and escapes the texts", "statement": "For every set-up, the exported HTML page has balanced, properly nested tags, and text supplied by the developer cannot introduce markup: the characters <, >, & and quotes in it appear escaped.", "quantifier": "for all texts, sections, lines and list items in any order", "why_tests_cant": "any sequence of page elements; any text", "anchors": ["include/sharg/detail/format_html.hpp: print_header, print_section, print_subsection, print_line, print_list_item, print_footer, to_html"]}
{"id": "C46", "title": "Help pages can always be printed", "statement": "Printing any help page (help, HTML, man) neither throws nor runs into undefined behaviour, whatever texts the developer supplied.", "quantifier": "for all texts", "why_tests_cant": "all strings, in particular those ending in a backslash", "anchors": ["include/sharg/detail/format_html.hpp: to_html; include/sharg/detail/format_help.hpp: to_text, print_text; include/sharg/detail/format_base.hpp: print_synopsis"]}
{"id": "C47", "title": "Wrapped help text fits the screen and loses nothing", "statement": "In the printed help text no line is wider than the screen unless it consists of one single word, every word of the text is printed exactly once and in order, and every continuation line is indented to the given column.", "quantifier": "for all texts, screen widths and indentations", "why_tests_cant": "any sequence of word lengths; errors are off-by-one at the margin", "anchors": ["include/sharg/detail/format_help.hpp: print_text, console_layout_struct"]}
{"id": "C48", "title": "The computed width of a text is its printed width", "statement": "The width used for line wrapping and underlining equals the number of characters printed for the text when the terminal does not support formatting.", "quantifier": "for all texts", "why_tests_cant": "all combinations of escape sequences", "anchors": ["include/sharg/detail/format_help.hpp: text_width, to_text"]}
{"id": "C49", "title": "Help list layout never overlaps", "statement": "In the help page the description of a list item starts at column 10 on the same line only if the term leaves at least two columns free, otherwise on a new line; the layout arithmetic never underflows for any terminal width.", "quantifier": "for all terminal widths and terms", "why_tests_cant": "all widths including 0 and very large values", "anchors": ["include/sharg/detail/format_help.hpp: print_list_item, console_layout_struct"]}
{"id": "C50", "title": "Who decides about the version check", "statement": "The version check is not performed if the developer switched it off; else not if SHARG_NO_VERSION_CHECK is set; else the last --version-check value decides; else a cookie younger than a day or containing NEVER prevents it, a cookie containing ALWAYS enables it; else the user is asked if stdin and stderr are terminals, otherwise the check is not performed.", "quantifier": "for all combinations of developer setting, environment, command line, cookie, clock and terminal state", "why_tests_cant": "a precedence table over unbounded cookies and clock values", "anchors": ["include/sharg/detail/version_check.hpp: decide_if_check_is_performed, write_cookie, get_time_diff_to_current"]}
{"id": "C51", "title": "NEVER is permanent", "statement": "Once the user answered 'n', no later run of the app performs a version check or asks again, unless --version-check is given, however much time passes and whatever the terminal state.", "quantifier": "for every finite sequence of runs at non-decreasing times without --version-check", "why_tests_cant": "unbounded histories of runs", "anchors": ["include/sharg/detail/version_check.hpp: decide_if_check_is_performed, write_cookie"]}
{"id": "C52", "title": "At most one version check per day", "statement": "Without an explicit --version-check 1, an app sends at most one request per day, whatever the user answered.", "quantifier": "for every sequence of runs", "why_tests_cant": "unbounded histories; depends on when the cookie is refreshed", "anchors": ["include/sharg/detail/version_check.hpp: decide_if_check_is_performed, write_cookie; doc/about/update_notifications/index.md"]}
{"id": "C53", "title": "The server command cannot be injected into", "statement": "Whatever application name and version string the developer supplies, if a server command is built then the parts taken from them consist only of letters, digits, '_', '-' and '.', so they contain no shell metacharacter or space.", "quantifier": "for all names and version strings", "why_tests_cant": "all strings", "anchors": ["include/sharg/detail/version_check.hpp: version_checker::version_checker, operator(); include/sharg/parser.hpp: verify_app_and_subcommand_names"]}
{"id": "C54", "title": "Update messages follow the version order", "statement": "The 'new version' message is printed exactly if the version stored by the server is a valid x.y.z triple other than 0.0.0 that is greater than the version of the app in the numerical lexicographic order.", "quantifier": "for all version strings and file contents", "why_tests_cant": "all triples; numeric versus textual comparison", "anchors": ["include/sharg/detail/version_check.hpp: operator(), get_numbers_from_version_string"]}
{"id": "C55", "title": "An app whose developer switched notifications off leaves no trace", "statement": "If the developer passed update_notifications::off, running parse() neither contacts a server nor touches the file system.", "quantifier": "for all environments and file systems", "why_tests_cant": "all environments", "anchors": ["include/sharg/parser.hpp: run_version_check; include/sharg/detail/version_check.hpp: get_path, version_checker::version_checker"]}
{"id": "C56", "title": "Default values are printed unambiguously", "statement": "The list notation used on help pages and in error messages, '[a, b]', and the quoting of string defaults are faithful: from the printed default of a string (list) option the value can be recovered.", "quantifier": "for all values", "why_tests_cant": "all strings including quotes, backslashes and commas", "anchors": ["include/sharg/detail/to_string.hpp: to_string; include/sharg/detail/format_base.hpp: get_default_message"]}
{"id": "C57", "title": "The error for unknown flag groups lists every flag", "statement": "The message for an unknown group of flags lists each character of the group in order as '-x', separated by ', ' and ' and '.", "quantifier": "for all groups of at least two flags", "why_tests_cant": "all group lengths", "anchors": ["include/sharg/detail/format_base.hpp: expand_multiple_flags"]}
{"id": "C58", "title": "Parsing is total and free of undefined behaviour", "statement": "For every set-up and every argument vector with at least one element, parse() returns, exits, or throws an exception derived from parser_error; it never fails an assertion and never runs into undefined behaviour.", "quantifier": "for all set-ups and argument vectors", "why_tests_cant": "absence of undefined behaviour on all inputs", "anchors": ["include/sharg/parser.hpp: parse; include/sharg/detail/format_parse.hpp: parse"]}
{"id": "C59", "title": "A killed output check leaves nothing that matters", "statement": "If a program is killed at any point of a check of a path by a file system validator, then nothing outside the checked path has changed, input checks have changed nothing at all, no content of an existing file is lost, and the next run accepts the path if this run would have accepted it.", "quantifier": "for all disks, paths, modes, builds and all points at which the program is killed", "why_tests_cant": "every crash point between two system calls on every disk", "anchors": ["include/sharg/validators.hpp: input_file_validator, output_file_validator, input_directory_validator, output_directory_validator, validate_writeability", "include/sharg/detail/safe_filesystem_entry.hpp"]}
{"id": "C60", "title": "Checks of file system paths at the same time", "statement": "Programs that check paths at the same time get the same verdicts as if each of them ran alone, each check ends after a bounded number of its own steps whatever the others do, and no check deletes a file written by another program in the meantime.", "quantifier": "for all disks, all numbers of programs, all schedules of their steps, and all points at which some of them are killed", "why_tests_cant": "all interleavings of an arbitrary number of programs", "anchors": ["include/sharg/validators.hpp: output_file_validator, output_directory_validator, validate_writeability", "include/sharg/detail/safe_filesystem_entry.hpp: remove_no_throw, remove_all_no_throw"]}
{"id": "C61", "title": "NEVER survives other programs and crashes", "statement": "Once the user has answered NEVER, no run of the app ever contacts the server, asks again or prints a message, whatever other runs of this and other apps go on at the same time and whenever one of them is killed.", "quantifier": "for all machines, all numbers of programs, all schedules and crash points", "why_tests_cant": "all interleavings and crash points of an arbitrary number of programs", "anchors": ["include/sharg/detail/version_check.hpp: decide_if_check_is_performed, write_cookie, get_path"]}
{"id": "C62", "title": "Moved parsers keep their registrations", "statement": "A parser object can be moved (move construction is public): parse() on the new object does what parse() on the old object would have done, whatever was registered before and after the move, and whether or not the old object still exists.", "quantifier": "for all set-ups before and after the move and all argument vectors", "why_tests_cant": "all histories of registrations around a move; the undefined behaviour of a pointer to a destroyed object does not show reliably in a test", "anchors": ["include/sharg/parser.hpp: parser(parser &&), operations, add_option, add_flag, add_positional_option, add_section, parse"]}
{"id": "C63", "title": "Floating point numbers are read as written", "statement": "With standard libraries that lack std::from_chars for floating point numbers, the replacement of the project gives what the standard specifies: the value written (in the precision of the type), the characters read, and an error for exactly the texts that are not numbers or out of range - for every text and format, and independent of what was read before in the same process.", "quantifier": "for all floating point types, texts, formats and sequences of conversions", "why_tests_cant": "unbounded texts and histories of conversions; the tests use one conversion with a short text and a short value, general format only", "anchors": ["include/sharg/std/charconv: from_chars_floating_point", "include/sharg/detail/format_parse.hpp: parse_option_value", "include/sharg/detail/version_check.hpp: get_time_diff_to_current"]}
{"id": "C64", "title": "Exported tool descriptions can be used to run the tool", "statement": "In an exported tool description (CTD, CWL) every visible option and flag is a parameter with a non-empty name that no other parameter has, is mapped to one of its identifiers on the command line, carries its default value and its tags (required, advanced, file, directory, output); the meta data and the path of subcommands are those of the parser.", "quantifier": "for all histories of registrations, values of the variables, meta data and subcommand paths", "why_tests_cant": "any number of registrations with any combination of identifiers, types and values; the tests export two fixed set-ups", "anchors": ["include/sharg/detail/format_tdl.hpp: to_tdl, add_option, add_flag, add_positional_option, parse"]}
{"id": "C65", "title": "Help texts of validators tell which values pass", "statement": "Two validators of the same kind that have the same text on the help page let the same values pass: the text determines the bounds, the listed values, the extensions and the open mode, and the pattern.", "quantifier": "for all bounds, lists of values, lists of extensions, open modes and patterns", "why_tests_cant": "a statement on all pairs of validators; tests compare single texts", "anchors": ["include/sharg/validators.hpp: get_help_page_message, valid_extensions_help_page_message", "include/sharg/detail/to_string.hpp: to_string"]}
{"id": "C66", "title": "Types and default values on the help page are what the parser reads", "statement": "The help page shows for each option the name of its type, whether it is a list, and its default value or default message; giving the default value as it is shown sets the option to that value.", "quantifier": "for all types, values, messages, set-ups and command lines", "why_tests_cant": "a round trip over all values of all types and all spellings of the option", "anchors": ["include/sharg/detail/format_base.hpp: get_default_message, option_type_and_list_info", "include/sharg/detail/to_string.hpp: to_string", "include/sharg/enumeration_names.hpp: operator<<", "include/sharg/detail/format_parse.hpp: parse_option_value"]}
{"id": "C67", "title": "Error texts tell what is wrong and where", "statement": "When parse() throws a parser error, the text of the exception names the option or positional option concerned the way the user has to write it, quotes what the user wrote, and states a reason that is true of the command line and the set-up.", "quantifier": "for all reachable parsers, validators, types, command lines and worlds", "why_tests_cant": "the claim is about every exception that can leave parse(), for all set-ups and command lines; tests compare a few texts", "anchors": ["include/sharg/detail/format_parse.hpp: identify_and_retrieve_option_value, throw_on_input_error, check_for_unknown_options, check_for_left_over_args, get_positional_option", "include/sharg/detail/id_pair.hpp: combine_option_names", "include/sharg/parser.hpp: determine_format_and_subcommand, parse, verify_app_and_subcommand_names"]}
{"id": "C68", "title": "The outline of the pages", "statement": "Every page that is printed without failure consists exactly of its beginning (title, short description), the sections in a fixed order (synopsis, description, subcommands, positional arguments, options with the predefined ones, examples, versions, address, legal information) and its end. A section appears if and only if the developer supplied something for it, each piece of meta data appears where it belongs, and on the console no character of the texts is lost or added except white space and markup. All of it, and nothing else, goes to the standard output.", "quantifier": "for all meta data, parsers, variables, terminals, builds and for the help, advanced help, HTML, man, version, short help and copyright pages", "why_tests_cant": "the claim is about every combination of supplied and missing meta data and arbitrary texts; tests compare a few complete pages", "anchors": ["include/sharg/detail/format_base.hpp: format_help_base::parse, print_synopsis, print_version, print_legal", "include/sharg/detail/format_help.hpp: format_help, format_short_help, format_version, format_copyright", "include/sharg/detail/format_html.hpp: format_html", "include/sharg/detail/format_man.hpp: format_man", "include/sharg/parser.hpp: parse"]}
{"id": "C69", "title": "Elements of the help page stand on lines of their own", "statement": "On the help page each element (title, line, list item) begins at the start of a line with its indentation, after an empty line if it is a title or follows a paragraph, and ends with a line feed, so that two elements never share a line.", "quantifier": "for all meta data, parsers, variables, terminals and builds", "why_tests_cant": "the claim is about all combinations of neighbouring elements and all texts, including empty ones and those of only white space", "anchors": ["include/sharg/detail/format_help.hpp: print_section, print_subsection, print_line, print_list_item, print_text"]}
{"id": "C70", "title": "Man pages say what was set up", "statement": "Read by the formatter of man pages, an exported man page consists of the title line with its five arguments, the name, and exactly the elements of the page, with the texts as supplied; no text of the developer is taken for an instruction.", "quantifier": "for all meta data, parsers and variables", "why_tests_cant": "the claim is about all texts, in particular those with a special meaning for the formatter; tests compare a few pages with expected strings and never read them", "anchors": ["include/sharg/detail/format_man.hpp: print_header, print_section, print_subsection, print_line, print_list_item"]}
{"id": "C71", "title": "The texts of design errors are true", "statement": "Every exception thrown by a set-up function, by is_option_set or by get_sub_parser is a design_error whose text gives a reason that is true of the call and of the parser: it names the function called too late, the identifier that another option or flag (or a predefined one) has, the rule on characters, lengths, defaults, positional options or subcommands that is violated.", "quantifier": "for all parsers, histories of set-up calls and parse(), calls, configurations and identifiers", "why_tests_cant": "the claim is about the texts in all histories, including those with earlier refused calls; tests check the exception type only", "anchors": ["include/sharg/parser.hpp: verify_identifiers, verify_option_config, verify_flag_config, verify_positional_option_config, check_parse_not_called, is_option_set, get_sub_parser"]}
{"id": "C72", "title": "Numbers written by the replacement of to_chars can be read back", "statement": "The replacement of std::to_chars writes into the given buffer only, reports value_too_large exactly if the text does not fit (and writes nothing then), and the text it writes is read back as the same number.", "quantifier": "for all floating point types, numbers and buffers", "why_tests_cant": "tests write one number with few digits; the loss begins with the seventh digit", "anchors": ["include/sharg/std/charconv: to_chars_floating_point, to_chars"]}
{"id": "C73", "title": "The destructor gives a running server call three seconds and never hangs", "statement": "Whatever the order of the events of the main thread and of the detached thread: the promise of the version check gets at most one value; the destructor of the parser returns after three seconds at most, at once if no check is performed, and before the three seconds only if the server call is over; a program ends with a server call still running only if the call has been given three seconds.", "quantifier": "for all interleavings of the main thread, the detached thread and the clock, and all durations of the server call", "why_tests_cant": "tests switch the version check off or run it without a network; schedules and durations cannot be enumerated", "anchors": ["include/sharg/parser.hpp: ~parser, run_version_check, parse", "include/sharg/detail/version_check.hpp: call_server, version_checker::operator()"]}
{"id": "C74", "title": "Options can stand anywhere on the command line", "statement": "The order of the command line matters only for positional arguments among each other and for values given to the same option: exchanging neighbouring items that are not related in this way changes neither the way parse() ends nor its effect. For options this holds on incorrect lines as well.", "quantifier": "for all set-ups, all command lines made of items, and all rearrangements", "why_tests_cant": "tests use a few fixed orders; the number of rearrangements and set-ups is unbounded, and the parser searches the line once per option", "anchors": ["include/sharg/detail/format_parse.hpp: get_option, find_option_id, identify_and_retrieve_option_value, get_flag, get_positional_option", "include/sharg/parser.hpp: determine_format_and_subcommand"]}
{"id": "C75", "title": "Pages and terminals", "statement": "The terminal decides only about fonts and line breaks: a page printed on any two terminals or files of any widths fails in the same way or has the same words in the same order; exported pages do not depend on the terminal; with the same width, a terminal and a file get the same lines up to font sequences.", "quantifier": "for all set-ups, meta data, stored values, kinds of pages, and terminal widths", "why_tests_cant": "the tests run without a terminal, hence never with fonts and only with the width of 80 columns; widths, texts and entries are unbounded", "anchors": ["include/sharg/detail/format_help.hpp: format_help, console_layout_struct, print_text, text_width, to_text, in_bold", "include/sharg/detail/terminal.hpp: stdout_is_terminal, get_terminal_width", "include/sharg/detail/format_base.hpp: format_help_base::parse, print_version, print_legal"]}
{"id": "C76", "title": "What is printed where", "statement": "If the validators print nothing, standard output carries nothing but the requested page, and a parser object prints at most one; the text of the page depends on the set-up, the variables and the kind of page only, not on the rest of the command line or the system; standard error gets nothing but the question and the messages of the version check, the question only if both standard input and standard error are terminals and nobody decided before, and nothing if the check is switched off.", "quantifier": "for all set-ups, command lines, systems, histories of calls on a parser object", "why_tests_cant": "the tests capture the output of some runs; that nothing else is ever printed is a statement about all of them", "anchors": ["include/sharg/parser.hpp: parse, run_version_check", "include/sharg/detail/version_check.hpp: operator(), decide_if_check_is_performed", "include/sharg/detail/format_help.hpp", "include/sharg/detail/format_tdl.hpp"]}
{"id": "C77", "title": "What the answer of the server can do", "statement": "Whatever the server sends, standard error gets one of at most sixteen texts that are known before (question and messages, each printed or not): nothing that was sent is printed. If only a part of the answer has arrived, because the download is going on or was stopped at any point, the version check says nothing that it does not say for the whole answer.", "quantifier": "for all answers of the server, points at which they are cut off, apps and systems; for all programs that use the parser", "why_tests_cant": "the tests write a few complete version files; the answer is arbitrary text from the network and can be cut off everywhere", "anchors": ["include/sharg/detail/version_check.hpp: operator(), get_numbers_from_version_string, call_server", "include/sharg/parser.hpp: run_version_check"]}
{"id": "C78", "title": "What the version check writes to the disk", "statement": "However the version check runs and ends, it changes nothing on the disk outside of ~/.config/seqan but the test file in the directory for temporary files: the current directory is left alone, and files of other names keep their contents.", "quantifier": "for all apps, builds, decisions, systems, disks and answers of the user", "why_tests_cant": "the tests look at the cookie in a directory that they have prepared; the statement is about all files of all disks, whatever can be read or written there", "anchors": ["include/sharg/detail/version_check.hpp: get_path, write_cookie, decide_if_check_is_performed", "include/sharg/detail/safe_filesystem_entry.hpp"]}
{"id": "C79", "title": "What the shell makes of the server command", "statement": "The text that the version check hands to the shell makes it run exactly one program, env with wget or curl, with fixed options, the path of the version file as one argument, and the address as another; output and errors are thrown away. The name and version of the app, which come from the developer, and the directory of the cookies cannot change this.", "quantifier": "for all apps, versions, systems, home directories and decisions", "why_tests_cant": "the tests do not look at the command; what a shell makes of it depends on every character of HOME, of the name and of the version", "anchors": ["include/sharg/detail/version_check.hpp: operator(), get_path, get_program, call_server", "include/sharg/parser.hpp: verify_app_and_subcommand_names"]}
{"id": "C80", "title": "Options that share a variable", "statement": "If two options are registered for one variable, the option given last on the command line decides about its value, and the value has passed the validator of every option that was given for it. A variable none of whose options is given keeps its value.", "quantifier": "for all reachable programs, all numbers of options, flags and positional options on one variable, and all well-formed lines", "why_tests_cant": "no test registers a variable twice; who wins depends on the order of registrations, the kinds of options and the line", "anchors": ["include/sharg/detail/format_parse.hpp: parse, get_option, get_flag, get_positional_option", "include/sharg/parser.hpp: add_option, add_flag, add_positional_option"]}
{"id": "C81", "title": "Only well-formed lines are accepted", "statement": "If parse() returns, the arguments are a well-formed line: a sequence of options with their values, flags, groups of short flags and words, optionally followed by -- and further words. There is only one way to read it so, and the variables hold what this reading means. Conversely every well-formed line with a meaning is accepted.", "quantifier": "for all reachable programs, all arguments without request, all declarations, variables and worlds", "why_tests_cant": "tests try single malformed lines; that nothing else is accepted ranges over all lines and declarations", "anchors": ["include/sharg/detail/format_parse.hpp: format_parse::parse, get_option, get_flag, get_positional_option, check_for_unknown_ids, check_for_left_over_args", "include/sharg/parser.hpp: parser::parse"]}
{"id": "C82", "title": "Applications with subcommands read their line level by level", "statement": "An application that registers its options, parses, and goes on with the sub-parser divides its arguments into consecutive parts, one for each level: no argument is lost, repeated or seen by two levels. If every part is a well-formed line for the options registered at its level, the application accepts the line and the variables hold what the levels mean, one after the other. Conversely an accepted level is a well-formed line followed by the subcommand. The run is determined by its start and ends after at most as many levels as there are arguments.", "quantifier": "for all applications (what is registered may depend on the parser, the variables and the world), all depths of subcommands, all arguments, variables and worlds", "why_tests_cant": "tests have one or two levels with fixed options; the statement ranges over all depths and all registrations at every level", "anchors": ["include/sharg/parser.hpp: parser::parse, determine_format_and_subcommand, get_sub_parser, add_subcommands", "include/sharg/detail/format_parse.hpp: format_parse::parse"]}
{"id": "C83", "title": "Floating point options hold the nearest number", "statement": "An option of floating point type accepts exactly the decimal numbers (digits with or without a point and an exponent, no plus sign in front, nothing in front of or behind them) and the words for infinity and NaN, each with an optional minus sign. The variable then holds the number of the type nearest to the given one, the even one of two; numbers beyond the largest number, and numbers other than 0 that would become 0, are rejected. So the spelling of a number does not matter, the order of numbers is kept, numbers of the type (such as integers up to 2^53 for double) are held without error, and with a range validator the value lies in the interval and is not NaN.", "quantifier": "for all texts, all binary formats (float, double), all decimal numbers of any length and exponent, all command lines", "why_tests_cant": "decimal numbers of any length with any exponent; correct rounding is a statement about all of them", "anchors": ["include/sharg/detail/format_parse.hpp: parse_option_value (arithmetic types)", "include/sharg/validators.hpp: arithmetic_range_validator::operator()"]}
{"id": "C84", "title": "Default values of floating point options are shown so that they can be given", "statement": "For an option of floating point type the help page shows the default value as a decimal number with the right sign. The text is never rejected when it is given to the option, and the variable then holds the default value again; infinity and NaN are shown so that they are read as such.", "quantifier": "for all numbers of the type (float, double and other binary formats), all programs and all command lines on which the shown text is given in whatever spelling", "why_tests_cant": "a double has 2^64 patterns; whether a value survives depends on its distance to decimals with six digits", "anchors": ["include/sharg/detail/format_base.hpp: get_type_name_as_string / default value in the description", "include/sharg/detail/to_string.hpp: to_string", "include/sharg/detail/format_parse.hpp: parse_option_value (arithmetic types)"]}
{"id": "C85", "title": "File names on the command line are read as they are given", "statement": "An option or positional option whose variable is a std::filesystem::path holds, after parse() has returned, exactly the file name that was given, so that every file that exists can be named on the command line.", "quantifier": "for all file names, all programs with path options, scalar or list, and all argument vectors, in whatever spelling", "why_tests_cant": "file names are arbitrary texts; the tests only name temporary files without blanks", "anchors": ["include/sharg/detail/format_parse.hpp: parse_option_value (istreamable types)", "include/sharg/detail/format_base.hpp: default value in the description", "include/sharg/concept.hpp: istreamable"]}
{"id": "C86", "title": "When parse() has returned, the files are as the validators promise", "statement": "After parse() has returned, every path that was given to an option or positional option with a file validator is at that moment what the validator promises: inputs exist and can be read, new outputs do not exist and can be created, no output is one of the inputs; and parse() has not changed any file.", "quantifier": "for all programs, all file systems, all argument vectors in whatever spelling, paths and texts, scalars and lists", "why_tests_cant": "the validators are tested one at a time on temporary files; what a later validator does to a file that was checked before depends on the combination of options and paths", "anchors": ["include/sharg/validators.hpp: input_file_validator, output_file_validator, input_directory_validator", "include/sharg/detail/format_parse.hpp: get_option, get_positional_option", "include/sharg/detail/safe_filesystem_entry.hpp: safe_filesystem_entry"]}
{"id": "C87", "title": "Parsers in one program do not influence each other", "statement": "What a parser does depends on its own registrations, its own arguments and its own variables: in a program with several parser objects every call on one of them ends as if the others did not exist, and its variables get the same values; variables that are registered nowhere are neither read nor changed.", "quantifier": "for all programs with any number of parser objects, all interleavings of set-up calls, parse(), construction, moves and destruction of the others, all command lines, all values of the other variables", "why_tests_cant": "the tests use one parser at a time; an influence through a shared or forgotten state would show only for particular interleavings and values of unrelated variables", "anchors": ["include/sharg/parser.hpp: parser::parse, parser::operations", "include/sharg/detail/format_parse.hpp: get_option, get_flag, get_positional_option", "include/sharg/detail/format_base.hpp: add_option, add_positional_option"]}
{"id": "C88", "title": "The name of a type tells which values are accepted", "statement": "The help page shows for every option and positional option the name of its type. The name tells which texts are accepted: 'signed N bit integer' and 'unsigned N bit integer' the whole numbers that fit into N bits, 'float' and 'double' the decimal numbers in range, 'bool' the four words for truth values, 'char' a character, 'std::string' and 'std::filesystem::path' any text; every other text is rejected, and the message then calls the type the same and shows the limits that the name promises. Different types have different names.", "quantifier": "for all types get_type_name_as_string knows, all texts, all programs and command lines, single values and lists", "why_tests_cant": "the tests compare a few pages and a few messages; whether a name is right depends on all values of the type, up to 2^64 of them", "anchors": ["include/sharg/detail/format_base.hpp: get_type_name_as_string, option_type_and_list_info", "include/sharg/detail/format_parse.hpp: parse_option_value, throw_on_input_error", "include/sharg/detail/type_name_as_string.hpp"]}
{"id": "C89", "title": "POSIX conventions for arguments", "statement": "As the documentation of the parser promises, flags can be grouped (`-a -b` is `-ab`), the blank between an option and its value is optional (`-c foo` is `-cfoo`), and `--` ends the options. Beyond that, POSIX wants a single hyphen to be an ordinary argument and a group to be allowed to end with an option and its value.", "quantifier": "for all programs, all command lines, all positions and numbers of such arguments in the line", "why_tests_cant": "the conventions are equivalences between infinitely many pairs of command lines, in any surroundings", "anchors": ["include/sharg/parser.hpp: documentation, The POSIX conventions", "include/sharg/detail/format_parse.hpp: get_option_by_id, get_flag, check_for_unknown_ids"]}
{"id": "C90", "title": "Patterns are matched against the whole value", "statement": "An option with a regex_validator accepts a value exactly if the value matches the pattern completely; for a list, exactly if each of its elements does.", "quantifier": "for all patterns (as predicates on texts), all values of type std::string or std::filesystem::path, all programs, histories and argument vectors", "why_tests_cant": "patterns and values are unbounded; the only test with a path uses a path without directories, for which the two overloads of operator() cannot be told apart", "anchors": ["include/sharg/validators.hpp: regex_validator::operator()", "doc/tutorial/parser/index.md: The sharg::regex_validator"]}
{"id": "C91", "title": "The program of the tutorial gets what it asked for", "statement": "When parse() returns in the program that the tutorial offers for copying, the file can be read and has the wanted name and extension, the seasons are numbers from 1 to 7 and there is at least one, and the way of aggregation is one of the two known ones; and every line with such values is accepted, in every spelling.", "quantifier": "for all argument vectors, files, current directories and answers of the version check, in debug and release builds", "why_tests_cant": "the program is only shown in the documentation; arguments and file systems are unbounded", "anchors": ["doc/tutorial/parser/solution6.cpp: main, initialise_parser, run_program", "include/sharg/parser.hpp: parser::parse"]}
{"id": "C92", "title": "After parse() there is a sub-parser", "statement": "After parse() of a parser with subcommands has returned, get_sub_parser() returns the parser of the subcommand on the line; the program of the how-to hands every line to push or pull, reports the error or prints a page.", "quantifier": "for all parsers with subcommands, argument vectors and answers of the version check", "why_tests_cant": "the tests call get_sub_parser() only for lines with a subcommand; argument vectors are unbounded", "anchors": ["include/sharg/parser.hpp: parser::get_sub_parser, parser::determine_format_and_subcommand", "doc/howto/subcommand_parser/subcommand_parse.cpp: main, run_git_pull, run_git_push", "doc/howto/subcommand_parser/index.md"]}
{"id": "C93", "title": "Killed at any moment of parse()", "statement": "Whenever programs are killed inside parse(), again and again, every file and directory is as before, except those named as an output on a command line and the places used by the version check; there, it is gone, an empty file, a new directory, or a cookie of the app.", "quantifier": "for all sequences of programs (calls, options, positional options, lists, validators, arguments, environments), all disks, and all moments of death of each of them", "why_tests_cant": "a test cannot kill the program between any two system calls of a validator or of the version check, and the sequences of runs are unbounded", "anchors": ["include/sharg/parser.hpp: parser::parse", "include/sharg/validators.hpp: output_file_validator::operator(), output_directory_validator::operator(), file_validator_base::validate_writeability, safe_filesystem_entry.hpp", "include/sharg/detail/version_check.hpp: version_checker::operator(), version_checker::get_path, version_checker::write_cookie"]}
{"id": "C94", "title": "Damaged time stamp files and wrong clocks", "statement": "Whatever the time stamp file of an app contains, it keeps the app from asking for a version check for at most a day from now, unless it says NEVER: a file that is damaged, cut off, or written while the clock was wrong is replaced by the next run that may ask.", "quantifier": "for all texts of the file, all clocks in the next 285 million years, all systems with a usable directory, and all histories of runs of this and other apps and of changes from outside that leave the file alone", "why_tests_cant": "the contents of the file and the clocks are unbounded; the tests of the project write three well-formed files, and the age is computed in double after std::from_chars, whose rules for prefixes, inf, nan and out-of-range numbers no test exercises", "anchors": ["include/sharg/detail/version_check.hpp: version_checker::decide_if_check_is_performed, get_time_diff_to_current, write_cookie"]}
{"id": "C95", "title": "A script can give every value", "statement": "For every choice of values for the options of a program, of flags to be set and of words for the positional options, there is a command line on which parse() returns with exactly these values.", "quantifier": "for all programs (set-ups, types, validators), all values of all options, all sets of flags, all lists of words", "why_tests_cant": "the values and set-ups are unbounded, and whether some value cannot be given by any command line is a statement about all command lines", "anchors": ["include/sharg/detail/format_parse.hpp: parse, get_option, get_flag, flag_is_set, parse_positional_option", "include/sharg/parser.hpp: parser::init, parser::parse"]}
{"id": "C96", "title": "New options and flags do not break old command lines", "statement": "If a new release of a program only adds options and flags that are not required, every command line that does not use them gives in the new release what it gave in the old one: the same return or exception, the same values of all variables, the same arguments for the parser of a subcommand.", "quantifier": "for all set-ups, all choices of added options and flags at any place of the set-up, all command lines (also erroneous ones), all environments", "why_tests_cant": "relates two programs on all command lines; the interference (an added option taking the value of an old one) depends on the order of registration and on the texts of values", "anchors": ["include/sharg/parser.hpp: parser::add_option, parser::add_flag, parser::parse, parser::determine_format_and_subcommand", "include/sharg/detail/format_parse.hpp: parse, get_option, get_option_by_id, find_option_id, get_flag, flag_is_set, check_for_unknown_ids"]}
{"id": "C97", "title": "Texts stay valid UTF-8", "statement": "If every text that the developer chose, every argument and every text in a variable is valid UTF-8, then everything the parser writes and keeps is: all pages (also when printing stops with an exception), all values of options, the arguments handed to the parser of a subcommand, and the messages of all exceptions.", "quantifier": "for all set-ups, command lines, environments, formats and texts of any length, with any Unicode characters in any place", "why_tests_cant": "every place where a text is cut (at '=', at blanks, at single letters, at backslashes, between flags) has to be looked at for every text; tests use ASCII only", "anchors": ["include/sharg/detail/format_parse.hpp: identify_and_retrieve_option_value, flag_is_set, check_for_unknown_ids, throw_on_input_error", "include/sharg/detail/format_base.hpp: expand_multiple_flags", "include/sharg/detail/format_help.hpp: to_text, print_text, print_header", "include/sharg/detail/format_html.hpp: to_html, escape_special_xml_chars", "include/sharg/detail/format_man.hpp: print_header, print_section", "include/sharg/parser.hpp: determine_format_and_subcommand"]}
{"id": "C98", "title": "The developer is blamed only for the developer's mistakes", "statement": "Which calls throw design_error depends on the set-up only, never on the user: in two runs with the same set-up calls, whatever the command lines, variables, outside world and builds are, the same set-up calls, the same parse() and afterwards is_option_set() for the same identifiers throw it, and get_sub_parser() does so in both or in none; parse() throws it exactly if it was called before or a name is not clean; set-up calls throw nothing else, and all other parser exceptions of parse() are errors of the user.", "quantifier": "for all histories of set-up calls and parse(), all pairs of command lines, stores, worlds and environments, all identifiers, and all applications with subcommands of any depth", "why_tests_cant": "it relates two runs on arbitrary different command lines and in different environments; a test shows one run at a time and cannot show that no line whatever makes a correct program fail with a design error", "anchors": ["include/sharg/exceptions.hpp: design_error", "include/sharg/parser.hpp: parse, verify_app_and_subcommand_names, add_option, add_flag, add_positional_option, get_sub_parser, is_option_set", "include/sharg/detail/format_parse.hpp: parse"]}
{"id": "C99", "title": "A release that demands less accepts what was accepted before", "statement": "If a new release of a program has the same options, flags, positional options and subcommands for the same variables, but wider types (more integers, more enumeration names), looser validators, options that are no longer required, and other texts on its pages, then its set-up is accepted if that of the old release is, every command line on which parse() returned returns with the same variables, world, remaining arguments and sub-parser, and every line that printed a page comes to a page of the same kind.", "quantifier": "for all sets of declarations and all loosenings of them, all validators with effects on the outside world, all command lines, stores, worlds and environments", "why_tests_cant": "it relates two arbitrary programs on every command line that the first one accepts; a test compares two concrete programs on a few lines and does not see that a silently dropped element of a list comes back when the type is widened", "anchors": ["include/sharg/detail/format_parse.hpp: parse_option_value, throw_on_input_error, get_option, get_positional_option", "include/sharg/parser.hpp: add_option, add_positional_option, add_flag, parse", "include/sharg/validators.hpp: arithmetic_range_validator, value_list_validator, validator_chain_adaptor"]}
{"id": "C100", "title": "How parse() ends on a line, and what it leaves in the variables", "statement": "For every line on which options are written unambiguously (flags and long identifiers may be unknown), parse() ends in exactly one way, given by: the options in order of registration, up to the first exception; for each the texts that are read, the values written (also parts of a text that is rejected), options given twice, lists given with both identifiers, missing required options, validators; then the flags, unknown_option if one is repeated or unknown, all mentioned flags being set then; then the words, one for each positional option, too few or too many of them. A mistake in the options decides whatever else is on the line.", "quantifier": "for all programs, lines of items (values readable or not, options and flags repeated, missing or unknown, any number of words), stores, worlds, validators with effects, debug and release builds", "why_tests_cant": "it fixes the exception and the content of every variable for every line with any combination of mistakes; tests look at single mistakes and rarely at the variables after an exception", "anchors": ["include/sharg/detail/format_parse.hpp: parse, get_option, get_option_by_id, parse_option_value, throw_on_input_error, get_flag, flag_is_set, check_for_unknown_ids, get_positional_option, check_for_left_over_args", "include/sharg/parser.hpp: parse"]}
{"id": "C101", "title": "How any call of parse(), and an application with subcommands, ends", "statement": "A call of parse() that has not been made before ends in one of six ways: design_error for a bad name; an assertion without arguments; an exception for an unknown subcommand or a bad value of --export-help or --version-check; the exception of the version check; the page requested last (short help if there is nothing to parse); otherwise as the line in front of the subcommand ends by C100, decisions about the version check taken out. An application with subcommands ends as its first level ends that does not return, or as its last level; each level starts with the variables and the world left by the one above. A mistake at one level ends the application, whatever is written behind the subcommand.", "quantifier": "for all applications (what is registered may depend on the level, the variables and the world), all arguments that are unambiguous where they are parsed, any number of levels, stores, worlds, version checks and pages with effects", "why_tests_cant": "the number of levels, the applications and the combinations of mistakes at the levels are unbounded", "anchors": ["include/sharg/parser.hpp: parse, determine_format_and_subcommand, get_sub_parser, parse_format, run_version_check", "include/sharg/detail/format_parse.hpp: parse"]}
{"id": "C102", "title": "Correcting the reported mistake makes progress, and comes to an end", "statement": "parse() goes through stages in a fixed order: one for each option, one for the flags, one for each positional option, one for words that are left over. Whenever it throws, exactly one stage is to blame. If the line is changed so that this stage ends well and nothing changes for the stages in front of it, the next call returns or blames a later stage, so a corrected mistake is never reported again. Any chain of such corrections has at most as many corrections as there are options and positional options, plus two. Nothing changes for an option if it is given the same texts by its short and by its long identifier.", "quantifier": "for all declarations, all chains of lines of any length with any number of mistakes, all stores, worlds and validators with effects, debug and release builds", "why_tests_cant": "the number of declarations, of mistakes and of corrections is unbounded", "anchors": ["include/sharg/detail/format_parse.hpp: parse, get_option, get_flag, get_positional_option, check_for_unknown_ids, check_for_left_over_args"]}
{"id": "C103", "title": "A pattern accepts exactly the texts it describes", "statement": "Every pattern of the ECMAScript grammar (alternatives, repetitions, groups, bracket expressions with ranges and named classes, escapes, ^ and $) has exactly one meaning, and regex_validator accepts a text exactly if the whole text has this meaning; of a list, it accepts exactly those in which every element has it. When parse() has returned, every text that was given for a pattern has its meaning. The patterns in the code describe what they should: names of applications and subcommands, versions, the version in front of a longer text. A pattern that cannot be read is a mistake of the application and is reported as a design_error.", "quantifier": "for all patterns and texts of any length, all lists, all histories of set-up calls, all arguments, stores and worlds", "why_tests_cant": "patterns nest without limit and every pattern with a repetition describes texts of any length; the unit tests try five patterns on a few words", "anchors": ["include/sharg/validators.hpp: regex_validator", "include/sharg/detail/format_parse.hpp: get_option, get_positional_option", "include/sharg/parser.hpp: app_name_regex", "include/sharg/detail/version_check.hpp: version_regex, get_numbers_from_version_string"]}
{"id": "C104", "title": "A file name that passed a pattern and a file check in a row has both properties", "statement": "A pattern followed by an input file check (operator|) accepts a text exactly if the pattern describes it and it names a file that can be read and has one of the extensions; in every program, when parse() has returned, every text given for such an option has both properties with the files as they are then. The documentation's program with these validators (validators_chaining.cpp) ends on every line as described: option given twice, name rejected, unknown option, too many arguments, or file_name holding a name that passed; whenever it says that the name given by the user passed validation, this is so; and it accepts every absolute path of a readable file with one of the extensions.", "quantifier": "for all patterns of the grammar, extensions, texts, lists, file systems, histories of set-up calls and arguments; for the program: all command lines, files and answers of the version check", "why_tests_cant": "the snippet test runs the program without arguments; names, directories and lines are unlimited", "anchors": ["include/sharg/validators.hpp: validator_chain_adaptor, regex_validator, input_file_validator", "include/sharg/detail/format_parse.hpp: get_option", "test/snippet/validators_chaining.cpp: main"]}
{"id": "C105", "title": "The documented program that asks which options are set", "statement": "The program of test/snippet/is_option_set.cpp, the documentation's example for is_option_set, ends on every line in exactly one of the ways described: it prints a page, reports the parser error, or - if parse() returned - says for each of the two options it asks about whether the user set it and finishes; the line for -a is printed whenever the user gave the option, under either of its names.", "quantifier": "for all command lines, environments (version check, terminal, build type) and states of the outside world; for the lines with one option: all numbers and all spellings", "why_tests_cant": "the snippet test runs the program with no arguments, where parse() never returns, so the lines behind it are never executed by any test", "anchors": ["test/snippet/is_option_set.cpp: main", "include/sharg/parser.hpp: is_option_set"]}
{"id": "C106", "title": "Commands without options, and the documented program with subcommands of subcommands", "statement": "A parser for which no option, flag or positional option was registered accepts no arguments, empty arguments and one --, rejects every argument written like an option as unknown and everything else as too many, and changes no variable. In the program of test/snippet/add_subcommands.cpp every documented command runs: git pull and git push with a repository, git remote set-url with a repository, and git remote show; every error of the library is reported and no subcommand goes unhandled.", "quantifier": "for all programs and histories of set-up calls, argument lists, environments and states of the outside world; for the program: all command lines, repositories and places of --", "why_tests_cant": "the snippet test runs the program with no arguments; the subcommand tests use parsers with options, so a level without registrations is never parsed with its own arguments", "anchors": ["include/sharg/parser.hpp: parse, get_sub_parser, add_subcommands", "include/sharg/detail/format_parse.hpp: check_for_unknown_ids, check_for_left_over_args", "test/snippet/add_subcommands.cpp: run, main"]}
