# Formal model of the Sharg parser: design

Source: `/repo` (seqan/sharg-parser, pinned commit), read as text only. Nothing was built or run.
Model and proofs: Lean 4.33.0, `/verif/lean/Verif`. English properties: `/verif/properties.jsonl`.

## Trusted base

* The Lean 4 kernel (and `lake build` to drive it).
* Axioms: only the three standard ones, `propext`, `Classical.choice`, `Quot.sound`. No own axioms, no
  `sorry`, no `native_decide`, no `bv_decide`. The axioms of each theorem are listed at the end of this file.
* That the model definitions say what the C++ code does. Every definition cites file and lines; every
  simplification is stated in its comment. This is checked by reading, not by Lean.
* The behaviour of the C++ standard library as described in the C++ standard: `std::find_if`, `std::string`,
  `std::from_chars` for integers, `std::sort`/`std::unique`, `std::unordered_set::insert`, `std::regex_match`
  with the grammar of ECMAScript as far as `Model/Regex.lean` covers it.

## How the model is built

* A string is a list of characters (`Str`). A `char` is a Lean `Char`; bytes outside ASCII are treated like
  any other non-special character.
* User variables are cells of a store `VarId → Val`. Options hold a reference to a cell, as in the code, so
  two options may share a cell, and a failed parse shows which cells it modified.
* Results: normal return, exception (with the exception class), `std::exit`, failed `assert` (only in builds
  without `NDEBUG`; the build kind is a parameter), undefined behaviour (its own outcome, never totalised
  away).
* An iterator into the argument vector is a split of the list into "before" and "from here on".
  `end_of_options_it` is the split of the arguments at the first `--`; this is faithful because arguments
  are only overwritten in place, never inserted or erased.
* Everything outside the parser is a parameter: validators (functions on values and an abstract world that
  they may change), conversions of foreign types (`operator>>`, `long double`), the file system, the clock,
  the terminal state, the environment.

## Files

| Model file | Code |
|---|---|
| `Model/Base.lean` | strings, exceptions, the state-and-exception monad |
| `Model/Value.lean` | `parse_option_value`, `throw_on_input_error`, integer `from_chars` |
| `Model/FormatParse.lean` | `detail/format_parse.hpp` |
| `Model/Setup.lean` | `add_*`, `verify_*`, `add_subcommands`, `is_option_set`, parser state (`parser.hpp`) |
| `Model/Scan.lean` | `determine_format_and_subcommand` |
| `Model/Parser.lean` | `parse()`, histories of API calls, sub-parsers |
| `Model/Validators.lean`, `Model/Files.lean`, `Model/Messages.lean` | `validators.hpp`, `detail/safe_filesystem_entry.hpp` |
| `Model/Text.lean` | text functions of `detail/format_base.hpp`, `format_help.hpp`, `format_html.hpp`, `to_string.hpp` |
| `Model/Page.lean` | `format_help_base` of `detail/format_base.hpp`: which print calls make up a page |
| `Model/Help.lean`, `Model/Html.lean`, `Model/Man.lean` | `detail/format_help.hpp`, `format_html.hpp`, `format_man.hpp`: how they are printed |
| `Model/Tdl.lean` | `detail/format_tdl.hpp` up to the data structure handed to the external library |
| `Model/Pages.lean` | which format prints which page (`parse_format`, construction of the formats) |
| `Model/System.lean` | file texts, path texts, clock, environment variables, terminals, streams |
| `Model/VersionCheck.lean` | `detail/version_check.hpp`, `run_version_check`, and the parser on a real system (`Surroundings`) |
| `Model/ServerCall.lean` | the detached thread of `call_server`, the waiting in `~parser`, `std::exit` |
| `Model/Float.lean` | `parse_option_value` for `float` and `double`: `std::from_chars` as the standard describes it; range validators on these types |
| `Model/Charconv.lean` | `std/charconv`: `from_chars_floating_point`, its two uses |
| `Model/ToChars.lean` | `std/charconv`: `to_chars_floating_point` |
| `Model/FloatShow.lean` | `to_string` / `to_chars_floating_point` for `float` and `double`: `operator<<` as the standard describes it |
| `Model/PathValue.lean` | `parse_option_value` for `std::filesystem::path` (`operator>>`, that is `std::quoted`, as the standard describes it), and file validators attached to options that hold paths |
| `Model/TypeNames.lean` | the C++ types of option variables: `get_type_name_as_string`, their limits and how they are read and printed |
| `Model/Moved.lean` | moving and destroying parser objects, the captured `this` of the deferred operations |
| `Model/ErrorTexts.lean`, `Model/SetupTexts.lean` | the texts of the exceptions of `parse()`, of the set-up functions, `is_option_set`, `get_sub_parser` (those of the validators are in `Model/Messages.lean`) |
| `Model/Steps.lean` | the validators and the version check once more, as sequences of atomic steps; machines with several processes, schedules, crashes |
| `Model/Killed.lean` | `parse()` on a system where the program lives for a given number of steps: the validators for paths and the version check of `Model/Steps.lean` as hooks and validators of the parser |

`Spec/*.lean` holds the independent specifications, `Lemmas/*.lean` the supporting lemmas, `Props/*.lean` the
property theorems with their non-vacuity examples.

`Tests/*.lean` executes the project's own unit tests (`/repo/test/unit`) on the model: the expected values, exceptions and
pages were copied from the C++ tests, and `#guard` makes the build fail if the model disagrees. These are tests of the
model, not proofs, and no theorem depends on them. Their purpose is the one point Lean cannot check, that the model says what
the code does. Transcribed: `format_parse_test.cpp`, `format_parse_validators_test.cpp`, `parser_design_error_test.cpp`,
`subcommand_test.cpp`, `enumeration_names_test.cpp`, `format_help_test.cpp`, `format_html_test.cpp`, `format_man_test.cpp`,
`format_ctd_test.cpp`, `format_cwl_test.cpp`, `safe_filesystem_entry_test.cpp`, `version_check_test.hpp`,
`charconv_int_test.cpp` (base 10), `charconv_float_test.cpp` (reading), each without the parts on C++ types, `long double` and exception texts.

## Not modelled

* The external library `tdl` that turns the tool description into CTD or CWL text: an arbitrary function.
* `detail/type_name_as_string.hpp`: names of types that `get_type_name_as_string` does not know are parameters (`Model/TypeNames.lean` has the known ones). `detail/terminal.hpp`: terminal width and terminal state are parameters.
* `strtof`, `strtod`, `strtold` and `operator>>` of user types: arbitrary functions. `std::from_chars` for `float` and `double` is modelled after its
  specification (C83); the theorems on `parse()` hold for every conversion.
  The replacements in `std/charconv` are in `Model/Charconv.lean` and `Model/ToChars.lean`. The model
  of `parse()` takes the conversion as a function of the text, which the replacement is only as long as `errno` is clear (C63).
* `std::regex` of user supplied patterns (`regex_validator`): an arbitrary predicate, except in C103, where patterns are read and
  matched (`Model/Regex.lean`); backreferences, look-ahead, word boundaries, characters given by number and collating elements are
  not covered. Which overload of `operator()` is called for a path is decided in
  the comment of `Model/PathRegex.lean`, not in Lean.
* What the server command does: the sequential model stops at the command string; `Model/ServerCall.lean` knows that it ends at
  some time, or never.
* Calls on a parser object that was moved from (its state is unspecified). Moving itself is in `Model/Moved.lean`; copying is
  deleted in the code.
* Steps smaller than one call of `std::filesystem`, one opening or one writing of a short file, and one `remove_all`: each of
  these is atomic in `Model/Steps.lean`. Lemmas (`..._run` in `Lemmas/Steps.lean`) prove that the steps, run without
  interruption, are the functions of the sequential model.

## Plan per property

"Negation" means: the code violates the English property. The model then contains a theorem proving the
violation on a concrete witness, and a `_partial` theorem with the strongest true statement found.

| Id | What is modelled, how it is proved |
|---|---|
| C01 | history of API calls as list of operations; invariant by induction |
| C02 | decision logic; `add` succeeds iff a specification predicate over the accepted entries |
| C03 | negation (identifiers stay reserved, short before long is checked); partial: registered operations, subcommands and flags of the object unchanged |
| C04 | history induction |
| C05 | history induction for the positional part; negation for subcommands added later; partial with the order restriction |
| C06 | `Perm`/`Pairwise` over lists |
| C07 | decision logic plus induction over nesting |
| C08 | negation for `--version-check`; partial for the other ones |
| C09 | invariant of the scanning loop |
| C10 | specification as "last request in the token grouping" |
| C11 | iff over the scanning result |
| C12 | scanning lemma over arbitrary prefixes; parsing lemma |
| C13 | scanning with an explicit decomposition of the line; chain by induction |
| C14 | scanning lemma |
| C15 | two negations (flags after `--`, requests after `--`); partial with the exact side condition |
| C16 | `Sublist` with exact token grouping |
| C17 | item grammar, renderer, meaning; round trip by induction over items and over declarations |
| C18 | inverse direction: invariant relating each cell to its origin |
| C19 | corollary of the one-pass characterisation |
| C20 | frame invariant through the monad |
| C21 | from the success characterisation |
| C22 | counting lemma |
| C23 | negation (short values are dropped when the long identifier is also used); partial for one identifier |
| C24 | from C17/C18 lemmas; permutation |
| C25 | counting lemma; `-a-` effects recorded as findings |
| C26 | invariant |
| C27 | exact characterisation of the positional phase |
| C28 | case analysis |
| C29 | `from_chars` by induction over digits, round trip with a decimal printer |
| C30 | decision logic; negation for an empty enumeration table (std::out_of_range) |
| C31 | negation in release builds (overflow in a list element is dropped); partial otherwise |
| C32 | negation; partial: scanning and design errors touch nothing, and variables of later entries are untouched |
| C33 | invariant with a call log of validators |
| C34 | permutation of declarations on well-formed lines; negation for look-alike values |
| C35 | negations (value looks like the id, grouped flags); partial on well-formed lines |
| C36, C37, C38 | decision logic, induction over lists, monoid laws |
| C39 | negation (no dot is required); partial: exact characterisation |
| C40 | abstract file system, decision logic |
| C41 | negation (existing file is deleted in `open_or_create`); partial for `create_new` / absent files |
| C42 | negation (`dummy.txt` is deleted); partial otherwise |
| C43 | negation for HTML/man exports of advanced options; partial for the rest |
| C44 | round trip with a decoder |
| C45 | negation (texts are not escaped); partial: the `dl`/`p` structure is balanced; tags balanced for texts with balanced markup |
| C46 | negation (trailing backslash, synopsis without blank); partial for well-formed texts |
| C47 | induction over words |
| C48 | negation (`\\`); partial for texts without it |
| C49 | arithmetic over all widths |
| C50 | precedence table |
| C51 | induction over runs |
| C52 | negation (ALWAYS is never refreshed); partial for ASK |
| C53 | character-class lemma |
| C54 | order lemma; overflow of the numbers recorded |
| C55 | negation (the constructor creates directories and files); partial: no server contact |
| C56 | round trip for quoted strings; negation for unquoted lists if ambiguous |
| C57 | negation (missing blank before "and"); exact text as partial |
| C58 | negations collected from above; partial: the list of remaining outcomes and their causes |
| C59 | validators as sequences of atomic steps; predicate over all prefixes; negation for `create_new` in the next run |
| C60 | machine with several processes; footprint of each step, invariant over all schedules; negations with schedules |
| C61 | rely/guarantee argument over all schedules; negations with a schedule and a crash point |
| C62 | objects with addresses, operations with the address they were registered at; negations as general theorems |
| C63 | the replacement with an arbitrary C library function and `errno` as state; negations as general theorems; rounding of time stamps |
| C64 | the tool description as data; names from C43 and the invariant of histories (C01); negations as general theorems |
| C65 | texts are injective functions of the constructor arguments; negations with two validators that have the same text |
| C66 | composition of the printers with the reading of lines (C17); negations with a char and an unnamed enumerator |
| C67 | `parse()` once more with texts (`Model/ErrorTexts.lean`); a theorem proves that forgetting the texts gives the model of `parse()`; each phase is then followed with the true reason as postcondition; negations for five kinds of texts |
| C68 | the sections as a list of titles and elements (`Spec/Outline.lean`), the look of each element as a relation; a frame lemma follows the printers step by step |
| C69 | the printers for the console followed with the flag `prev_was_paragraph`; an element ends its line if and only if its text has a word |
| C70 | a reader of man page lines (`Spec/ManPage.lean`), the lines written for each element, and their reading |
| C71 | the set-up functions with texts in the monad of C67, forgotten they are those of `Model/Setup.lean`; case distinction over the checks; invariants of histories |
| C72 | the buffer as a list; `%g` for natural numbers; two numbers with the same six leading digits and the same rounding have the same text |
| C73 | a transition system of two threads and a clock; an invariant of all reachable moments; from the call of the destructor on, the main thread only waits, leaves or ends |
| C74 | the outcome depends on the values per identifier and on the remaining arguments only (lemma of C19); both are invariant under the exchanges |
| C75 | two runs of the printer in lockstep; a relation between the words with and without fonts, closed under the print calls; the outcome of a print call does not depend on the terminal |
| C76 | parts of the system that the check leaves alone, as a predicate closed under bind; set-up calls do not look at the arguments; page functions depend on five members only |
| C77 | the messages are a function of three values; a version cut off within its last number is smaller, elsewhere it is no version |
| C78 | writing a cookie changes one place; construction changes test files and directories only; the place is one of three |
| C79 | a small reader of shell commands in Spec/Shell.lean; words of plain characters are read one by one; C53 for the parts of the command |
| C80 | meaning of a line (C17) as a sequence of assignments; options that are not given are a frame |
| C81 | account of raw arguments (C24) turned into items; the grammar is unambiguous by a reader that inverts rendering |
| C82 | induction over the levels; each level by C16 (scanning) and C17/C81 (lines); the arguments of a sub-parser are a proper suffix |
| C83 | rounding: quotient and remainder against the midpoints of neighbouring patterns, ties by parity; texts: the scanner against the grammar in both directions |
| C84 | exact decimal expansion of the pattern, rounded to six digits; error of half a unit of the sixth digit against gaps between neighbouring patterns |
| C85 | stream extraction of std::quoted step by step: word, quoted loop, end-of-file state; then the lemmas on the given texts of options |
| C86 | world in which a validator was called, threaded through options and positional options by an invariant that all validators keep; then C40 and C41 for single paths |
| C87 | simulation between the program with all parsers and the program with one of them; every function of format_parse on stores that agree on V and worlds related by R |
| C88 | the promise of a name as a predicate on texts; inversion of the names; the conversions by C29, C30, C83 |
| C89 | pairs of lines by the exact description of the parser on lines (as C19, C74); the hyphen by the accounting of arguments (C27); groups by C26 |
| C90 | parts of a path by induction on the text (`mem_pathParts`); `parse()` by C33 |
| C91 | options by `option_final`, the flag by the phases, the path by C86; lines by C17 |
| C92 | readings (`parse_reading`) for the general part; the program level by level with C17 |
| C93 | invariant of the disk kept by every step (`Kept`), `parse()` as a chain of hooks and validators whose values come from the line (`KeepsOn`, `parse_keepsOn`) |
| C94 | `double` subtraction and comparison of the age against rationals (`lessThanDay_finite`), the longest number in front of a line (`fromChars_number`), then the invariant `CookieIs` over histories |
| C95 | explicit line (`recipe`); from uniqueness of identifiers the line says exactly the chosen texts (`given_recipe`, `mentions_recipe`), then C17; the negations from the phases of a successful run |
| C96 | options and flags that nobody mentions leave the state of the option parser alone (`options_unnamed`, `flags_unseen`); the scan reads the same tokens (`reading_congr`); for appended options, what a successful old run leaves over cannot name them (`left_not_named`, `left_not_seen`) |
| C97 | texts are cut only at ASCII characters, where valid text stays valid on both sides (`Utf8.split`, by looking at the leading byte); a calculus for code that keeps all texts valid (`Fine` for the option parser, `WritesUtf8` for pages, `TextClass` for page contents) |
| C98 | the rules look at five fields of the parser only (`SameRules`), which neither the command line nor the outside world reaches: a simulation between two runs; `parse()` past the name check throws only errors of the user (`throws_formatParse`) |
| C99 | what the old format_parse does successfully the new one does too (`Refines`, closed under bind, loops and the identifier search); set-up keeps the two parsers equal up to their declarations (`Beneath`) |
| C100 | the run of format_parse (in terms of the texts found for each identifier, Lemmas/Abstract) follows the inductive description; the description is total; so both agree. Repeated flags need that taking one flag out of a group leaves the others |
| C101 | parse_reading reduces a call to the reading of the arguments, C100 (ends_of_core) takes over for the line; induction over the levels with C82_runs_unique for the converse |
| C102 | C100 restated as a list of stages (lineEnds_stages); each stage has one ending (by the run it describes), so the stage of the failure is unique and grows strictly along corrections |
| C103 | grammar with meaning as an inductive relation (Means); the recursive descent reader returns exactly what is in the grammar (both directions, so the grammar is unambiguous); matching by derivatives is the meaning (matchFrom_iff); regexValidator with this predicate, then C65 and C90 |
| C104 | C103_accepts and C40_input_file for the two validators, chained; checked_with_final_files for parse(); the ending of the program from C100_ending, every line from option_final |
| C105 | C35_unregistered_reported for the option that does not exist, C35_tells_whether_option_given for -a, C17_line_has_its_meaning for the lines |
| C106 | closed form of format_parse::parse for no registrations; C92_sub_parser_partial for the choice of the subcommand; level_means and words_line for the lines that work |

## Findings

What the proofs say about the code at the pinned commit, most serious first. Every line is a theorem about the model; the notes in
`MANIFEST.json` name the theorems.

* Data is lost: `output_file_validator` in the mode `open_or_create` deletes the file it checks, also if it is rejected (C41), as does
  `output_directory_validator` with a file `dummy.txt` in the directory (C42), so that an input can be gone when `parse()` returns (C86), and the version check with `~/.config/seqan/dummy.txt`
  (C55). Two programs that check at the same time delete each other's files (C60).
* Undefined behaviour: a parser moved after the first `add_option` (C62), an empty argument vector, `HOME` not set (C58), 100 and more
  characters in the replacement of `from_chars` (C63), an unmatched `\fP` in an HTML page (C46).
* Wrong results without an error: list elements out of range vanish in release builds (C31); `-p -o x` gives `p` an empty value (C28);
  `-a-` sets a flag nobody gave (C20); list values change their order if both identifiers are used (C23); 20.9 passes the integer range
  [1,20] (C36); arguments behind `--` are taken for flags and requests (C15); lines that are not well-formed are accepted (C81); after one range error no floating point number is accepted
  any more (C63, replacement only); of two options for one variable the one registered last wins, not the one given last, and the validator
  of the other does not see the value (C80); a pattern for a `std::filesystem::path` is matched against the parts of the path instead of the path, so
  that absolute paths are rejected and `[a-z]+` accepts `a/b` (C90).
* The program of the tutorial accepts `seasons.tsv` but not `data/seasons.tsv`, and in release builds `-s 300` leaves its required list of seasons
  empty, so that the median of no numbers is read (C91).
* A forgotten subcommand is not noticed if a flag or option is given: `mygit -f` of the how-to ends with an uncaught `design_error` from
  `get_sub_parser()`, whose text says that no subcommand was provided at construction (C92). If a parser and its sub-parser have flags for the same
  variable, a user who sets the flag in front of the subcommand makes `add_flag` of the sub-parser throw `design_error` (C98).
* Files that cannot be named: an option of type `std::filesystem::path` never accepts a name with a blank, quoted or not, and drops blanks in
  front of a name (C85).
* The version check: `ALWAYS` sends a request in every run after the first day (C52); `NEVER` is forgotten if the cookie cannot be written,
  or by a run that was asking at the same time (C51, C61). The path of the version file is not quoted, so a blank in `HOME` sends a part of
  the path to the network and a semicolon runs a command (C79); a version file that is cut off can alarm (C77); if `~/.config/seqan`
  cannot be written to, every run asks, and cookies end up in the current directory (C78). A cookie from the future, or one that begins with `inf`, silences
  the app until then or forever (C94).
* Programs of the documentation: the one that chains validators rejects files in the root directory and, without the option, reports the empty name as
  validated (C104); the one that asks which options are set asks about an option it never added and is terminated whenever `parse()` succeeds (C105); a command without options
  prints the short help instead of running, so `git remote show` never runs (C106).
* `-vo file` (a group that ends with an option) is rejected with the text that `-o` is unknown; `-` is an ordinary word although the
  documentation says it is not (C89).
* Pages and texts: C43, C45-C49, C56, C57, C64-C67, C69-C71, C75.

## Testing the theorems

A theorem is only worth what it excludes. The model was therefore changed, in scratch copies, as a programmer might get the code wrong, and
rebuilt: declarations that fail are replaced by `sorry`, so that the build goes on, and the theorems that fail or depend on a failed one are
counted (`seeded/LOG.jsonl`, one line per attempt). An attempt whose claim is violated but whose theorems still hold led to a new or stronger theorem
(fields `tightened`, `note`); attempts that do not change the behaviour are marked as controls. Besides hand-written changes there are
automatic ones (exchanged comparisons, constants, branches and exceptions in every definition of the model; ids from 10000 on), for which
only the first failing theorem was recorded.

## Axioms of each theorem

Written by `tools/axioms.py` from `#print axioms`.

### none (1 theorems)

`C99_loosens_none`

### propext (7 theorems)

`C37_accepts_listed_values`, `C63_accepts_what_strto_reads`, `C63_nothing_after_range_error`, `C63_only_float_values`, `C70_same_characters`, `C82_runs_unique`, `C99_loosens_value_list`

### propext, Quot.sound (20 theorems)

`C102_same_options_and_flags`, `C102_same_texts`, `C47_long_first_word_partial`, `C47_wrapped_text_partial`, `C48_width_of_markup_partial`, `C62_moved_after_parse_partial`, `C62_moved_back_partial`, `C63_all_later_conversions_fail`, `C63_as_specified_partial`, `C63_buffer_overrun`, `C63_exponent_formats`, `C72_buffer_partial`, `C81_one_reading`, `C85_accepted_exactly`, `C85_blanks_in_front_dropped`, `C85_other_names_cannot_be_given`, `C85_paths_exact`, `C85_verbatim_partial`, `C97_broken_flag_is_invalid`, `C99_loosens_onIntegers`

### propext, Classical.choice, Quot.sound (519 theorems)

`C01_identifiers_unique_and_well_formed`, `C02_set_up_rules`, `C03_no_trace_partial`, `C03_no_trace_unless_reused_partial`, `C03_rejected_call_leaves_a_trace`, `C03_rejected_option_hides_help`, `C04_parse_freezes`, `C05_mixing_is_possible`, `C05_never_mixed_partial`, `C05_positional_rules_partial`, `C06_order_irrelevant`, `C06_subcommands_sorted_set`, `C07_bad_names_stop_parse`, `C07_nested_names_clean`, `C08_predefined_requests_keep_meaning_partial`, `C08_requests_take_effect_partial`, `C08_subcommand_can_take_over`, `C08_version_check_can_be_taken_over`, `C09_request_never_runs_program`, `C100_declared_identifiers`, `C100_ending`, `C100_first_mistake`, `C100_one_ending`, `C101_application`, `C101_application_ending`, `C101_call`, `C101_call_has_ending`, `C101_mistake_stops`, `C102_bounded_corrections`, `C102_one_stage_to_blame`, `C102_progress`, `C103_absolute_pattern`, `C103_accepts`, `C103_documented_pattern_rejects_all_paths`, `C103_email_pattern`, `C103_malformed`, `C103_mistake_blamed_on_the_user`, `C103_name_pattern`, `C103_one_meaning`, `C103_own_version`, `C103_parsed_texts`, `C103_regex_match`, `C103_tutorial_pattern`, `C103_unreadable_pattern_partial`, `C103_version_pattern`, `C104_accepted_names`, `C104_both_checks`, `C104_ending`, `C104_leaves_files`, `C104_line_breaks_rejected`, `C104_name_passed_partial`, `C104_no_name_passes`, `C104_one_ending`, `C104_parsed_texts_partial`, `C104_root_directory_rejected`, `C105_documented_program_terminated`, `C105_endings_partial`, `C105_long_name`, `C105_never_finishes`, `C105_right_lines_partial`, `C105_short_name`, `C106_bare_ends_partial`, `C106_endings`, `C106_only_marker`, `C106_pull_and_push`, `C106_set_url`, `C106_show`, `C106_show_alone_never_runs`, `C106_show_needs_marker`, `C10_last_request_decides`, `C11_short_help_iff`, `C12_options_are_known`, `C12_registered_value_is_shielded`, `C12_value_is_shielded`, `C13_nested_sub_parsers`, `C14_unknown_subcommand_reported`, `C15_flag_behind_dashes_taken`, `C15_request_behind_dashes_obeyed`, `C15_words_behind_dashes_verbatim_partial`, `C16_C13_what_remains`, `C16_subsequence`, `C17_C23_mixed_lines`, `C17_line_has_its_meaning`, `C17_only_meaningful_lines_partial`, `C17_well_formed_line_delivers`, `C18_every_argument_accounted_for`, `C19_respelling_changes_exception`, `C19_respelling_changes_list`, `C19_spellings_equivalent_partial`, `C20_flag_not_given_is_set`, `C20_only_registered_variables_change`, `C20_unset_options_keep_their_default_partial`, `C21_missing_required_option_reported`, `C21_required_options_occur`, `C22_scalar_option_at_most_once`, `C22_second_occurrence_reported`, `C23_C31_list_holds_all_values_partial`, `C23_ignored_values_still_read`, `C23_long_values_only`, `C23_mixed_identifiers_lose_values`, `C23_short_values_ignored`, `C24_flag_groups_can_be_split`, `C24_only_values_flags_and_words_matter`, `C25_repeated_flag_not_swallowed`, `C25_repeated_flag_reported`, `C26_unknown_identifiers_rejected`, `C27_too_few_words_reported`, `C27_too_many_words_reported`, `C27_words_delivered`, `C28_missing_value_ending_partial`, `C28_missing_value_not_noticed`, `C28_missing_value_reported_partial`, `C28_no_empty_attached_value`, `C28_reported_partial`, `C29_C30_unreadable_text_reported`, `C29_C30_unreadable_word_reported`, `C29_integers_exact`, `C29_printed_number_read_back`, `C30_booleans_exact`, `C30_enumerations_exact`, `C30_variable_unchanged_on_error`, `C31_bad_element_reported_partial`, `C31_bad_word_reported_partial`, `C31_element_lost_in_release_build`, `C32_behind_mistake_untouched_partial`, `C32_early_failures_leave_variables_partial`, `C32_failed_parse_changes_variables`, `C32_unmentioned_untouched_partial`, `C33_changed_option_validated`, `C33_given_option_validated`, `C33_rejected_value_reported`, `C33_rejected_word_reported`, `C33_validated_in_the_same_world`, `C33_validator_not_called`, `C34_registration_order_irrelevant`, `C34_success_in_any_order`, `C35_misuse_reported`, `C35_other_answers`, `C35_tells_whether_given_partial`, `C35_tells_whether_identifier_occurs`, `C35_tells_whether_option_given`, `C35_unregistered_reported`, `C36_accepts_closed_interval`, `C36_accepts_ranges_of_values`, `C36_fraction_is_dropped`, `C36_fractional_values_partial`, `C36_large_integer_wraps`, `C36_large_value_undefined`, `C36_parsed_value_in_interval`, `C37_accepts_ranges_of_listed_values`, `C37_converted_value_accepted`, `C37_empty_list`, `C38_conjunction`, `C38_grouping_irrelevant`, `C38_help_text`, `C38_left_to_right`, `C39_dot_not_required`, `C39_extension_check_partial`, `C39_hidden_file_rejected`, `C39_listed_extension_passes_partial`, `C39_passing_name_partial`, `C40_input_directory`, `C40_input_file`, `C40_lists_of_files`, `C41_create_new_accepts_exactly`, `C41_create_new_changes_nothing`, `C41_create_new_rejection`, `C41_open_or_create_accepts_exactly`, `C41_open_or_create_deletes_the_file`, `C41_open_or_create_new_file_partial`, `C41_open_or_create_truncates_the_file`, `C42_dummy_directory_rejected`, `C42_dummy_file_deleted`, `C42_existing_directory_partial`, `C42_new_directory`, `C42_other_files_kept`, `C43_advanced_missing_in_exports`, `C43_advanced_not_shown_partial`, `C43_all_visible_in_order_partial`, `C43_hidden_never_shown`, `C43_man_page_option`, `C43_texts_not_in_tool_description`, `C43_tool_description_partial`, `C44_escaping_is_safe_and_reversible`, `C45_page_is_nested_partial`, `C45_tags_are_not_balanced`, `C45_texts_are_not_escaped`, `C45_title_is_escaped_partial`, `C46_default_value_may_fail`, `C46_no_other_failures`, `C46_pages_are_printed_partial`, `C46_pages_may_fail`, `C46_printable_texts`, `C46_synopsis_partial`, `C47_page_is_drawn_partial`, `C47_wrong_indentation`, `C48_width_differs`, `C49_description_starts_early`, `C49_layout_never_underflows`, `C49_list_item_partial`, `C50_C55_application_asks_once`, `C50_line_decides`, `C50_who_decides`, `C51_answer_n_is_remembered`, `C51_never_is_forgotten`, `C51_never_is_permanent_partial`, `C52_a_day_between_requests_partial`, `C52_always_means_every_run`, `C52_old_always_cookie`, `C52_simultaneous_requests`, `C53_command_parts`, `C53_only_clean_names`, `C53_parse_sends_name_and_version`, `C54_debug_build_silent`, `C54_large_numbers_ignored`, `C54_message_text`, `C54_messages_for_developers`, `C54_one_line_read_twice`, `C54_parse_message_partial`, `C54_update_message_partial`, `C55_directories_created`, `C55_dummy_deleted`, `C55_no_trace_partial`, `C55_parse_partial`, `C55_switched_off_partial`, `C56_ambiguous`, `C56_bytes_in_lists`, `C56_char_defaults_recoverable`, `C56_integer_defaults_recoverable_partial`, `C56_string_defaults_recoverable_partial`, `C57_flag_group_lists_every_flag_partial`, `C57_flag_group_text_differs`, `C58_empty_argv_undefined`, `C58_empty_enumeration_out_of_range`, `C58_home_not_set`, `C58_no_temporary_directory`, `C58_only_parser_errors_partial`, `C58_overflow_fails_assertion`, `C58_parse_without_home`, `C58_real_system_partial`, `C58_test_file_not_removed`, `C59_create_new_leftover`, `C59_create_new_leftover_harmless`, `C59_create_new_moments`, `C59_existing_directory_moments`, `C59_inputs_untouched`, `C59_new_directory_again_partial`, `C59_new_directory_moments`, `C59_open_or_create_again_partial`, `C59_open_or_create_existing_moments`, `C59_open_or_create_new_moments`, `C59_outside_kept`, `C60_file_in_new_directory_deleted`, `C60_never_held_up`, `C60_same_file_deleted`, `C60_same_file_rejected`, `C60_simultaneous_checks_partial`, `C61_never_lost_to_other_run`, `C61_never_lost_when_killed`, `C61_never_with_others_partial`, `C62_assigned_registrations_are_lost`, `C62_destroyed_is_undefined`, `C62_moved_before_registrations_partial`, `C62_registrations_are_lost`, `C63_day_is_off`, `C63_day_within_a_minute_partial`, `C63_double_precision_lost`, `C63_exponent_behind_the_number`, `C63_hexadecimal_cut`, `C63_nearest_float`, `C63_same_text_other_verdict`, `C64_flags_are_not_mapped`, `C64_list_defaults_are_false`, `C64_mapping_exact`, `C64_meta_data`, `C64_names_clash`, `C64_option_tags`, `C64_option_tags_exactly`, `C64_other_tags`, `C64_scalar_defaults_partial`, `C64_short_only_is_mapped_to_dashes`, `C64_usable_partial`, `C65_file_texts_partial`, `C65_integer_list`, `C65_integer_range`, `C65_pattern`, `C65_pattern_accepts`, `C65_real_range_not_told`, `C65_real_range_partial`, `C65_real_text`, `C65_value_list_not_told`, `C65_value_list_partial`, `C65_wording`, `C66_byte_list_rejected`, `C66_char_default_rejected`, `C66_default_read_back_partial`, `C66_list_default_read_back_partial`, `C66_message_shown`, `C66_option_entry`, `C66_positional_entry`, `C66_type_shown`, `C66_unnamed_default_rejected`, `C67_enumeration_text_names_no_option`, `C67_error_texts_partial`, `C67_range_text_excludes_negative_numbers`, `C67_rejected_list_has_wrong_number`, `C67_subcommand_text_without_the_word`, `C67_text_quotes_what_nobody_wrote`, `C67_texts_only`, `C68_copyright_page`, `C68_outline`, `C68_printed_to_standard_output`, `C68_short_help_page`, `C68_version_page`, `C69_elements_are_placed`, `C69_flags_share_a_line`, `C69_own_lines_partial`, `C70_description_begins_a_section`, `C70_description_is_an_instruction`, `C70_man_page_is_read_back_partial`, `C71_late_calls`, `C71_query_texts`, `C71_query_texts_only`, `C71_setup_texts_partial`, `C71_setup_texts_without_refusals_partial`, `C71_sub_parser_before_parse`, `C71_sub_parser_text_only`, `C71_texts_only`, `C71_used_by_a_refused_call`, `C72_large_numbers_rounded`, `C72_large_numbers_share_their_text`, `C72_seven_digits`, `C72_small_numbers_come_back_partial`, `C72_thirteen_characters`, `C72_written_number_iff`, `C73_cut_off_after_three_seconds_partial`, `C73_cut_off_by_exit`, `C73_never_hangs`, `C73_no_check_no_waiting`, `C73_one_value`, `C73_waits_three_seconds_at_most`, `C74_only_words_and_lists_have_an_order`, `C74_options_can_stand_anywhere_partial`, `C74_value_like_an_option`, `C75_copyright_only_fonts`, `C75_empty_date_differs`, `C75_exports_ignore_the_terminal`, `C75_labels_count_fonts`, `C75_only_fonts_partial`, `C75_same_lines_partial`, `C75_same_width_same_page`, `C75_same_words`, `C76_at_most_one_page`, `C76_only_pages_on_standard_output`, `C76_same_page_for_every_command_line`, `C76_standard_error`, `C77_cut_line_announces_sharg`, `C77_cut_line_announces_sharg_always`, `C77_cut_number_alarms`, `C77_first_line_complete_partial`, `C77_no_false_alarm_partial`, `C77_only_fixed_texts`, `C78_cookie_in_current_directory`, `C78_disk_partial`, `C78_locked_asks_every_time`, `C79_blank_in_home`, `C79_command_in_home`, `C79_one_program_partial`, `C80_flag_wins`, `C80_last_on_the_line_loses`, `C80_last_positional_wins`, `C80_last_registered_wins_partial`, `C80_nothing_given`, `C80_validator_is_evaded`, `C81_accepted_exactly`, `C81_dashed_group_accepted`, `C81_empty_argument_accepted`, `C81_missing_value_accepted`, `C81_only_well_formed_lines_partial`, `C82_application_line`, `C82_every_argument_has_its_level`, `C82_only_well_formed_levels_partial`, `C82_runs_end`, `C83_C36_value_in_interval`, `C83_C36_values_in_interval`, `C83_accepted_exactly`, `C83_accepted_numbers`, `C83_exact_numbers`, `C83_floats_exact`, `C83_integers_exact`, `C83_list_holds_nearest`, `C83_nearest`, `C83_one_value`, `C83_option_holds_nearest`, `C83_order_kept`, `C83_out_of_range`, `C83_same_number_same_value`, `C84_default_given_back_iff`, `C84_infinity_and_nan`, `C84_notation`, `C84_on_the_page`, `C84_reads_back_iff`, `C84_shown_as_another_number`, `C84_shown_number_partial`, `C84_shown_text_accepted`, `C84_six_digits_shown_as_written`, `C84_smallest_numbers_come_back`, `C85_default_on_the_page`, `C85_list_holds_paths`, `C85_name_with_blank_rejected`, `C85_only_nameable_paths`, `C85_option_holds_path`, `C85_positionals_only_nameable_paths`, `C85_quoted_name_rejected`, `C86_files_unchanged_partial`, `C86_input_directories_usable_beside_partial`, `C86_input_directories_usable_partial`, `C86_input_files_usable_beside_partial`, `C86_input_files_usable_partial`, `C86_input_given_as_output_is_deleted`, `C86_input_in_output_directory_is_deleted`, `C86_other_files_unchanged_partial`, `C86_output_directories_usable_partial`, `C86_output_files_free_beside_partial`, `C86_output_files_free_partial`, `C86_output_is_no_input_partial`, `C86_real_check_well_formed`, `C86_who_leaves_files`, `C86_who_leaves_others`, `C87_other_variables_unread`, `C87_other_variables_untouched`, `C87_pages_on_a_real_system`, `C87_parsers_do_not_interfere`, `C87_value_validators`, `C88_char_accepts_numbers`, `C88_char_is_read_as_number`, `C88_limits_in_message`, `C88_long_long`, `C88_message_and_page_agree`, `C88_name_tells_values_partial`, `C88_names_differ`, `C88_only_promised_values_accepted`, `C88_other_values_reported`, `C88_path_with_blank`, `C89_blank_in_front_of_value_optional_partial`, `C89_group_with_option_rejected`, `C89_hyphen_delivered`, `C89_hyphen_is_a_word`, `C89_registered_option_called_unknown`, `C90_absolute_paths_rejected`, `C90_every_part_matches_partial`, `C90_not_the_whole_path`, `C90_parsed_paths_partial`, `C90_parsed_texts`, `C90_patterns_for_directories_reject_everything`, `C90_plain_names_partial`, `C90_unmatched_path_accepted`, `C91_directories_must_match`, `C91_files_elsewhere_rejected`, `C91_line_works_partial`, `C91_no_season_in_release`, `C91_some_season_partial`, `C91_variables_usable`, `C92_forgotten_subcommand_not_noticed`, `C92_mygit_endings`, `C92_mygit_pulls`, `C92_mygit_pushes`, `C92_mygit_terminated`, `C92_no_sub_parser`, `C92_sub_parser_partial`, `C93_alive_check`, `C93_alive_validators`, `C93_killed_anywhere`, `C93_killed_steps`, `C93_no_invented_text`, `C93_nothing_after_death`, `C93_others_survive`, `C94_future_cookie_silences`, `C94_garbage_is_replaced`, `C94_infinity_silences_forever`, `C94_truncated_cookie_is_replaced`, `C94_what_a_text_decides_partial`, `C94_young_silences`, `C95_every_value_can_be_given_partial`, `C95_expressible`, `C95_no_empty_list`, `C95_no_empty_word`, `C95_no_reserved_word`, `C95_recipe_delivers_partial`, `C95_word_with_flag_sets_it`, `C96_appended_line_partial`, `C96_appended_partial`, `C96_inserted_option_takes_value`, `C96_new_flag_changes_word`, `C96_older_accepted`, `C96_required_breaks`, `C96_upgrade_line_partial`, `C96_upgrade_partial`, `C97_pages`, `C97_parse_partial`, `C97_umlaut_flag_breaks_message`, `C97_unknown_flags_text_is_invalid`, `C97_values`, `C98_applications`, `C98_get_sub_parser_blames_the_developer`, `C98_parse_blames_iff`, `C98_real_system`, `C98_same_blame_partial`, `C98_setup_calls_blame_the_developer`, `C98_shared_flag_blames_the_developer`, `C98_user_errors`, `C99_accepts_more_partial`, `C99_loosens_arithmetic_range`, `C99_loosens_chain`, `C99_rejects_less_partial`, `C99_same_pages`, `C99_setup_accepted`, `C99_widened_list_changes_in_release`, `C99_widened_list_rejects_in_release`
