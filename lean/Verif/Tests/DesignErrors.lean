import Verif.Tests.Parse

/-! # `test/unit/parser/parser_design_error_test.cpp` -/

namespace Sharg.Tests

/-- The parser of `app_name_validation`. -/
def named (name : String) : Parser World :=
  mkParser { appName := name.toList, arguments := strs ["./parser_test", "-i", "3"], notify := false, subcommands := [],
             executableName := [] }

-- Test `app_name_validation`.
#guard ∀ name ∈ ["test_parser", "test-parser1234_foo"],
  result (named name) [opt 'i' "" 0 int32] [i 0] = some (.returned, [i 3])
#guard ∀ name ∈ ["test parser", "test;", ";", "test;bad script:D"],
  result (named name) [opt 'i' "" 0 int32] [i 0] = some (.threw .designError, [i 0])

/-- All calls but the last succeed; the last one throws `design_error`. -/
def designError (calls : List (Call World)) : Bool :=
  (setUp calls.dropLast (getParser ["arg1"])).1 = none ∧ (setUp calls (getParser ["arg1"])).1 = some .designError

-- Tests `verify_option_config_test`.
#guard designError [opt 'i' "" 0 int32, opt 'i' "" 0 int32]
#guard designError [opt no "int" 0 int32, opt no "int" 0 int32]
#guard designError [opt no "" 0 int32]
#guard designError [opt 'h' "" 0 int32]
#guard designError [opt no "help" 0 int32]
#guard designError [opt no "advanced-help" 0 int32]
#guard designError [opt no "export-help" 0 int32]
#guard designError [opt no "z" 0 int32]
#guard designError [opt '\t' "" 0 int32]
#guard designError [opt no "no\n" 0 int32]
#guard designError [opt no "-no" 0 int32]

-- Tests `verify_flag_config_test`.
#guard designError [.addFlag { short := 'i' } 0 true]
#guard designError [flag 'i' "" 0, flag 'i' "" 0]
#guard designError [flag no "int" 0, flag no "int" 0]
#guard designError [flag no "" 0]
#guard designError [flag no "z" 0]

-- Tests `verify_positional_option_config_test`.
#guard designError [listPos 0 int32, pos 1 int32]
#guard designError [.addPositionalOption { short := 'a' } 0 false int32 anything]
#guard designError [.addPositionalOption { long := "abc".toList } 0 false int32 anything]
#guard designError [.addPositionalOption { advanced := true } 0 false int32 anything]
#guard designError [.addPositionalOption { hidden := true } 0 false int32 anything]

-- Tests `verify_default_message_config_test`.
#guard designError [.addOption { long := "int".toList, defaultMessage := "Some number".toList, required := true } 0 false
  int32 anything]
#guard designError [.addPositionalOption { defaultMessage := "Some number".toList } 0 false int32 anything]
#guard designError [.addFlag { short := 'i', defaultMessage := "false".toList } 0 false]

/-- The program of `parse_called_twice` after the first `parse()`. -/
def twice : Outcome × Prog World :=
  run (pages true {}) (getParser ["--version-check", "false", "-s", "option_string"]) [opt 's' "" 0 .string] [s ""]

-- Test `parse_called_twice`.
#guard twice.1 = .returned ∧ twice.2.store 0 = s "option_string"
#guard (parse (env (pages true {})) twice.2).1 = .threw .designError

-- Test `subcommand_parser_error`.
#guard succeeds ["-f"] [flag 'f' "" 0] [b false] [b true]
#guard (subParser (getParser ["-f"]) [flag 'f' "" 0] [b false]).isNone
#guard result (getParser [] ["with space"]) [] [] = some (.threw .designError, [])
#guard (setUp [pos 0 .boolean] (getParser ["-f", "foo"] ["foo"])).1 = some .designError
#guard (getSubParser (setUp [opt 'o' "" 0 .boolean, flag 'f' "" 0] (getParser ["-f", "foo"] ["foo"])).2)
  = .error .designError
#guard result (getParser ["-f", "foo"] ["foo"]) [opt 'o' "" 0 .boolean, flag 'f' "" 0] [b false]
  = some (.returned, [b true])
#guard (subParser (getParser ["-f", "foo"] ["foo"]) [opt 'o' "" 0 .boolean, flag 'f' "" 0] [b false]).isSome
#guard result (getParser ["-o", "true"] ["foo"]) [opt 'o' "" 0 .boolean] [b false] = some (.returned, [b true])

/-- The parser of `not_allowed_after_parse`. -/
def used : Parser World := (run (pages true {}) (getParser ["-i", "3"]) [opt 'i' "" 0 int32] [i 0]).2.parser

-- Test `not_allowed_after_parse`.
#guard succeeds ["-i", "3"] [opt 'i' "" 0 int32] [i 0] [i 3]
#guard (setUp [opt 'i' "" 0 int32] used).1 = some .designError
#guard (setUp [flag 'i' "" 0] used).1 = some .designError
#guard (setUp [pos 0 int32] used).1 = some .designError
#guard (setUp [.addSection [] false] used).1 = some .designError
#guard (setUp [.addSubsection [] false] used).1 = some .designError
#guard (setUp [.addLine [] false false] used).1 = some .designError
#guard (setUp [.addListItem [] [] false] used).1 = some .designError

end Sharg.Tests
