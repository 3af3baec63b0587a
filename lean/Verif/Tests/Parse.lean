import Verif.Tests.Fixture

/-! # `test/unit/parser/format_parse_test.cpp` -/

namespace Sharg.Tests

def opt (short : Char) (long : String) (var : VarId) (ty : ElemTy) (required : Bool := false) : Call World :=
  .addOption { short := short, long := long.toList, required := required } var false ty anything

def listOpt (short : Char) (long : String) (var : VarId) (ty : ElemTy) : Call World :=
  .addOption { short := short, long := long.toList } var true ty anything

def flag (short : Char) (long : String) (var : VarId) : Call World :=
  .addFlag { short := short, long := long.toList } var false

def pos (var : VarId) (ty : ElemTy) : Call World := .addPositionalOption {} var false ty anything

def listPos (var : VarId) (ty : ElemTy) : Call World := .addPositionalOption {} var true ty anything

/-- The outcome of `parse()` and the variables afterwards. -/
def result (p : Parser World) (calls : List (Call World)) (vars : List Val) : Option (Outcome × List Val) :=
  match (setUp calls p).1, run (pages true {}) p calls vars with
  | none, (o, g) => some (o, (List.range vars.length).map g.store)
  | _, _ => none

/-- `EXPECT_NO_THROW(parser.parse())`, then the expected values. -/
def succeeds (args : List String) (calls : List (Call World)) (vars expected : List Val) : Bool :=
  result (getParser args) calls vars = some (.returned, expected)

/-- `EXPECT_THROW(parser.parse(), e)`, then the expected values. -/
def fails (args : List String) (calls : List (Call World)) (vars : List Val) (e : Exn) (expected : List Val) : Bool :=
  result (getParser args) calls vars = some (.threw e, expected)

def s (x : String) : Val := .one (str x)
def i (x : Int) : Val := .one (.int x)
def b (x : Bool) : Val := .one (.bool x)
def no : Char := '\x00'

-- Test `add_option_short_id`.
#guard succeeds ["-s", "option_string1"] [opt 's' "" 0 .string] [s ""] [s "option_string1"]
#guard succeeds ["-Soption_string2"] [opt 'S' "" 0 .string] [s ""] [s "option_string2"]
#guard succeeds ["-s=option_string3"] [opt 's' "" 0 .string] [s ""] [s "option_string3"]

-- Test `add_option_long_id`.
#guard succeeds ["--string-option", "option_string1"] [opt no "string-option" 0 .string] [s ""] [s "option_string1"]
#guard fails ["--string-optionoption_string2"] [opt no "string-option" 0 .string] [s "option_string1"]
  .unknownOption [s "option_string1"]
#guard succeeds ["--string-option=option_string3"] [opt no "string-option" 0 .string] [s ""] [s "option_string3"]

-- Test `add_flag_short_id_single`.
#guard succeeds ["-f"] [flag 'f' "" 0, flag 'a' "" 1] [b false, b false] [b true, b false]

-- Test `add_flag_short_id_multiple`.
#guard succeeds ["-fbc"] [flag 'f' "" 0, flag 'a' "" 1, flag 'b' "" 2, flag 'c' "" 3]
  [b false, b false, b false, b false] [b true, b false, b true, b true]

-- Test `add_flag_long_id`.
#guard succeeds ["--another-flag"] [flag no "flag" 0, flag no "another-flag" 1] [b false, b false] [b false, b true]

-- Test `add_positional_option`.
#guard succeeds ["positional_string"] [pos 0 .string] [s ""] [s "positional_string"]

-- Test `independent_add_order`.
#guard ∀ calls ∈ [[opt 'i' "" 2 int32, flag 'b' "" 1, pos 0 .string], [flag 'b' "" 1, opt 'i' "" 2 int32, pos 0 .string],
    [opt 'i' "" 2 int32, pos 0 .string, flag 'b' "" 1], [flag 'b' "" 1, pos 0 .string, opt 'i' "" 2 int32],
    [pos 0 .string, flag 'b' "" 1, opt 'i' "" 2 int32], [pos 0 .string, opt 'i' "" 2 int32, flag 'b' "" 1]],
  succeeds ["-i", "2", "-b", "arg"] calls [s "", b false, i 0] [s "arg", b true, i 2]

-- Test `independent_cmd_order`.
#guard ∀ args ∈ [["-i", "2", "-b", "arg"], ["-b", "-i", "2", "arg"], ["-i", "2", "arg", "-b"], ["-b", "arg", "-i", "2"],
    ["arg", "-b", "-i", "2"], ["arg", "-i", "2", "-b"]],
  succeeds args [opt 'i' "" 2 int32, flag 'b' "" 1, pos 0 .string] [s "", b false, i 0] [s "arg", b true, i 2]

-- Test `double_dash_separation_success`.
#guard succeeds ["--", "-strange"] [pos 0 .string] [s ""] [s "-strange"]
#guard succeeds ["--", "-120"] [pos 0 int32] [i 0] [i (-120)]

-- Test `special_characters_as_value_success`.
#guard succeeds ["--regex", "-i=/45*&//--"] [opt no "regex" 0 .string] [s ""] [s "-i=/45*&//--"]

-- Test `empty_value_error`.
#guard fails ["-i"] [opt 'i' "" 0 int32] [i 0] .tooFewArguments [i 0]
#guard fails ["--long"] [opt no "long" 0 int32] [i 0] .tooFewArguments [i 0]
#guard fails ["-i="] [opt 'i' "" 0 int32] [i 0] .tooFewArguments [i 0]
#guard fails ["--long="] [opt no "long" 0 int32] [i 0] .tooFewArguments [i 0]

-- Test `parse_success_bool_option`.
#guard succeeds ["-b", "1", "0"] [opt 'b' "" 0 .boolean, pos 1 .boolean] [b false, b false] [b true, b false]
#guard succeeds ["-b", "true", "false"] [opt 'b' "" 0 .boolean, pos 1 .boolean] [b false, b false] [b true, b false]

-- Test `parse_success_int_option`.
#guard succeeds ["-i", "-2", "278"] [opt 'i' "" 0 int32, pos 1 uint32] [i 0, i 0] [i (-2), i 278]

-- Test `parse_error_bool_option`.
#guard fails ["-b", "a"] [opt 'b' "" 0 .boolean] [b false] .userInputError [b false]
#guard fails ["-b", "124"] [opt 'b' "" 0 .boolean] [b false] .userInputError [b false]

-- Test `parse_error_int_option`.
#guard fails ["-i", "abc"] [opt 'i' "" 0 int32] [i 0] .userInputError [i 0]
#guard fails ["-i", "2abc"] [opt 'i' "" 0 int32] [i 0] .userInputError [i 2]
#guard fails ["-i", "3.12"] [opt 'i' "" 0 int32] [i 0] .userInputError [i 3]
#guard fails ["-i", "-1"] [opt 'i' "" 0 uint32] [i 0] .userInputError [i 0]
#guard fails ["-i", "129"] [opt 'i' "" 0 int8] [i 0] .userInputError [i 0]
#guard fails ["-i", "267"] [opt 'i' "" 0 uint8] [i 0] .userInputError [i 0]

-- Test `too_many_arguments_error`.
#guard fails ["5", "15"] [pos 0 int32] [i 0] .tooManyArguments [i 5]
#guard fails ["2", "--", "-i"] [pos 0 int32, opt 'i' "" 0 int32] [i 5] .tooManyArguments [i 2]

-- Test `too_few_arguments_error`.
#guard fails ["15"] [pos 0 int32, pos 0 int32] [i 0] .tooFewArguments [i 15]
#guard fails ["-i", "2"] [pos 0 int32, opt 'i' "" 0 int32] [i 15] .tooFewArguments [i 2]

-- Test `unknown_option_error`.
#guard ∀ args ∈ [["-i", "15"], ["--arg", "8"], ["-a"], ["--arg"], ["-5"]], fails args [] [] .unknownOption []
#guard fails ["-i", "129", "arg1", "-b", "bcd", "-a", "abc"] [opt 'i' "" 0 int32, opt 'a' "" 1 .string, pos 2 .string]
  [i 0, s "", s ""] .unknownOption [i 129, s "abc", s ""]

-- Test `option_declared_multiple_times_error`.
#guard fails ["-i", "15", "-i", "3"] [opt 'i' "" 0 int32] [i 0] .optionDeclaredMultipleTimes [i 15]
#guard fails ["--long", "5", "--long", "6"] [opt no "long" 0 int32] [i 15] .optionDeclaredMultipleTimes [i 5]
#guard fails ["-i", "5", "--long", "6"] [opt 'i' "long" 0 int32] [i 5] .optionDeclaredMultipleTimes [i 6]

-- Test `required_option_missing`.
#guard fails ["5", "-i", "15"] [opt 'i' "" 0 int32, opt 'a' "" 0 int32 true, pos 0 int32] [i 0]
  .requiredOptionMissing [i 15]

-- Test `argv_const_combinations`.
#guard succeeds ["-f"] [flag 'f' "" 0] [b false] [b true]

-- Test `multiple_empty_options`.
#guard succeeds ["-s=1"] [opt 'i' "" 0 int32, opt 's' "" 0 int32] [i 0] [i 1]
#guard fails ["-s=1", "--unknown"] [opt 'i' "" 0 int32, opt 's' "" 0 int32] [i 0] .unknownOption [i 1]
#guard succeeds ["--long=2"] [opt no "longi" 0 int32, opt no "long" 0 int32] [i 1] [i 2]

-- Test `version_check_option_error`.
#guard fails ["--version-check"] [] [] .tooFewArguments []
#guard fails ["--version-check", "foo"] [] [] .validationError []

/-- `get_sub_parser()` of a parser on which `parse()` was called. -/
def subParser (p : Parser World) (calls : List (Call World)) (vars : List Val) : Option (Parser World) :=
  match getSubParser (run (pages true {}) p calls vars).2.parser with
  | .ok init => some (mkParser init)
  | .error _ => none

/-- The top-level parser of `subcommand_parser_success`. -/
def top (args : List String) : Parser World := getParser args ["sub1", "sub2"]

-- Test `subcommand_parser_success`.
#guard result (top ["-f", "sub1", "foo"]) [flag 'f' "" 0] [b false, s ""] = some (.returned, [b true, s ""])
#guard (subParser (top ["-f", "sub1", "foo"]) [flag 'f' "" 0] [b false, s ""]).map (·.appName)
  = some "test_parser-sub1".toList
#guard (subParser (top ["-f", "sub1", "foo"]) [flag 'f' "" 0] [b false, s ""]).bind
    (fun p => result p [pos 1 .string] [b false, s ""]) = some (.returned, [b false, s "foo"])
#guard result (top ["-h", "-f", "sub1", "foo"]) [flag 'f' "" 0] [b false, s ""]
  = some (.exited (.help false), [b false, s ""])
#guard result (top ["-f", "sub1", "foo", "-h"]) [flag 'f' "" 0] [b false, s ""] = some (.returned, [b true, s ""])
#guard (subParser (top ["-f", "sub1", "foo", "-h"]) [flag 'f' "" 0] [b false, s ""]).bind
    (fun p => result p [pos 1 .string] [b false, s ""]) = some (.exited (.help false), [b false, s ""])

-- Test `subcommand_parser_error`.
#guard ∀ args ∈ [["subiddysub", "-f"], ["subiddysub"], ["subiddysub", "-h"]],
  result (getParser args ["sub1"]) [] [] = some (.threw .userInputError, [])

-- Test `issue1544`.
#guard fails ["--foohallo"] [opt no "foo" 0 .string] [s ""] .unknownOption [s ""]
#guard fails ["--foo", "hallo", "--foo-bar", "ballo"] [opt no "foo" 0 .string] [s ""] .unknownOption [s "hallo"]
#guard fails ["--foo", "hallo", "--foo-bar", "ballo"] [opt no "foo-bar" 0 .string] [s ""] .unknownOption [s "ballo"]
#guard succeeds ["--foo", "hallo", "--foo-bar", "ballo"] [opt no "foo" 0 .string, opt no "foo-bar" 1 .string]
  [s "", s ""] [s "hallo", s "ballo"]

-- Test `is_option_set`.
def isSetParser : Parser World := getParser ["-l", "hallo", "--foobar", "ballo", "--"]
def isSetCalls : List (Call World) := [opt 'l' "loo" 0 .string, opt 'f' "foobar" 0 .string]
def isSet (id : Id) : Except Exn Bool := isOptionSet (run (pages true {}) isSetParser isSetCalls [s ""]).2.parser id
#guard isOptionSet (setUp isSetCalls isSetParser).2 (.long "foo".toList) = .error .designError
#guard result isSetParser isSetCalls [s ""] = some (.returned, [s "ballo"])
#guard isSet (.short 'l') = .ok true
#guard isSet (.long "foobar".toList) = .ok true
#guard isSet (.short 'f') = .ok false
#guard isSet (.long "loo".toList) = .ok false
#guard ∀ x ∈ ["l", "f", "foo", "--", ""], isSet (.long x.toList) = .error .designError
#guard ∀ c ∈ ['!', '-', '_', '\x00'], isSet (.short c) = .error .designError

-- Test `error_message_parsing`.
#guard fails ["--value", "-30"] [opt no "value" 0 (.integer 0 18446744073709551615)] [i 0] .userInputError [i 0]

-- Test `container_options`.
#guard succeeds ["-i", "2", "-i", "1", "-i", "3"] [listOpt 'i' "" 0 int32] [.many []] [.many [.int 2, .int 1, .int 3]]
#guard succeeds ["-b", "true", "-b", "false", "-b", "true"] [listOpt 'b' "" 0 .boolean] [.many []]
  [.many [.bool true, .bool false, .bool true]]

-- Test `container_default`.
#guard succeeds ["-i", "2", "-i", "1", "-i", "3"] [listOpt 'i' "" 0 int32] [.many [.int 1, .int 2, .int 3]]
  [.many [.int 2, .int 1, .int 3]]
#guard succeeds ["-i", "2", "-b", "true", "-i", "1", "-i", "3"] [listOpt 'i' "" 0 int32, opt 'b' "" 1 .boolean]
  [.many [.int 1, .int 2, .int 3], b false] [.many [.int 2, .int 1, .int 3], b true]
#guard succeeds ["-b", "true"] [listOpt 'i' "" 0 int32, opt 'b' "" 1 .boolean]
  [.many [.int 1, .int 2, .int 3], b false] [.many [.int 1, .int 2, .int 3], b true]
#guard succeeds ["2", "1", "3"] [listPos 0 int32] [.many [.int 1, .int 2, .int 3]] [.many [.int 2, .int 1, .int 3]]

-- Test `executable_name`.
#guard ∀ name ∈ ["parser_test", "./parser_test", "./bin/parser_test"],
  (run (pages true {}) (getParser ["-t"] [] name) [flag 't' "" 0] [b false]).2.parser.executableName = [name.toList]
#guard ((subParser (getParser ["build", "-t"] ["build"] "parser_test") [] [b false]).map
    fun p => (run (pages true {}) p [flag 't' "" 0] [b false]).2.parser.executableName)
  = some (strs ["parser_test", "build"])

-- Test `flag_independence`.
#guard ∀ args ∈ [["-a", "-z"], ["-a"], ["-z"]], succeeds args [flag 'a' "" 0, flag 'z' "" 0] [b false] [b true]

-- Test `parse_order_example`.
#guard succeeds ["-f", "-o", "false"] [opt 'o' "" 0 .boolean, flag 'f' "" 0] [b false] [b true]
#guard succeeds ["-otrue"] [opt 'o' "" 0 .boolean] [b false] [b true]
#guard succeeds ["-otrue"] [flag 'o' "" 0, flag 't' "" 1, flag 'r' "" 2, flag 'u' "" 3, flag 'e' "" 4]
  [b false, b false, b false, b false, b false] [b true, b true, b true, b true, b true]
#guard succeeds ["false", "-o", "true", "-f"] [opt 'o' "" 0 .boolean, flag 'f' "" 0, pos 0 .boolean] [b false] [b false]

end Sharg.Tests
