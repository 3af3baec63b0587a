import Verif.Tests.Parse

/-! # `test/unit/parser/subcommand_test.cpp` and `test/unit/parser/enumeration_names_test.cpp` -/

namespace Sharg.Tests

def o : Call World := opt 'o' "" 0 .string

def topParser (args : List String) : Parser World := getParser args ["build"]

/-- The top-level parser returns with the value `topValue`; then the given test of the sub-parser. -/
def withSub (args : List String) (calls : List (Call World)) (topValue : String) (test : Parser World → Bool) : Bool :=
  result (topParser args) calls [s ""] = some (.returned, [s topValue]) &&
  (match subParser (topParser args) calls [s ""] with
    | some p => test p
    | none => false)

/-- The sub-parser returns with the value. -/
def subReturns (value : String) (p : Parser World) : Bool := result p [o] [s ""] = some (.returned, [s value])

/-- The sub-parser prints the page. -/
def subPrints (page : List String) (p : Parser World) : Bool := cout (pages true {}) p [o] [s ""] = text page

def topFullHelp : List String :=
  [ "test_parser\n",
    "===========\n",
    "\n",
    "SUBCOMMANDS\n",
    "    This program must be invoked with one of the following subcommands:\n",
    "    - build\n",
    "    See the respective help page for further details (e.g. by calling\n",
    "    test_parser build -h).\n",
    "\n",
    "    The following options belong to the top-level parser and need to be\n",
    "    specified before the subcommand key word. Every argument after the\n",
    "    subcommand key word is passed on to the corresponding sub-parser.\n",
    "\n",
    "OPTIONS\n",
    "    -o (std::string)\n",
    "          Default: \"\"\n",
    "\n" ] ++ basicOptions true ++ ["\n"] ++ versionStr

def subShortHelp : List String :=
  [ "test_parser-build\n=================\n", "    Try -h or --help for more information.\n" ]

def subFullHelp : List String :=
  [ "test_parser-build\n",
    "=================\n",
    "\n",
    "OPTIONS\n",
    "    -o (std::string)\n",
    "          Default: \"\"\n",
    "\n" ] ++ basicOptions true ++ ["\n"] ++ versionStr "-build"

-- Test `simple_option`.
#guard withSub ["build", "-o", "foo"] [] "" (subReturns "foo")
-- Test `subcommand_is_option_value`.
#guard withSub ["-o", "build", "build", "-o", "build"] [o] "build" (subReturns "build")
-- Test `option_value_is_option`.
#guard withSub ["-o", "-o", "build", "-o", "-o"] [o] "-o" (subReturns "-o")
-- Test `wrong_subcommand`.
#guard result (topParser ["-o", "build", "buidl", "-o", "build"]) [o] [s ""] = some (.threw .userInputError, [s ""])
-- Test `subcommand_is_option_value_equals_syntax`.
#guard withSub ["-o=build", "build", "-o=build"] [o] "build" (subReturns "build")
-- Test `subcommand_is_flag`.
def buildFlags : List (Call World) := [flag 'b' "" 0, flag 'u' "" 1, flag 'i' "" 2, flag 'l' "" 3, flag 'd' "" 4]
#guard result (topParser ["-build", "build", "-o", "build"]) buildFlags [b false, b false, b false, b false, b false]
  = some (.returned, [b true, b true, b true, b true, b true])
#guard (subParser (topParser ["-build", "build", "-o", "build"]) buildFlags []).map (subReturns "build") = some true
-- Test `no_help`.
#guard result (topParser ["-o", "build"]) [o] [s ""] = some (.returned, [s "build"])
-- Test `top_full_help`.
#guard cout (pages true {}) (topParser ["-o", "build", "--help"]) [o] [s ""] = text topFullHelp
#guard result (topParser ["-o", "build", "--help"]) [o] [s ""] = some (.exited (.help false), [s ""])
-- Test `sub_short_help`.
#guard withSub ["-o", "build", "build"] [o] "build" (subPrints subShortHelp)
-- Test `sub_full_help`.
#guard withSub ["-o", "build", "build", "--help"] [o] "build" (subPrints subFullHelp)
-- Test `sub_short_help_no_options`.
#guard withSub ["build"] [o] "" (subPrints subShortHelp)
-- Test `sub_full_help_no_options`.
#guard withSub ["build", "--help"] [o] "" (subPrints subFullHelp)
-- Test `sub_full_help_all_options`.
#guard withSub ["-o", "build", "build", "-o", "build", "--help"] [o] "build" (subPrints subFullHelp)
-- Test `option_value_is_special_command`.
#guard result (topParser ["-o", "--help"]) [o] [s ""] = some (.returned, [s "--help"])

/-- The parsers of `recursive_subcommands`. -/
def index : Option (Parser World) := subParser (getParser ["index", "show", "--help"] ["index"]) [] []
def indexShow : Option (Parser World) := index.bind fun p => subParser p [.addSubcommands (strs ["show"])] []

-- Test `recursive_subcommands`.
#guard index.map (·.appName) = some "test_parser-index".toList
#guard indexShow.map (·.appName) = some "test_parser-index-show".toList
#guard indexShow.map (subPrints ([ "test_parser-index-show\n",
    "======================\n",
    "\n",
    "OPTIONS\n",
    "    -o (std::string)\n",
    "          Default: \"\"\n",
    "\n" ] ++ basicOptions true ++ ["\n"] ++ versionStr "-index-show")) = some true

/-! ## Enumerations -/

def bar : ElemTy := enumTy [("one", 0), ("two", 1), ("three", 2)]
def otherBar : ElemTy := enumTy [("one", 0), ("1", 0), ("two", 1), ("2", 1)]

-- Test `parse_success_enum_option`.
#guard succeeds ["-e", "two"] [opt 'e' "" 0 bar] [.one (.enumv 0)] [.one (.enumv 1)]
#guard succeeds ["-e", "two"] [opt 'e' "" 0 otherBar] [.one (.enumv 0)] [.one (.enumv 1)]
-- Test `parse_error_enum_option`.
#guard fails ["-e", "four"] [opt 'e' "" 0 bar] [.one (.enumv 0)] .userInputError [.one (.enumv 0)]
-- Test `issue2464`.
#guard fails ["-e", "nine"] [opt 'e' "" 0 bar] [.one (.enumv 0)] .userInputError [.one (.enumv 0)]
#guard (result (getParser ["-e", "one", "-e", "nine"]) [listOpt 'e' "" 0 bar] [.many []]).map (·.1)
  = some (.threw .userInputError)
#guard (result (getParser ["-e", "one", "-e", "nine"])
    [.addOption { short := 'e', advanced := true } 0 true bar (fun _ w => (false, w))] [.many []]).map (·.1)
  = some (.threw .userInputError)
-- Test `container_options`.
#guard succeeds ["-e", "two", "-e", "one", "-e", "three"] [listOpt 'e' "" 0 bar] [.many []]
  [.many [.enumv 1, .enumv 0, .enumv 2]]

end Sharg.Tests
