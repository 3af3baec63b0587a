import Verif.Model.Parser
import Verif.Model.Pages
import Verif.Model.Validators

/-!
# The test fixture

The project's own unit tests (`/repo/test/unit`), read as text and executed on the model: what a test expects of the code
is evaluated on the model with `#guard`, and the build fails if the model disagrees. These are tests of the model, not
proofs of properties: they guard against a model that differs from the code.

This file corresponds to `test/include/sharg/test/test_fixture.hpp`.
-/

namespace Sharg.Tests

/-- An enumeration type of the tests by its names. -/
abbrev enumTy (names : List (String × Int)) : ElemTy := .enumeration (names.map fun p => (p.1.toList, p.2))

abbrev int8 : ElemTy := .integer (-128) 127
abbrev uint8 : ElemTy := .integer 0 255
abbrev int32 : ElemTy := .integer (-2147483648) 2147483647
abbrev uint32 : ElemTy := .integer 0 4294967295

/-- `std::filesystem::path`: read with `operator>>`; the numbers of `Elem.other` stand for the paths `paths`, the
conversion is not used here. -/
abbrev path : ElemTy := .foreign false (fun _ => .fail none)

/-- `double`: numbers of `Elem.other` are not interpreted. -/
abbrev double : ElemTy := .foreign true (fun _ => .fail none)

/-- Type names as in `get_type_name_as_string`. -/
def types (enumName : String := "") (paths : List String := []) : TypeEnv where
  typeName
    | .string => "std::string".toList
    | .boolean => "bool".toList
    | .integer lo hi =>
      if lo = -128 ∧ hi = 127 then "signed 8 bit integer".toList
      else if lo = 0 ∧ hi = 255 then "unsigned 8 bit integer".toList
      else if lo = 0 ∧ hi = 4294967295 then "unsigned 32 bit integer".toList
      else "signed 32 bit integer".toList
    | .enumeration _ => enumName.toList
    | .foreign false _ => "std::filesystem::path".toList
    | .foreign true _ => "double".toList
  kind
    | .integer lo hi => if (lo = -128 ∧ hi = 127) ∨ (lo = 0 ∧ hi = 255) then .byte else .wide
    | _ => .wide
  isPath
    | .foreign false _ => true
    | _ => false
  showOther _ n := quoted ((paths[n]?).getD "").toList

/-- The variables of a test. -/
def store (l : List Val) : Store := fun n => (l[n]?).getD (.one (.bool false))

def str (s : String) : Elem := .str s.toList
def strs (l : List String) : List Str := l.map String.toList

/-- The world of these tests is the text written to `std::cout`. -/
abbrev World := Str

/-- A validator that accepts everything. -/
def anything : Val → World → Bool × World := fun _ w => (true, w)

/-- `sharg_version_cstring` (version.hpp lines 20-70). -/
def shargVersion : String := "1.1.2-rc.1"

/-- The surroundings of a page. -/
def pages (tdl : Bool) (info : Meta) (te : TypeEnv := types) : PageEnv where
  build := { ndebug := false, hasTdl := tdl, shargVersion := shargVersion.toList, seqanVersion := none }
  types := te
  info := info
  license := "license".toList
  tty := false
  terminalWidth := 80
  printTool _ _ := []

def env (pe : PageEnv) : Env World where
  ndebug := false
  versionCheck _ _ _ w := (none, w)
  printPage f p st w := ((pageOf pe f p st).1, w ++ (pageOf pe f p st).2)

/-- `get_parser` and `get_subcommand_parser`, lines 51-78. -/
def getParser (args : List String) (subcommands : List String := []) (executable : String := "./test_parser") :
    Parser World :=
  mkParser { appName := "test_parser".toList, arguments := executable.toList :: strs args, notify := false,
             subcommands := strs subcommands, executableName := [] }

/-- Set-up calls on a parser; the outcome of the last one that throws. -/
def setUp : List (Call World) → Parser World → Option Exn × Parser World
  | [], p => (none, p)
  | c :: cs, p => match c.run p with
    | .ok _ p => setUp cs p
    | .err e p => (some e, p)

/-- A test program: set-up, then `parse()`. -/
def run (pe : PageEnv) (p : Parser World) (calls : List (Call World)) (vars : List Val) : Outcome × Prog World :=
  parse (env pe) { parser := (setUp calls p).2, store := store vars, world := [] }

/-- `get_parse_cout_on_exit`, lines 80-92: the program ends with `exit`; its output. -/
def cout (pe : PageEnv) (p : Parser World) (calls : List (Call World)) (vars : List Val) : Option Str :=
  match (setUp calls p).1, run pe p calls vars with
  | none, (.exited _, g) => some g.world
  | _, _ => none

/-- A text given in pieces. -/
def text (l : List String) : Option Str := some (l.flatMap String.toList)

/-- `basic_options_str`, lines 94-110. -/
def basicOptions (tdl : Bool) : List String :=
  [ "  Common options\n",
    "    -h, --help\n",
    "          Prints the help page.\n",
    "    -hh, --advanced-help\n",
    "          Prints the help page including advanced options.\n",
    "    --version\n",
    "          Prints the version information.\n",
    "    --copyright\n",
    "          Prints the copyright/license information.\n",
    "    --export-help (std::string)\n",
    "          Export the help page information. Value must be one of ",
    if tdl then "[html, man,\n          ctd, cwl].\n" else "[html, man].\n" ]

/-- `version_str`, lines 112-126. -/
def versionStr (sub : String := "") : List String :=
  [ "VERSION\n",
    "    Last update:\n    test_parser", sub, " version:\n    Sharg version: ", shargVersion, "\n" ]

end Sharg.Tests
