import Verif.Tests.Parse
import Verif.Model.VersionCheck

/-!
# `test/unit/detail/version_check_test.hpp`

The server does not answer in these tests; where a test looks at the answer, the command in `commands` is looked at. Debug
and release builds are both executed.
-/

namespace Sharg.Tests

/-- The directory of the cookies. -/
def configDir : List String := ["tmp", "test", ".config", "seqan"]

/-- The name of the app of these tests. -/
def appName : Str := "test_version_check".toList

/-- The system in front of a test, with the time stamp file and the version file if they are there. The clock shows
1600000000. -/
def system (ndebug : Bool) (stamp version : Option String) (noCheckVar : Bool := false) : System where
  disk :=
    [([], .dir true true true), (strs ["tmp"], .dir true true true), (strs ["tmp", "test"], .dir true true true)]
    ++ (match stamp with
        | some t => [(strs configDir ++ [timestampName ndebug appName], .file t.toList true true)]
        | none => [])
    ++ (match version with
        | some t => [(strs configDir ++ [versionFileName appName], .file t.toList true true)]
        | none => [])
    ++ [(strs ["tmp", "test", ".config"], .dir true true true), (strs configDir, .dir true true true)]
  cwd := []
  clock := 1600000000
  delay := 0
  home := some "/tmp/test".toList
  noCheckVar := noCheckVar
  tempDir := some "/tmp".toList
  stdinTty := false
  stderrTty := false
  wget := true
  curl := true
  stdin := []
  stdout := []
  stderr := []
  commands := []

/-- The surroundings: the app has version 2.3.4, Sharg has version 1.1.2. -/
def surroundings (ndebug : Bool) (url : String := "") : Surroundings where
  pages := { pages true { version := "2.3.4".toList, url := url.toList } with
    build := { ndebug := ndebug, hasTdl := true, shargVersion := shargVersion.toList, seqanVersion := none } }
  shargVersion := (1, 1, 2)

/-- `simulate_parser`, lines 83-124: the outcome and the system afterwards. -/
def simulate (ndebug : Bool) (sys : System) (args : List String) (url : String := "") (flagged : Bool := true) :
    Option (Outcome × System) :=
  let p : Parser System := mkParser {
    appName := appName, arguments := appName :: strs args, notify := true, subcommands := [], executableName := [] }
  match (if flagged then (Call.addFlag { short := 'f' } 0 false).run p else .ok () p) with
  | .ok _ p =>
    let r := parse (surroundings ndebug url).env { parser := p, store := store [b false], world := sys }
    some (r.1, r.2.world)
  | .err _ _ => none

/-- The content of a file of the app. -/
def cookie (sys : System) (name : Str) : Option Str :=
  match sys.disk.lookup (strs configDir ++ [name]) with
  | .found (.file t _ _) => some t
  | _ => none

def stampOf (ndebug : Bool) (sys : System) : Option Str := cookie sys (timestampName ndebug appName)
def versionOf (sys : System) : Option Str := cookie sys (versionFileName appName)

/-- `EXPECT_NO_THROW(parser.parse())`, the expected output on `std::cerr` (nothing on `std::cout`), then further
expectations. -/
def check (ndebug : Bool) (sys : System) (args : List String) (err : Str) (more : System → Bool) (url : String := "") :
    Bool :=
  match simulate ndebug sys args url with
  | some (.returned, s) => s.stdout = [] && s.stderr = err && more s
  | _ => false

def on : List String := ["--version-check", "true", "-f"]
def off : List String := ["--version-check", "false", "-f"]
def implicit : List String := ["-f"]

-- Test `option_on`: the server is asked, no time stamp is written.
#guard ∀ nd : Bool, check nd (system nd none none) on [] fun s =>
  s.commands.length = 1 && stampOf nd s = none && versionOf s = none

-- Test `option_implicitely_on`: the time stamp is written, its first line is a number.
#guard ∀ nd : Bool, check nd (system nd none none) implicit [] fun s =>
  s.commands = [] && (stampOf nd s).map firstLine = some "1600000000".toList

-- Test `time_out`.
#guard ∀ nd : Bool, check nd (system nd (some "1600000000") none) implicit [] fun s =>
  s.commands = [] && versionOf s = none

-- Test `environment_variable_set`.
#guard ∀ nd : Bool, check nd (system nd none none true) implicit [] fun s =>
  s.commands = [] && stampOf nd s = none && versionOf s = none

-- Test `option_off`.
#guard ∀ nd : Bool, check nd (system nd none none) off [] fun s =>
  s.commands = [] && stampOf nd s = none && versionOf s = none

-- Test `option_off_with_help_page`.
#guard ∀ nd : Bool, (match simulate nd (system nd none none) ["-h", "--version-check", "false"] "" false with
  | some (.exited _, s) => decide (s.stdout ≠ []) && decide (s.commands = []) && decide (versionOf s = none)
  | _ => false) = true

-- Test `smaller_sharg_version` (debug).
#guard check false (system false (some "1599899599") (some "2.3.4\n20.5.9")) on messageShargUpdate fun s =>
  ((stampOf false s).map firstLine).any fun l => l.all isDigit

-- Test `greater_app_version` (debug); the version file holds `sharg_version_cstring`.
#guard check false (system false (some "1599899599") (some ("1.5.9\n" ++ shargVersion))) on messageRegisteredAppUpdate
  fun s => ((stampOf false s).map firstLine).any fun l => l.all isDigit

-- Test `unregistered_app` (debug).
#guard check false (system false (some "1599899599") (some ("UNREGISTERED_APP\n" ++ shargVersion))) on
  messageUnregisteredApp fun s => ((stampOf false s).map firstLine).any fun l => l.all isDigit

-- Test `smaller_app_version` (release).
#guard check true (system true (some "1599899599") (some ("20.5.9\n" ++ shargVersion))) on (messageAppUpdate [])
  fun s => ((stampOf true s).map firstLine).any fun l => l.all isDigit

-- Test `smaller_app_version_custom_url` (release).
#guard check true (system true (some "1599899599") (some ("20.5.9\n" ++ shargVersion))) on
  (messageAppUpdate "https//foo.de".toList)
  (fun s => ((stampOf true s).map firstLine).any fun l => l.all isDigit) "https//foo.de"

-- Test `user_specified_never`: the file with the single word is not modified.
#guard ∀ nd : Bool, check nd (system nd (some "NEVER") none) implicit [] fun s =>
  versionOf s = none && stampOf nd s = some "NEVER".toList

-- Test `user_specified_always`.
#guard ∀ nd : Bool, check nd (system nd (some "ALWAYS") none) implicit [] fun s =>
  s.commands.length = 1 && stampOf nd s = some "ALWAYS".toList

-- Test `wrong_version_string`.
#guard ∀ nd : Bool, check nd (system nd (some "ALWAYS") (some "20.wrong.9\nalso.wrong.4")) implicit [] fun _ => true

end Sharg.Tests
