import Verif.Model.System
import Verif.Model.Pages
import Verif.Model.Parser
import Verif.Model.Float

/-!
# The version check

Models `include/sharg/detail/version_check.hpp` and `run_version_check` (`include/sharg/parser.hpp` lines 1114-1125) for a
64 bit Linux. The model stops where the thread with the server command is started: the command is recorded. What the server
answers (a file `<name>.version`, written later) is a change of the file system between runs.
-/

namespace Sharg

/-- What a check depends on besides the system: `NDEBUG`, the arguments of the constructor, and the version of
Sharg. -/
structure CheckInput where
  ndebug : Bool
  name : Str
  version : Str
  url : Str
  shargVersion : Nat × Nat × Nat

/-! ### Version numbers -/

/-- The match of `^([[:digit:]]+\.[[:digit:]]+\.[[:digit:]]+)`: three numbers and what follows them. Digits and dots
exclude each other, so the greedy match is the only one. -/
def versionMatch (s : Str) : Option (Str × Str × Str × Str) :=
  match s.dropWhile isDigit with
  | '.' :: s₁ => match s₁.dropWhile isDigit with
    | '.' :: s₂ =>
      if s.takeWhile isDigit ≠ [] ∧ s₁.takeWhile isDigit ≠ [] ∧ s₂.takeWhile isDigit ≠ [] then
        some (s.takeWhile isDigit, s₁.takeWhile isDigit, s₂.takeWhile isDigit, s₂.dropWhile isDigit)
      else none
    | _ => none
  | _ => none

/-- The member `version`, version_check.hpp lines 89-96 and 429: the version numbers in front of the text, or 0.0.0. -/
def ownVersion (version : Str) : Str :=
  match versionMatch version with
  | some (a, b, c, _) => a ++ '.' :: b ++ '.' :: c
  | none => "0.0.0".toList

/-- `std::from_chars` into an `int` that is 0: a number that is too large leaves it 0. -/
def intOrZero (ds : Str) : Nat := if digitsVal ds ≤ 2147483647 then digitsVal ds else 0

/-- `get_numbers_from_version_string`, version_check.hpp lines 476-488. -/
def versionNumbers (s : Str) : Nat × Nat × Nat :=
  match versionMatch s with
  | some (a, b, c, []) => (intOrZero a, intOrZero b, intOrZero c)
  | _ => (0, 0, 0)

/-- `operator<` of `std::array<int, 3>`. -/
def versionLess (a b : Nat × Nat × Nat) : Bool :=
  decide (a.1 < b.1) || (decide (a.1 = b.1) &&
    (decide (a.2.1 < b.2.1) || (decide (a.2.1 = b.2.1) && decide (a.2.2 < b.2.2))))

/-! ### Files -/

/-- `get_path`, version_check.hpp lines 223-263. `getenv` returns a null pointer if the variable is not set, and a string
must not be made from it. -/
def getPath (ndebug : Bool) : SysM Str :=
  M.bind (look (·.home)) fun home =>
  match home with
  | none => M.throw .undefinedBehaviour
  | some h =>
    M.bind (look (·.cwd)) fun cwd =>
    M.bind (onDisk (fsCreateDirectory (locOf cwd (pathJoin h ".config".toList)))) fun ok₁ =>
    M.bind (if ok₁ then
        onDisk (fsCreateDirectory (locOf cwd (pathJoin (pathJoin h ".config".toList) "seqan".toList)))
      else M.pure false) fun ok₂ =>
    M.bind (if ok₂ then M.pure (some (pathJoin (pathJoin h ".config".toList) "seqan".toList)) else look (·.tempDir))
      fun dir =>
    match dir with
    | none => M.throw .filesystemError
    | some d =>
      M.bind (onDisk (fsOpenForWriting (locOf cwd (pathJoin d dummyName)))) fun opened =>
      M.bind (onDisk (withGuard ndebug (locOf cwd (pathJoin d dummyName))
        (fsRemoveNoThrow (locOf cwd (pathJoin d dummyName))))) fun _ =>
      M.pure (if opened then d else [])

/-- The name of the time stamp file, version_check.hpp lines 84-88. -/
def timestampName (ndebug : Bool) (name : Str) : Str :=
  name ++ (if ndebug then "_usr.timestamp".toList else "_dev.timestamp".toList)

/-- The name of the version file, version_check.hpp lines 132 and 186. -/
def versionFileName (name : Str) : Str := name ++ ".version".toList

/-- A version checker: the members `cookie_path` and `timestamp_filename`. -/
structure Checker where
  cookiePath : Str
  timestampFile : Str
  deriving DecidableEq

/-- The constructor, version_check.hpp lines 73-98: the member `cookie_path` is initialised first. -/
def makeChecker (i : CheckInput) : SysM Checker :=
  M.bind (getPath i.ndebug) fun p =>
  if !i.ndebug && !matchesNameRegex i.name then M.throw .assertFailed
  else M.pure ⟨p, pathJoin p (timestampName i.ndebug i.name)⟩

/-- `get_time_diff_to_current`, version_check.hpp lines 462-471: a `double`. A line that cannot be read leaves `d_time` 0, and so does a number that
is out of range. What stands behind the number is not looked at. (`std::from_chars` of the standard library; its replacement is in
`Model/Charconv.lean`.) -/
def timeDiff (line : Str) (now : Nat) : Nat :=
  floatMinus binary64 (roundPattern binary64 now 1)
    (match fromCharsFloat binary64 line with
      | .ok v _ => v
      | _ => 0)

/-- The condition of version_check.hpp line 311. The constant is converted to `double`. -/
def youngerThanDay (line : Str) (now : Nat) : Bool := floatLt binary64 (timeDiff line now) (roundPattern binary64 86400 1)

/-- `write_cookie`, version_check.hpp lines 494-508. -/
def writeCookie (ck : Checker) (msg : Str) : SysM Unit := fun s =>
  onDisk (fsWrite (locOf s.cwd ck.timestampFile) (showNat s.clock ++ '\n' :: msg)) s

/-- The question, version_check.hpp lines 338-358. -/
def question : Str :=
  ("\n#######################################################################\n   Automatic Update Notifications\n".toList ++
  "#######################################################################\n\n".toList ++
  " This app can look for updates automatically in the background,\n do you want to do that?\n\n".toList ++
  "    [a] Always perform version checks for this app (the default).\n".toList ++
  "    [n] Never perform version checks for this app.\n".toList ++
  "    [y] Yes, perform a version check now, and ask again tomorrow.\n".toList ++
  "    [s] Skip the version check now, but ask again tomorrow.\n\n".toList ++
  " Please enter one of [a, n, y, s] and press [RETURN].\n\n For more information, see:\n".toList ++
  " https://docs.seqan.de/sharg/main_user/about_update_notifications.html\n\n".toList ++
  "#######################################################################\n\n".toList)

/-- Reading the answer, version_check.hpp lines 359-361: the first character of the next line, `s` if there is none. Time
passes. -/
def readAnswer : SysM Char := fun s =>
  .ok ((firstLine s.stdin).headD 's')
    { s with stdin := (s.stdin.dropWhile (fun c => c ≠ '\n')).tail, clock := s.clock + s.delay }

/-- The user is asked, version_check.hpp lines 336-388. -/
def askUser (ck : Checker) : SysM Bool :=
  M.bind (look fun s => s.stdinTty && s.stderrTty) fun interactive =>
  if interactive then
    M.bind (sayErr question) fun _ =>
    M.bind readAnswer fun c =>
    if c = 'y' then M.pure true
    else if c = 'a' then M.bind (writeCookie ck "ALWAYS".toList) fun _ => M.pure true
    else if c = 'n' then M.bind (writeCookie ck "NEVER".toList) fun _ => M.pure false
    else M.pure false
  else M.pure false

/-- What the time stamp file decides, version_check.hpp lines 301-330; `none` if it leaves the decision open. -/
def cookieDecision (ck : Checker) : SysM (Option Bool) :=
  M.bind (pathExists ck.cookiePath) fun there =>
  if there then
    M.bind (fun s => onDisk (fsRead (locOf s.cwd ck.timestampFile)) s) fun content =>
    match content with
    | none => M.pure none
    | some t =>
      M.bind (look (·.clock)) fun now =>
      if youngerThanDay (firstLine t) now then M.pure (some false)
      else if secondLine t = "NEVER".toList then M.pure (some false)
      else if secondLine t = "ALWAYS".toList then M.pure (some true)
      else M.pure none
  else M.pure none

/-- `decide_if_check_is_performed`, version_check.hpp lines 290-389. `notify` tells whether the developer approved. -/
def decideCheck (ck : Checker) (notify : Bool) (user : Option Bool) : SysM Bool :=
  if !notify then M.pure false
  else
    M.bind (look (·.noCheckVar)) fun noCheck =>
    if noCheck then M.pure false
    else match user with
      | some b => M.pure b
      | none =>
        M.bind (cookieDecision ck) fun d =>
        match d with
        | some b => M.pure b
        | none =>
          M.bind (writeCookie ck "ASK".toList) fun _ =>
          askUser ck

/-! ### Messages and the server command -/

/-- `message_sharg_update`, version_check.hpp lines 394-398. -/
def messageShargUpdate : Str :=
  "[SHARG VERSION INFO] :: A new Sharg version is available online.\n".toList ++
  "[SHARG VERSION INFO] :: Please visit www.github.com/seqan/sharg-parser.git for an update\n".toList ++
  "[SHARG VERSION INFO] :: or inform the developer of this app.\n".toList ++
  "[SHARG VERSION INFO] :: If you don't wish to receive further notifications, set --version-check false.\n\n".toList

/-- `message_unregistered_app`, version_check.hpp lines 400-404. -/
def messageUnregisteredApp : Str :=
  "[SHARG VERSION INFO] :: Thank you for using Sharg!\n".toList ++
  "[SHARG VERSION INFO] :: Do you wish to register your app for update notifications?\n".toList ++
  "[SHARG VERSION INFO] :: Just send an email to support@seqan.de with your app name and version number.\n".toList ++
  "[SHARG VERSION INFO] :: If you don't wish to receive further notifications, set --version-check false.\n\n".toList

/-- `message_registered_app_update`, version_check.hpp lines 406-409. -/
def messageRegisteredAppUpdate : Str :=
  "[APP VERSION INFO] :: We noticed the app version you use is newer than the one registered with us.\n".toList ++
  "[APP VERSION INFO] :: Please send us an email with the new version so we can correct it (support@seqan.de)\n\n".toList

/-- `message_app_update`, version_check.hpp lines 411-413, with the url of lines 78-82. -/
def messageAppUpdate (url : Str) : Str :=
  "[APP VERSION INFO] :: A new version of this application is now available.\n".toList ++
  "[APP VERSION INFO] :: If you don't wish to receive further notifications, set --version-check false.\n".toList ++
  (if url = [] then "\n".toList
   else "[APP VERSION INFO] :: Visit ".toList ++ url ++ " for updates.\n\n".toList)

/-- The name of an unregistered app, version_check.hpp line 392. -/
def unregisteredApp : Str := "UNREGISTERED_APP".toList

/-- `srv_app_version` and `srv_sharg_version` after reading the version file, version_check.hpp lines 128-150. -/
def serverVersions (content : Option Str) : (Nat × Nat × Nat) × (Nat × Nat × Nat) :=
  match content with
  | none => ((0, 0, 0), (0, 0, 0))
  | some t =>
    (if firstLine t ≠ unregisteredApp then versionNumbers (firstLine t) else (0, 0, 0), versionNumbers (secondLine t))

/-- The messages, version_check.hpp lines 140-178, in the order of printing. -/
def updateMessages (i : CheckInput) (content : Option Str) : Str :=
  let srv := serverVersions content
  (if !i.ndebug && decide (content.map firstLine = some unregisteredApp) then messageUnregisteredApp else [])
  ++ (if !i.ndebug && decide (srv.2 ≠ (0, 0, 0)) && versionLess i.shargVersion srv.2 then messageShargUpdate else [])
  ++ (if decide (srv.1 ≠ (0, 0, 0)) then
        (if i.ndebug then
          (if versionLess (versionNumbers (ownVersion i.version)) srv.1 then messageAppUpdate i.url else [])
        else
          (if versionLess srv.1 (versionNumbers (ownVersion i.version)) then messageRegisteredAppUpdate else []))
      else [])

/-- `get_program`, version_check.hpp lines 439-459. -/
def getProgram (wget curl : Bool) : Str :=
  if wget then "/usr/bin/env -i wget --timeout=10 --tries=1 -q -O".toList
  else if curl then "/usr/bin/env -i curl --connect-timeout 10 -o".toList
  else []

/-- The address in front of the name of the app, version_check.hpp lines 191-207. -/
def serverAddress : Str := "https://seqan-update.informatik.uni-tuebingen.de/check/SeqAn-Sharg_Linux_64_".toList

/-- The command, version_check.hpp lines 185-214. -/
def serverCommand (program outFile name version : Str) : Str :=
  program ++ ' ' :: outFile ++ ' ' :: serverAddress ++ name ++ '_' :: version ++ " > /dev/null 2>&1".toList

/-- `operator()`, version_check.hpp lines 126-220. -/
def performCheck (i : CheckInput) (ck : Checker) : SysM Unit :=
  M.bind (fun s => onDisk (fsRead (locOf s.cwd (pathJoin ck.cookiePath (versionFileName i.name)))) s) fun content =>
  M.bind (sayErr (updateMessages i content)) fun _ =>
  M.modify fun s =>
    if getProgram s.wget s.curl = [] then s
    else { s with commands := s.commands ++ [serverCommand (getProgram s.wget s.curl)
            (pathJoin ck.cookiePath (versionFileName i.name)) i.name (ownVersion i.version)] }

/-- `run_version_check`, parser.hpp lines 1114-1125. -/
def runVersionCheck (i : CheckInput) (notify : Bool) (user : Option Bool) : SysM Unit :=
  M.bind (makeChecker i) fun ck =>
  M.bind (decideCheck ck notify user) fun perform =>
  if perform then performCheck i ck else M.pure ()

/-! ### The parser on a system -/

/-- Everything a program with a parser gets from outside: what the pages need, and the rest of what the version check
needs. -/
structure Surroundings where
  pages : PageEnv
  shargVersion : Nat × Nat × Nat

/-- The input of the version check of an app (parser.hpp line 1116). -/
def Surroundings.check (r : Surroundings) (appName : Str) : CheckInput where
  ndebug := r.pages.build.ndebug
  name := appName
  version := r.pages.info.version
  url := r.pages.info.url
  shargVersion := r.shargVersion

/-- The hooks of `parse()` on a real system. -/
def Surroundings.env (r : Surroundings) : Env System where
  ndebug := r.pages.build.ndebug
  versionCheck name notify user s :=
    ((runVersionCheck (r.check name) notify user s).exn?, (runVersionCheck (r.check name) notify user s).state)
  printPage f p st s :=
    ((pageOf r.pages f p st).1, { s with stdout := s.stdout ++ (pageOf r.pages f p st).2 })

end Sharg
