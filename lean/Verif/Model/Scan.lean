import Verif.Model.Setup

/-!
# Scanning the arguments for special requests and subcommands

Models `determine_format_and_subcommand`, `include/sharg/parser.hpp` lines 808-964.
-/

namespace Sharg

/-- The alternatives of the variant `format`, parser.hpp lines 753-761. -/
inductive Format where
  | parse
  | help (advanced : Bool)
  | shortHelp
  | version
  | html
  | man
  | tdl (cwl : Bool)
  | copyright
  deriving DecidableEq, Repr

/-- What the scanning loop changes. -/
structure ScanState where
  format : Format
  formatArguments : List Str
  sub : Option (List Str)
  userDecision : Option Bool
  deriving DecidableEq, Repr

def sDashH : Str := ['-', 'h']
def sHelp : Str := ['-', '-', 'h', 'e', 'l', 'p']
def sDashHH : Str := ['-', 'h', 'h']
def sAdvancedHelp : Str := ['-', '-', 'a', 'd', 'v', 'a', 'n', 'c', 'e', 'd', '-', 'h', 'e', 'l', 'p']
def sVersion : Str := ['-', '-', 'v', 'e', 'r', 's', 'i', 'o', 'n']
def sCopyright : Str := ['-', '-', 'c', 'o', 'p', 'y', 'r', 'i', 'g', 'h', 't']
def sExportHelp : Str := ['-', '-', 'e', 'x', 'p', 'o', 'r', 't', '-', 'h', 'e', 'l', 'p']
def sVersionCheck : Str := ['-', '-', 'v', 'e', 'r', 's', 'i', 'o', 'n', '-', 'c', 'h', 'e', 'c', 'k']

/-- Lines 924-935: the value of `--export-help`. -/
def exportFormat (v : Str) : Except Exn Format :=
  if v = ['h', 't', 'm', 'l'] then .ok .html
  else if v = ['m', 'a', 'n'] then .ok .man
  else if v = ['c', 't', 'd'] then .ok (.tdl false)
  else if v = ['c', 'w', 'l'] then .ok (.tdl true)
  else .error .validationError

/-- Lines 942-947: the value of `--version-check`. -/
def versionCheckValue (v : Str) : Except Exn Bool :=
  if v = ['1'] ∨ v = ['t', 'r', 'u', 'e'] then .ok true
  else if v = ['0'] ∨ v = ['f', 'a', 'l', 's', 'e'] then .ok false
  else .error .validationError

abbrev SM (α : Type) := M ScanState α

def setFormat (f : Format) : SM Unit := M.modify fun s => { s with format := f }

/-- `format_arguments.emplace_back(arg)`. -/
def pushArg (a : Str) : SM Unit := M.modify fun s => { s with formatArguments := s.formatArguments ++ [a] }

/-- The `for` loop, lines 869-954, over the arguments behind the program name. `options` are the registered
options with dashes, `subs` the subcommands. `sub` is set to the arguments from the subcommand on. -/
def scanLoop (options subs : List Str) : List Str → SM Unit
  | [] => M.pure ()
  | a :: rest =>
    if a ∈ options then
      M.bind (pushArg a) fun _ =>
      match rest with
      | [] => M.pure ()
      | v :: rest' => M.bind (pushArg v) fun _ => scanLoop options subs rest'
    else if subs ≠ [] ∧ a ∈ subs then
      M.modify fun s => { s with sub := some (a :: rest) }
    else if subs ≠ [] ∧ a.head? ≠ some '-' then M.throw .userInputError
    else if a = sDashH ∨ a = sHelp then
      M.bind (setFormat (.help false)) fun _ => scanLoop options subs rest
    else if a = sDashHH ∨ a = sAdvancedHelp then
      M.bind (setFormat (.help true)) fun _ => scanLoop options subs rest
    else if a = sVersion then M.bind (setFormat .version) fun _ => scanLoop options subs rest
    else if a = sCopyright then M.bind (setFormat .copyright) fun _ => scanLoop options subs rest
    else if a = sExportHelp then
      match rest with
      | [] => M.throw .tooFewArguments
      | v :: rest' =>
        match exportFormat v with
        | .error e => M.throw e
        | .ok f => M.bind (setFormat f) fun _ => scanLoop options subs rest'
    else if (sExportHelp ++ ['=']).isPrefixOf a then
      match exportFormat (a.drop (sExportHelp.length + 1)) with
      | .error e => M.throw e
      | .ok f => M.bind (setFormat f) fun _ => scanLoop options subs rest
    else if a = sVersionCheck then
      match rest with
      | [] => M.throw .tooFewArguments
      | v :: rest' =>
        match versionCheckValue v with
        | .error e => M.throw e
        | .ok b =>
          M.bind (M.modify fun s => { s with userDecision := some b }) fun _ => scanLoop options subs rest'
    else M.bind (pushArg a) fun _ => scanLoop options subs rest

/-- State before the loop: the variant holds `format_short_help` (line 761). -/
def scanInit : ScanState := { format := .shortHelp, formatArguments := [], sub := none, userDecision := none }

/-- Lines 956-963: no special format and something to parse means `format_parse`. -/
def finalFormat (s : ScanState) : Format :=
  if s.format ≠ .shortHelp then s.format
  else if s.formatArguments ≠ [] ∨ s.sub ≠ none then .parse
  else .shortHelp

/-- Lines 838-846: construction of the sub-parser; `args` are the arguments from the subcommand on. -/
def subInit (appName : Str) (executableName : List Str) (args : List Str) : Init where
  appName := appName ++ '-' :: args.headD []
  arguments := args
  notify := false
  subcommands := []
  executableName := executableName

/-- `determine_format_and_subcommand`, parser.hpp lines 808-964, on the parser object. `arguments` empty: the
`assert` of line 810 fails, or, in a build with `NDEBUG`, the end iterator is dereferenced (line 813). -/
def determineFormatAndSubcommand {W : Type} (ndebug : Bool) : PM W Format := fun p =>
  match p.arguments with
  | [] => .err (if ndebug then .undefinedBehaviour else .assertFailed) p
  | exe :: args =>
    let p1 := { p with executableName := p.executableName ++ [exe] }
    let upd (s : ScanState) : Parser W := { p1 with
      formatArguments := s.formatArguments
      userDecision := s.userDecision
      subParser := s.sub.map (subInit p.appName p1.executableName) }
    match scanLoop p.options p.subcommands args scanInit with
    | .err e s => .err e (upd s)
    | .ok _ s => .ok (finalFormat s) (upd s)

end Sharg
