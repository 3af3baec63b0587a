import Verif.Model.PathRegex
import Verif.Model.Messages
import Verif.Model.VersionCheck
import Verif.Model.Parser

/-!
# The program of the tutorial

`doc/tutorial/parser/solution6.cpp`, which the tutorial offers as a "copy'n'paste source for your application" (`doc/tutorial/parser/index.md` line 567),
up to the call of `run_program`. Variables: 0 `file_path`, 1 `seasons`, 2 `aggregate_by`, 3 `header_is_set` (lines 66-72).
-/

namespace Sharg

/-- The text contains `seasons.` with something behind it. -/
def hasSeasons : Str → Bool
  | [] => false
  | c :: s => ("seasons.".toList.isPrefixOf (c :: s) && decide (8 ≤ s.length)) || hasSeasons s

/-- `std::regex_match` with the pattern `.*seasons\..+$`, where a dot does not match the end of a line. -/
def matchesSeasons (t : Str) : Bool := t.all (fun c => c ≠ '\n' && c ≠ '\r') && hasSeasons t

/-- The pattern of line 85. -/
def tutorialPattern : Str := ".*seasons\\..+$".toList

/-- `regex_validator{".*seasons\\..+$"} | input_file_validator{{"tsv"}}` called with a path (line 85). -/
def seasonsFile : Validator System Str :=
  (regexValidator tutorialPattern matchesSeasons).onParts.chain (inputFile ["tsv".toList] (inputFileMessage ["tsv".toList])).onSystem

/-- `arithmetic_range_validator{1, 7}` of type `int` (line 95). -/
def seasonsRange : Validator System Num := arithmeticRange (.integer (-2147483648) 2147483647) toStringNum (.int 1) (.int 7)

/-- `value_list_validator{"median", "mean"}` (line 103). -/
def aggregateValues : Validator System Str :=
  valueList id (valueListMessage ["median".toList, "mean".toList]) ["median".toList, "mean".toList]

/-- `initialise_parser`, lines 74-112, without `parser.info`. -/
def tutorialCalls : List (Call System) :=
  [.addPositionalOption
      { description := "Please provide a tab separated seasons file.".toList
        validatorMessage := seasonsFile.help }
      0 false pathTy (atPaths seasonsFile seasonsFile.each),
   .addOption
      { short := 's', long := "season".toList, required := true
        description := "Choose the seasons to aggregate.".toList
        validatorMessage := seasonsRange.help }
      1 true (.integer 0 255) seasonsRange.onIntegers,
   .addOption
      { short := 'a', long := "aggregate-by".toList
        description := "Choose your method of aggregation.".toList
        validatorMessage := aggregateValues.help }
      2 false .string aggregateValues.atTexts,
   .addFlag
      { short := 'H', long := "header-is-set".toList
        description := "Let us know whether your data file contains a header to ensure correct parsing.".toList }
      3 false]

/-- `cmd_arguments args{}`, lines 66-72, 117. -/
def tutorialStore : Store := fun x =>
  match x with
  | 0 => .one (.other (pathCode []))
  | 1 => .many []
  | 2 => .one (.str "mean".toList)
  | _ => .one (.bool false)

/-- `main` before `parse()`, lines 114-119. -/
def tutorial (env : Env System) (args : List Str) (s : System) : Prog System :=
  runActions env (tutorialCalls.map .call)
    { parser := mkParser { appName := "Game-of-Parsing".toList, arguments := args, notify := true, subcommands := [], executableName := [] }
      store := tutorialStore
      world := s }

end Sharg
