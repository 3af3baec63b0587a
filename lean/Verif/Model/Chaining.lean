import Verif.Model.Regex
import Verif.Model.PathRegex
import Verif.Model.Messages
import Verif.Model.Parser

/-!
# A program of the documentation: validators one behind the other

`test/snippet/validators_chaining.cpp`, shown in the documentation of `operator|` (`validators.hpp` line 1167), in the tutorial
(`doc/tutorial/parser/index.md` line 549) and in the cookbook (`doc/cookbook/index.md` line 53), up to the line that prints the name of the file. Variable 0 is `file_name`.
-/

namespace Sharg

/-- The pattern of line 14. -/
def absolutePattern : Str := "(/[^/]+)+/.*\\.[^/\\.]+$".toList

/-- A pattern in front of an input file, called with a text. -/
def patternFile (other : Str → Option (Str → Bool)) (e : Exn) (pattern : Str) (exts : List Str) (help : Str) : Validator System Str :=
  (patternValidator other e pattern).chain (inputFile exts help).onSystem

/-- `absolute_path_validator | my_file_ext_validator`, lines 14, 15, 21. The pattern is covered, so the first two arguments do not matter. -/
def absoluteFile : Validator System Str :=
  patternFile (fun _ => none) .validationError absolutePattern ["sa".toList, "so".toList] (inputFileMessage ["sa".toList, "so".toList])

/-- Lines 17-21. -/
def chainingCalls : List (Call System) :=
  [.addOption
      { short := 'f', long := "file".toList
        description := "Give me a file name with an absolute path.".toList
        validatorMessage := absoluteFile.help }
      0 false .string absoluteFile.atTexts]

/-- `main` before `parse()`, lines 9-21: `file_name` is empty. -/
def chaining (env : Env System) (args : List Str) (s : System) : Prog System :=
  runActions env (chainingCalls.map .call)
    { parser := mkParser { appName := "Test".toList, arguments := args, notify := true, subcommands := [], executableName := [] }
      store := fun _ => .one (.str [])
      world := s }

end Sharg
