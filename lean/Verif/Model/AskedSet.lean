import Verif.Model.Parser

/-!
# A program of the documentation: asking which options are set

`test/snippet/is_option_set.cpp`, shown in the documentation of `sharg::parser::is_option_set` (`parser.hpp` line 473) and in the cookbook (`doc/cookbook/index.md` line 42). Variable 0 is `a` (line 11).
-/

namespace Sharg

variable {W : Type}

/-- How the program ends. -/
inductive AskedEnd where
  /-- `std::exit` after printing a page -/
  | printed (page : Format)
  /-- the error is printed, `return -1` (lines 18-22) -/
  | reported (e : Exn)
  /-- `return 0` (line 33), with the lines printed before -/
  | finished (lines : List Str)
  /-- an exception leaves `main`: `std::terminate`, with the lines printed before -/
  | terminated (e : Exn) (lines : List Str)
  deriving DecidableEq

/-- Line 12. -/
def askedCalls : List (Call W) :=
  [.addOption { short := 'a', long := "aint".toList, description := "Specify an integer.".toList } 0 false
    (.integer (-2147483648) 2147483647) (fun _ w => (true, w))]

/-- Lines 9-12. -/
def askedProg (env : Env W) (args : List Str) (w : W) : Prog W :=
  runActions env (askedCalls.map .call)
    { parser := mkParser { appName := "awesome-app".toList, arguments := args, notify := true, subcommands := [], executableName := [] }
      store := fun _ => .one (.int 3)
      world := w }

/-- What lines 25 and 28 print. -/
def setA : Str := "The user set option -a on the command line.".toList

def setAwesome : Str := "The user set option --awesome-parameter on the command line.".toList

/-- `main`, lines 7-34. Lines 24-28 are outside of the `try` block. -/
def askedMain (env : Env W) (args : List Str) (w : W) : AskedEnd :=
  let r := parse env (askedProg env args w)
  match r.1 with
  | .exited f => .printed f
  | .threw e => if e.isParserError then .reported e else .terminated e []
  | .returned =>
    match isOptionSet r.2.parser (.short 'a') with
    | .error e => .terminated e []
    | .ok a =>
      let out := if a then [setA] else []
      match isOptionSet r.2.parser (.long "awesome-parameter".toList) with
      | .error e => .terminated e out
      | .ok b => .finished (if b then out ++ [setAwesome] else out)

end Sharg
