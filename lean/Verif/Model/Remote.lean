import Verif.Model.Git

/-!
# A program of the documentation: subcommands of subcommands

`test/snippet/add_subcommands.cpp`, shown in the documentation of `sharg::parser::add_subcommands` (`parser.hpp` line 648). Variables: 0, 1 and 2
are the `repository` of `git pull` (line 18), `git push` (line 25) and `git remote set-url` (line 40). The messages are left out.
-/

namespace Sharg

variable {W : Type}

/-- How the program ends. -/
inductive RemoteEnd where
  /-- `std::exit` after printing a page -/
  | printed (page : Format)
  /-- the error is printed, `std::exit(-1)` (lines 58-62) -/
  | reported (e : Exn)
  /-- lines 19-20, 26-27, 41-42 and 47: the last `parse()` has returned -/
  | pulled (repository : Val)
  | pushed (repository : Val)
  | urlSet (repository : Val)
  | shown
  /-- none of the names -/
  | unhandled (name : Str)
  /-- an exception leaves `main`: `std::terminate` -/
  | terminated (e : Exn)
  deriving DecidableEq

/-- The `catch` clause in lines 58-62, for a call of `parse()`. -/
def remoteCaught (o : Outcome) (goOn : RemoteEnd) : RemoteEnd :=
  match o with
  | .returned => goOn
  | .exited f => .printed f
  | .threw e => if e.isParserError then .reported e else .terminated e

/-- The `catch` clause in lines 58-62, for a call of `get_sub_parser()`. -/
def remoteSub (p : Parser W) (goOn : Init → RemoteEnd) : RemoteEnd :=
  match getSubParser p with
  | .error e => if e.isParserError then .reported e else .terminated e
  | .ok i => goOn i

/-- Line 9. -/
def remoteInit (args : List Str) : Init where
  appName := "git".toList
  arguments := args
  notify := false
  subcommands := ["pull".toList, "push".toList]
  executableName := []

/-- Line 10. -/
def remoteTopCalls : List (Call W) := [.addSubcommands ["remote".toList]]

/-- Lines 19, 26 and 41. -/
def repositoryCalls (x : VarId) : List (Call W) := [.addPositionalOption {} x false .string (fun _ w => (true, w))]

/-- Line 32. -/
def remoteCalls : List (Call W) := [.addSubcommands ["set-url".toList, "show".toList]]

/-- Lines 31-49. -/
def runRemote (env : Env W) (i : Init) (st : Store) (w : W) : RemoteEnd :=
  let r := parse env (gitSetUp env remoteCalls i st w)
  remoteCaught r.1 <| remoteSub r.2.parser fun j =>
    if j.appName = "git-remote-set-url".toList then
      let r' := parse env (gitSetUp env (repositoryCalls 2) j r.2.store r.2.world)
      remoteCaught r'.1 (.urlSet (r'.2.store 2))
    else if j.appName = "git-remote-show".toList then
      remoteCaught (parse env (gitSetUp env [] j r.2.store r.2.world)).1 .shown
    else .unhandled j.appName

/-- `run` and `main`, lines 7-65. -/
def remoteMain (env : Env W) (args : List Str) (w : W) : RemoteEnd :=
  let r := parse env (gitSetUp env remoteTopCalls (remoteInit args) (fun _ => .one (.str [])) w)
  remoteCaught r.1 <| remoteSub r.2.parser fun j =>
    if j.appName = "git-pull".toList then
      let r' := parse env (gitSetUp env (repositoryCalls 0) j r.2.store r.2.world)
      remoteCaught r'.1 (.pulled (r'.2.store 0))
    else if j.appName = "git-push".toList then
      let r' := parse env (gitSetUp env (repositoryCalls 1) j r.2.store r.2.world)
      remoteCaught r'.1 (.pushed (r'.2.store 1))
    else if j.appName = "git-remote".toList then runRemote env j r.2.store r.2.world
    else .unhandled j.appName

end Sharg
