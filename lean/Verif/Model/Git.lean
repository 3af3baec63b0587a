import Verif.Model.Parser

/-!
# The program of the how-to on subcommands

`doc/howto/subcommand_parser/subcommand_parse.cpp`, which is offered as a "copy'n'paste source" (`doc/howto/subcommand_parser/index.md` line 19).
Variables: 0 `flag` (line 90), 1 and 2 `repository` and `branch` of `pull_arguments` (lines 13-14), 3 and 4 `repository` and `branches` of
`push_arguments` (lines 46-47). The messages that the program prints are left out.
-/

namespace Sharg

variable {W : Type}

/-- How the program ends. -/
inductive GitEnd where
  /-- `std::exit` after printing a page -/
  | printed (page : Format)
  /-- the error is printed, `return -1` (lines 32, 65, 100) -/
  | reported (e : Exn)
  /-- lines 35 and 68-70 -/
  | pulled (repository branch : Val)
  | pushed (repository branches : Val)
  /-- line 115 -/
  | unhandled (name : Str)
  /-- an exception leaves `main`: `std::terminate` -/
  | terminated (e : Exn)
  deriving DecidableEq

/-- Lines 91 (the top-level parser), 22-23 (`pull`), 55-56 (`push`). -/
def gitTopCalls : List (Call W) :=
  [.addFlag { short := 'f', long := "flag".toList, description := "some flag".toList } 0 false]

def gitPullCalls : List (Call W) :=
  [.addPositionalOption { description := "The repository name to pull from.".toList } 1 false .string (fun _ w => (true, w)),
   .addPositionalOption { description := "The branch name to pull from.".toList } 2 false .string (fun _ w => (true, w))]

def gitPushCalls : List (Call W) :=
  [.addPositionalOption { description := "The repository name to push to.".toList } 3 false .string (fun _ w => (true, w)),
   .addPositionalOption { description := "The branch names to push.".toList } 4 true .string (fun _ w => (true, w))]

/-- The variables before `parse()`. -/
def gitStore : Store := fun x => if x = 0 then .one (.bool false) else if x = 4 then .many [] else .one (.str [])

/-- Construction of a parser and the calls. -/
def gitSetUp (env : Env W) (cs : List (Call W)) (i : Init) (st : Store) (w : W) : Prog W :=
  runActions env (cs.map .call) { parser := mkParser i, store := st, world := w }

/-- Line 83. -/
def gitInit (args : List Str) : Init where
  appName := "mygit".toList
  arguments := args
  notify := true
  subcommands := ["push".toList, "pull".toList]
  executableName := []

/-- The `catch` clauses: lines 25-33, 58-66, 93-101. -/
def gitCaught (o : Outcome) (goOn : GitEnd) : GitEnd :=
  match o with
  | .returned => goOn
  | .exited f => .printed f
  | .threw e => if e.isParserError then .reported e else .terminated e

/-- `run_git_pull`, lines 18-38, and `run_git_push`, lines 51-74, with the parser `i`. -/
def runGitPull (env : Env W) (i : Init) (st : Store) (w : W) : GitEnd :=
  let r := parse env (gitSetUp env gitPullCalls i st w)
  gitCaught r.1 (.pulled (r.2.store 1) (r.2.store 2))

def runGitPush (env : Env W) (i : Init) (st : Store) (w : W) : GitEnd :=
  let r := parse env (gitSetUp env gitPushCalls i st w)
  gitCaught r.1 (.pushed (r.2.store 3) (r.2.store 4))

/-- `main`, lines 80-119. `get_sub_parser` (line 105) is called outside of the `try` block. -/
def mygit (env : Env W) (args : List Str) (w : W) : GitEnd :=
  let r := parse env (gitSetUp env gitTopCalls (gitInit args) gitStore w)
  gitCaught r.1 <|
    match getSubParser r.2.parser with
    | .error e => .terminated e
    | .ok i =>
      if i.appName = "mygit-pull".toList then runGitPull env i r.2.store r.2.world
      else if i.appName = "mygit-push".toList then runGitPush env i r.2.store r.2.world
      else .unhandled i.appName

end Sharg
