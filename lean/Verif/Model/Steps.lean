import Verif.Model.VersionCheck

/-!
# The same code, step by step

The other model files run a function at once. Here the functions that work on the file system are cut into atomic steps, one
for each call of the operating system, so that a program can be killed between two steps, and so that several programs can
run at the same time. `Lemmas/Steps.lean` proves that the steps, done one after the other by one program alone, are the
functions of `Model/Files.lean` and `Model/VersionCheck.lean`.

Simplification: one call of a function of `std::filesystem`, and opening or writing a (short) file, is one step.
`std::filesystem::remove_all` is one step, too.
-/

namespace Sharg

/-- Code cut into atomic steps. `next` is the change of the state in the step, `rest` is what remains to be done; both
depend on the state before the step. -/
inductive Steps (σ α : Type) where
  | done (r : Except Exn α)
  | step (next : σ → σ) (rest : σ → Steps σ α)

/-- The value or exception of a result. -/
def Res.outcome {σ α : Type} : Res σ α → Except Exn α
  | .ok a _ => .ok a
  | .err e _ => .error e

namespace Steps

variable {σ α β : Type}

def pure (a : α) : Steps σ α := .done (.ok a)

def throw (e : Exn) : Steps σ α := .done (.error e)

/-- A function as one step. -/
def atom (m : M σ α) : Steps σ α := .step (fun s => (m s).state) (fun s => .done (m s).outcome)

/-- Continue with the value or the exception of `p`. -/
def handle (p : Steps σ α) (k : Except Exn α → Steps σ β) : Steps σ β :=
  match p with
  | .done r => k r
  | .step next rest => .step next fun s => handle (rest s) k

/-- Sequencing: an exception skips the rest. -/
def bind (p : Steps σ α) (f : α → Steps σ β) : Steps σ β :=
  p.handle fun
    | .ok a => f a
    | .error e => .done (.error e)

/-- All steps one after the other, without disturbance. -/
def run : Steps σ α → M σ α
  | .done (.ok a) => M.pure a
  | .done (.error e) => M.throw e
  | .step next rest => fun s => run (rest s) (next s)

/-- The state when the program is killed after `n` steps (or is finished before). -/
def killedAfter : Nat → Steps σ α → σ → σ
  | 0, _, s => s
  | _, .done _, s => s
  | n + 1, .step next rest, s => killedAfter n (rest s) (next s)

/-- Steps on the file system inside the system. -/
def onDisk : Steps Disk α → Steps System α
  | .done r => .done r
  | .step next rest => .step (fun s => { s with disk := next s.disk }) fun s => onDisk (rest s.disk)

end Steps

/-! ### Validators -/

/-- `withGuard` (safe_filesystem_entry.hpp lines 34-99) in steps. The destructor does not run if the program is killed. -/
def withGuardSteps (ndebug : Bool) (p : Loc) (body : Steps Disk Unit) : Steps Disk Unit :=
  body.handle fun r => (Steps.atom (fsRemoveAll p)).handle fun
    | .ok _ => .done r
    | .error _ => if ndebug then .done r else .done (.error .assertFailed)

/-- `rethrowFs` in steps. -/
def rethrowFsSteps (body : Steps Disk Unit) : Steps Disk Unit :=
  body.handle fun
    | .error .filesystemError => .done (.error .validationError)
    | r => .done r

/-- `validate_filename`, validators.hpp lines 368-404, does not look at the file system. -/
def validateFilenameSteps (extensions : List Str) (name : Str) : Steps Disk Unit :=
  .done (validateFilename extensions name []).outcome

/-- `validate_readability`, validators.hpp lines 411-431, in steps. -/
def validateReadabilitySteps (p : Loc) : Steps Disk Unit :=
  (Steps.atom (fsIsDirectory p)).bind fun isDir =>
  if isDir then
    (Steps.atom (fsCanList p)).bind fun ok => if !ok then Steps.throw .validationError else Steps.pure ()
  else
    (Steps.atom (fsIsRegularFile p)).bind fun isFile =>
    if !isFile then Steps.throw .validationError
    else (Steps.atom (fsCanRead p)).bind fun ok => if !ok then Steps.throw .validationError else Steps.pure ()

/-- `validate_writeability`, validators.hpp lines 439-459, in steps. -/
def validateWriteabilitySteps (ndebug : Bool) (p : Loc) : Steps Disk Unit :=
  (Steps.atom (fsIsDirectory p)).bind fun isDir =>
  if isDir then Steps.throw .validationError
  else
    (Steps.atom (fsOpenForWriting p)).bind fun opened =>
    withGuardSteps ndebug p (if !opened then Steps.throw .validationError else Steps.atom (fsRemove p))

/-- `input_file_validator::operator()`, validators.hpp lines 563-586, in steps. -/
def inputFileSteps (extensions : List Str) (p : PathArg) : Steps Disk Unit :=
  rethrowFsSteps (
    (Steps.atom (fsExists p.loc)).bind fun there =>
    if !there then Steps.throw .validationError
    else
      (validateReadabilitySteps p.loc).bind fun _ =>
      validateFilenameSteps extensions p.name)

/-- `output_file_validator::operator()`, validators.hpp lines 721-746, in steps. -/
def outputFileSteps (ndebug : Bool) (mode : OpenMode) (extensions : List Str) (p : PathArg) : Steps Disk Unit :=
  (Steps.atom (fsIsDirectory p.loc)).bind fun isDir =>
  if isDir then Steps.throw .validationError
  else rethrowFsSteps (
    (if mode = .createNew then Steps.atom (fsExists p.loc) else Steps.pure false).bind fun there =>
    if there then Steps.throw .validationError
    else
      (validateWriteabilitySteps ndebug p.loc).bind fun _ =>
      validateFilenameSteps extensions p.name)

/-- `input_directory_validator::operator()`, validators.hpp lines 823-846, in steps. -/
def inputDirectorySteps (p : PathArg) : Steps Disk Unit :=
  rethrowFsSteps (
    (Steps.atom (fsExists p.loc)).bind fun there =>
    if !there then Steps.throw .validationError
    else
      (Steps.atom (fsIsDirectory p.loc)).bind fun isDir =>
      if !isDir then Steps.throw .validationError
      else validateReadabilitySteps p.loc)

/-- `output_directory_validator::operator()`, validators.hpp lines 908-941, in steps. -/
def outputDirectorySteps (ndebug : Bool) (p : PathArg) : Steps Disk Unit :=
  (Steps.atom (fsExists p.loc)).bind fun there =>
  (Steps.atom (fsCreateDirectory p.loc)).bind fun ok =>
  if !ok then Steps.throw .validationError
  else rethrowFsSteps (
    if !there then
      withGuardSteps ndebug p.loc (
        (validateWriteabilitySteps ndebug (p.loc ++ [dummyName])).bind fun _ =>
        Steps.atom (fsRemoveAll p.loc))
    else validateWriteabilitySteps ndebug (p.loc ++ [dummyName]))

/-! ### Version check -/

/-- Writing a text into a file that was opened; nothing if it is no longer there. -/
def fsPut (p : Loc) (content : Str) : FsM Unit := fun fs =>
  match fs.node? p with
  | some (.file _ r w) => .ok () (fs.replace p (.file content r w))
  | _ => .ok () fs

/-- Reading a file given by the text of its path. -/
def readPath (p : Str) : SysM (Option Str) := fun s => onDisk (fsRead (locOf s.cwd p)) s

/-- Writing a file: opening it (which empties it) and writing the text are two steps. -/
def fsWriteSteps (p : Loc) (content : Str) : Steps Disk Unit :=
  (Steps.atom (fsOpenForWriting p)).bind fun opened =>
  if opened then Steps.atom (fsPut p content) else Steps.pure ()

/-- `get_path`, version_check.hpp lines 223-263, in steps. -/
def getPathSteps (ndebug : Bool) : Steps System Str :=
  (Steps.atom (look (·.home))).bind fun home =>
  match home with
  | none => Steps.throw .undefinedBehaviour
  | some h =>
    (Steps.atom (look (·.cwd))).bind fun cwd =>
    (Steps.atom (onDisk (fsCreateDirectory (locOf cwd (pathJoin h ".config".toList))))).bind fun ok₁ =>
    (if ok₁ then
        Steps.atom (onDisk (fsCreateDirectory (locOf cwd (pathJoin (pathJoin h ".config".toList) "seqan".toList))))
      else Steps.pure false).bind fun ok₂ =>
    (if ok₂ then Steps.pure (some (pathJoin (pathJoin h ".config".toList) "seqan".toList)) else Steps.atom (look (·.tempDir))).bind
      fun dir =>
    match dir with
    | none => Steps.throw .filesystemError
    | some d =>
      (Steps.atom (onDisk (fsOpenForWriting (locOf cwd (pathJoin d dummyName))))).bind fun opened =>
      (Steps.onDisk (withGuardSteps ndebug (locOf cwd (pathJoin d dummyName))
        (Steps.atom (fsRemoveNoThrow (locOf cwd (pathJoin d dummyName)))))).bind fun _ =>
      Steps.pure (if opened then d else [])

/-- The constructor, version_check.hpp lines 73-98, in steps. -/
def makeCheckerSteps (i : CheckInput) : Steps System Checker :=
  (getPathSteps i.ndebug).bind fun p =>
  if !i.ndebug && !matchesNameRegex i.name then Steps.throw .assertFailed
  else Steps.pure ⟨p, pathJoin p (timestampName i.ndebug i.name)⟩

/-- `write_cookie`, version_check.hpp lines 494-508, in steps: the time is taken before the file is opened. -/
def writeCookieSteps (ck : Checker) (msg : Str) : Steps System Unit :=
  (Steps.atom (look fun s => (locOf s.cwd ck.timestampFile, showNat s.clock))).bind fun x =>
  Steps.onDisk (fsWriteSteps x.1 (x.2 ++ '\n' :: msg))

/-- The user is asked, version_check.hpp lines 336-388, in steps. -/
def askUserSteps (ck : Checker) : Steps System Bool :=
  (Steps.atom (look fun s => s.stdinTty && s.stderrTty)).bind fun interactive =>
  if interactive then
    (Steps.atom (sayErr question)).bind fun _ =>
    (Steps.atom readAnswer).bind fun c =>
    if c = 'y' then Steps.pure true
    else if c = 'a' then (writeCookieSteps ck "ALWAYS".toList).bind fun _ => Steps.pure true
    else if c = 'n' then (writeCookieSteps ck "NEVER".toList).bind fun _ => Steps.pure false
    else Steps.pure false
  else Steps.pure false

/-- What the time stamp file decides, version_check.hpp lines 301-330, in steps. -/
def cookieDecisionSteps (ck : Checker) : Steps System (Option Bool) :=
  (Steps.atom (pathExists ck.cookiePath)).bind fun there =>
  if there then
    (Steps.atom (readPath ck.timestampFile)).bind fun content =>
    match content with
    | none => Steps.pure none
    | some t =>
      (Steps.atom (look (·.clock))).bind fun now =>
      if youngerThanDay (firstLine t) now then Steps.pure (some false)
      else if secondLine t = "NEVER".toList then Steps.pure (some false)
      else if secondLine t = "ALWAYS".toList then Steps.pure (some true)
      else Steps.pure none
  else Steps.pure none

/-- `decide_if_check_is_performed`, version_check.hpp lines 290-389, in steps. -/
def decideCheckSteps (ck : Checker) (notify : Bool) (user : Option Bool) : Steps System Bool :=
  if !notify then Steps.pure false
  else
    (Steps.atom (look (·.noCheckVar))).bind fun noCheck =>
    if noCheck then Steps.pure false
    else match user with
      | some b => Steps.pure b
      | none =>
        (cookieDecisionSteps ck).bind fun d =>
        match d with
        | some b => Steps.pure b
        | none =>
          (writeCookieSteps ck "ASK".toList).bind fun _ =>
          askUserSteps ck

/-- `operator()`, version_check.hpp lines 126-220, in steps. -/
def performCheckSteps (i : CheckInput) (ck : Checker) : Steps System Unit :=
  (Steps.atom (readPath (pathJoin ck.cookiePath (versionFileName i.name)))).bind fun content =>
  (Steps.atom (sayErr (updateMessages i content))).bind fun _ =>
  Steps.atom (M.modify fun s =>
    if getProgram s.wget s.curl = [] then s
    else { s with commands := s.commands ++ [serverCommand (getProgram s.wget s.curl)
            (pathJoin ck.cookiePath (versionFileName i.name)) i.name (ownVersion i.version)] })

/-- `run_version_check`, parser.hpp lines 1114-1125, in steps. -/
def runVersionCheckSteps (i : CheckInput) (notify : Bool) (user : Option Bool) : Steps System Unit :=
  (makeCheckerSteps i).bind fun ck =>
  (decideCheckSteps ck notify user).bind fun perform =>
  if perform then performCheckSteps i ck else Steps.pure ()

/-! ### Several programs on one machine -/

/-- A program: what it still has to do, and its own view of the system (current directory, environment, clock, streams). The
disk in it is not used, all programs share one disk. -/
structure Process where
  code : Steps System Unit
  own : System

/-- A machine: the disk and the programs. A program that has not made a step yet has not been started; `none` is a program
that was killed. -/
structure Machine where
  disk : Disk
  procs : List (Option Process)

/-- What can happen next: program `k` makes a step, program `k` is killed, or for program `k` some seconds pass. -/
inductive Happening where
  | step (k : Nat)
  | kill (k : Nat)
  | time (k : Nat) (seconds : Nat)

/-- One step of a program on the shared disk. -/
def Process.step (d : Disk) (p : Process) : Disk × Process :=
  match p.code with
  | .done _ => (d, p)
  | .step next rest =>
    ((next { p.own with disk := d }).disk, ⟨rest { p.own with disk := d }, next { p.own with disk := d }⟩)

/-- The machine after something happened. -/
def Machine.next (m : Machine) : Happening → Machine
  | .step k => match m.procs[k]? with
    | some (some p) => ⟨(p.step m.disk).1, m.procs.set k (some (p.step m.disk).2)⟩
    | _ => m
  | .kill k => ⟨m.disk, m.procs.set k none⟩
  | .time k n => match m.procs[k]? with
    | some (some p) => ⟨m.disk, m.procs.set k (some ⟨p.code, { p.own with clock := p.own.clock + n }⟩)⟩
    | _ => m

/-- The machine after a history. -/
def Machine.play (m : Machine) (hs : List Happening) : Machine := hs.foldl Machine.next m

/-- Program `k` is finished with the given value or exception. -/
def Machine.finished (m : Machine) (k : Nat) (r : Except Exn Unit) : Prop :=
  ∃ s, m.procs[k]? = some (some ⟨.done r, s⟩)

end Sharg
