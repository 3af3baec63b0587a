import Verif.Model.Files

/-!
# The system around a run of a program

What `include/sharg/detail/version_check.hpp` reads and changes: file system, clock, environment variables, terminals,
standard streams, other programs.

Simplifications: one process at a time (see `Model/Steps.lean` for several); the clock shows the same second during a run, except that `delay` seconds pass
before the user answers a question; paths have no `.`, `..` and no symbolic links.
-/

namespace Sharg

/-- The system.
* `cwd`: the current directory; `home`: the environment variable `HOME`; `noCheckVar`: `SHARG_NO_VERSION_CHECK` is set.
* `tempDir`: `std::filesystem::temp_directory_path()`, `none` if it throws.
* `wget`, `curl`: the program is there (its call with `--version` succeeds).
* `stdin` holds what can still be read, `stdout` and `stderr` what was written.
* `commands`: the commands passed to the server thread, in order. -/
structure System where
  disk : Disk
  cwd : Loc
  clock : Nat
  delay : Nat
  home : Option Str
  noCheckVar : Bool
  tempDir : Option Str
  stdinTty : Bool
  stderrTty : Bool
  wget : Bool
  curl : Bool
  stdin : Str
  stdout : Str
  stderr : Str
  commands : List Str
  deriving DecidableEq

/-- Code that works on the system. -/
abbrev SysM (α : Type) := M System α

/-- File system code inside the system. -/
def onDisk {α : Type} (m : FsM α) : SysM α := fun s =>
  match m s.disk with
  | .ok a d => .ok a { s with disk := d }
  | .err e d => .err e { s with disk := d }

/-- A read-only look at the system. -/
def look {α : Type} (f : System → α) : SysM α := fun s => .ok (f s) s

/-- `std::cerr << t`. -/
def sayErr (t : Str) : SysM Unit := M.modify fun s => { s with stderr := s.stderr ++ t }

/-- `std::cout << t`. -/
def sayOut (t : Str) : SysM Unit := M.modify fun s => { s with stdout := s.stdout ++ t }

/-! ### Path texts -/

/-- The parts of a text between slashes, without empty parts; `cur` is the part being read. -/
def splitFrom (cur : Str) : Str → List Str
  | [] => if cur = [] then [] else [cur]
  | c :: s =>
    if c = '/' then (if cur = [] then splitFrom [] s else cur :: splitFrom [] s)
    else splitFrom (cur ++ [c]) s

/-- Where a path text leads to ([fs.path.generic]): absolute if it starts with a slash, else from the current
directory. -/
def locOf (cwd : Loc) (t : Str) : Loc := (if t.head? = some '/' then [] else cwd) ++ splitFrom [] t

/-- `p / name` of `std::filesystem::path` for a name without slashes ([fs.path.append]): no separator is added to an
empty path and behind a separator. -/
def pathJoin (p name : Str) : Str :=
  if p = [] ∨ p.getLast? = some '/' then p ++ name else p ++ '/' :: name

/-! ### Files -/

/-- The text that `std::ifstream` reads, `none` if it cannot be opened. Simplification: a directory, which can be opened but
not read, and a special file are like a file that cannot be opened. (For the directory this makes a difference only in the
first day of the epoch.) -/
def fsRead (p : Loc) : FsM (Option Str) := fun fs =>
  match fs.lookup p with
  | .found (.file content r _) => .ok (if r then some content else none) fs
  | _ => .ok none fs

/-- `std::ofstream file{p}; if (file.is_open()) file << content;`. -/
def fsWrite (p : Loc) (content : Str) : FsM Unit :=
  M.bind (fsOpenForWriting p) fun opened fs =>
    if opened then
      match fs.node? p with
      | some (.file _ r w) => .ok () (fs.replace p (.file content r w))
      | _ => .ok () fs
    else .ok () fs

/-- `std::filesystem::remove(p, ec)`. -/
def fsRemoveNoThrow (p : Loc) : FsM Unit := fun fs =>
  match fsRemove p fs with
  | .ok _ fs₁ => .ok () fs₁
  | .err _ fs₁ => .ok () fs₁

/-- `std::filesystem::exists(p)` for a path text; there is nothing at the empty path. -/
def pathExists (p : Str) : SysM Bool := fun s =>
  if p = [] then .ok false s else onDisk (fsExists (locOf s.cwd p)) s

/-- The first line that `std::getline` reads. -/
def firstLine (content : Str) : Str := content.takeWhile (fun c => c ≠ '\n')

/-- What is in the string after a second `std::getline` into it. If the first line was not ended, the stream is at its end
and the string is not touched ([string.io]); otherwise it holds the second line, which may be empty. -/
def secondLine (content : Str) : Str :=
  if '\n' ∈ content then ((content.dropWhile (fun c => c ≠ '\n')).tail).takeWhile (fun c => c ≠ '\n')
  else firstLine content

end Sharg
