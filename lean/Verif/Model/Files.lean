import Verif.Model.Validators

/-!
# File system validators

Models `file_validator_base`, `input_file_validator`, `output_file_validator`, `input_directory_validator` and
`output_directory_validator` of `include/sharg/validators.hpp` (lines 296-957), and
`include/sharg/detail/safe_filesystem_entry.hpp`, on a small model of a POSIX file system.

Simplifications of the file system: no symbolic links, no `.` and `..`, no limits (disk space, name length), no
other process (see `Model/Steps.lean` for those); permissions are those of the running process; the umask leaves the owner's permissions alone.
-/

namespace Sharg

/-- A file system object with its permissions for this process (`r` read, `w` write, `x` search). `special` is
anything that is neither a regular file nor a directory (device, socket). -/
inductive Node where
  | file (content : Str) (r w : Bool)
  | dir (r w x : Bool)
  | special (r w : Bool)
  deriving DecidableEq, Repr

/-- Location: the names on the way from the root directory. -/
abbrev Loc := List Str

/-- A file system: its objects with their locations. -/
abbrev Disk := List (Loc × Node)

/-- The object at a location, not looking at permissions. -/
def Disk.node? (fs : Disk) (p : Loc) : Option Node := (fs.find? (fun e => decide (e.1 = p))).map (·.2)

/-- A path argument of a validator: where it leads to, and `std::filesystem::path::filename()` of its text.
(They are independent in the model, so the theorems hold for every reading of path texts.) -/
structure PathArg where
  loc : Loc
  name : Str
  deriving DecidableEq, Repr

/-- Result of resolving a path. -/
inductive Lookup where
  | found (n : Node)
  | missing
  | denied
  deriving DecidableEq, Repr

/-- Path resolution from directory `at_`: each directory on the way needs search permission; a missing object or
a non-directory on the way means `not_found` ([fs.op.status]). -/
def walk (fs : Disk) (at_ : Loc) : List Str → Lookup
  | [] => match fs.node? at_ with
    | some n => .found n
    | none => .missing
  | c :: cs => match fs.node? at_ with
    | some (.dir _ _ x) => if x then walk fs (at_ ++ [c]) cs else .denied
    | _ => .missing

/-- `std::filesystem::status(p)`. -/
def Disk.lookup (fs : Disk) (p : Loc) : Lookup := walk fs [] p

/-- Code that works on the file system. -/
abbrev FsM (α : Type) := M Disk α

/-- `std::filesystem::exists(p)`, throwing version. -/
def fsExists (p : Loc) : FsM Bool := fun fs =>
  match fs.lookup p with
  | .found _ => .ok true fs
  | .missing => .ok false fs
  | .denied => .err .filesystemError fs

/-- `std::filesystem::is_directory(p)`, throwing version. -/
def fsIsDirectory (p : Loc) : FsM Bool := fun fs =>
  match fs.lookup p with
  | .found (.dir _ _ _) => .ok true fs
  | .found _ => .ok false fs
  | .missing => .ok false fs
  | .denied => .err .filesystemError fs

/-- `std::filesystem::is_regular_file(p)`, throwing version. -/
def fsIsRegularFile (p : Loc) : FsM Bool := fun fs =>
  match fs.lookup p with
  | .found (.file _ _ _) => .ok true fs
  | .found _ => .ok false fs
  | .missing => .ok false fs
  | .denied => .err .filesystemError fs

/-- `std::filesystem::directory_iterator{p, ec}` succeeds. -/
def fsCanList (p : Loc) : FsM Bool := fun fs =>
  match fs.lookup p with
  | .found (.dir r _ _) => .ok r fs
  | _ => .ok false fs

/-- `std::ifstream file{p}; file.is_open() && file.good()`. -/
def fsCanRead (p : Loc) : FsM Bool := fun fs =>
  match fs.lookup p with
  | .found (.file _ r _) => .ok r fs
  | .found (.special r _) => .ok r fs
  | _ => .ok false fs

/-- Entries may be added to and removed from the directory containing `p`. -/
def parentWritable (fs : Disk) (p : Loc) : Bool :=
  match p with
  | [] => false
  | _ => match fs.lookup p.dropLast with
    | .found (.dir _ w x) => w && x
    | _ => false

/-- Overwrite the object at a location where there is one. -/
def Disk.replace (fs : Disk) (p : Loc) (n : Node) : Disk := fs.map fun e => if e.1 = p then (p, n) else e

/-- `std::ofstream file{p}; file.is_open() && file.good()`: an existing file is truncated, a missing one
created. -/
def fsOpenForWriting (p : Loc) : FsM Bool := fun fs =>
  match fs.lookup p with
  | .found (.file _ r w) => if w then .ok true (fs.replace p (.file [] r w)) else .ok false fs
  | .found (.special _ w) => .ok w fs
  | .found (.dir _ _ _) => .ok false fs
  | .missing => if parentWritable fs p then .ok true ((p, .file [] true true) :: fs) else .ok false fs
  | .denied => .ok false fs

/-- Some object lies strictly below `p`. -/
def Disk.hasBelow (fs : Disk) (p : Loc) : Bool := fs.any fun e => decide (p <+: e.1 ∧ e.1 ≠ p)

/-- `std::filesystem::remove(p)`, throwing version. -/
def fsRemove (p : Loc) : FsM Unit := fun fs =>
  match fs.lookup p with
  | .missing => .ok () fs
  | .denied => .err .filesystemError fs
  | .found n =>
    match n with
    | .dir _ _ _ =>
      if parentWritable fs p && !fs.hasBelow p then .ok () (fs.filter fun e => decide (e.1 ≠ p))
      else .err .filesystemError fs
    | _ =>
      if parentWritable fs p then .ok () (fs.filter fun e => decide (e.1 ≠ p)) else .err .filesystemError fs

/-- All directories at and below `p` can be emptied. -/
def Disk.clearable (fs : Disk) (p : Loc) : Bool :=
  fs.all fun e => match e.2 with
    | .dir r w x => !decide (p <+: e.1) || (r && w && x)
    | _ => true

/-- `std::filesystem::remove_all(p)`, throwing version. Simplification: if something below `p` cannot be removed
nothing is removed (the code calls it only for a file and for a directory it created itself). -/
def fsRemoveAll (p : Loc) : FsM Unit := fun fs =>
  match fs.lookup p with
  | .missing => .ok () fs
  | .denied => .err .filesystemError fs
  | .found _ =>
    if parentWritable fs p && fs.clearable p then .ok () (fs.filter fun e => !decide (p <+: e.1))
    else .err .filesystemError fs

/-- `std::filesystem::create_directory(p, ec)`; the result tells whether `ec` is clear. -/
def fsCreateDirectory (p : Loc) : FsM Bool := fun fs =>
  match fs.lookup p with
  | .found (.dir _ _ _) => .ok true fs
  | .found _ => .ok false fs
  | .missing => if parentWritable fs p then .ok true ((p, .dir true true true) :: fs) else .ok false fs
  | .denied => .ok false fs

/-- A scope with a `safe_filesystem_entry` for `p` (safe_filesystem_entry.hpp lines 34-99): its destructor
(lines 53-59) calls `remove_all`, whether the scope is left normally or by an exception, and asserts success. -/
def withGuard (ndebug : Bool) (p : Loc) (body : FsM Unit) : FsM Unit := fun fs =>
  match body fs with
  | .ok _ fs₁ => match fsRemoveAll p fs₁ with
    | .ok _ fs₂ => .ok () fs₂
    | .err _ fs₂ => if ndebug then .ok () fs₂ else .err .assertFailed fs₂
  | .err e fs₁ => match fsRemoveAll p fs₁ with
    | .ok _ fs₂ => .err e fs₂
    | .err _ fs₂ => if ndebug then .err e fs₂ else .err .assertFailed fs₂

/-- `catch (std::filesystem::filesystem_error &)` rethrowing `validation_error`, everything else unchanged
(validators.hpp lines 577-585, 737-745, 837-845, 932-940). -/
def rethrowFs (body : FsM Unit) : FsM Unit := fun fs =>
  match body fs with
  | .err .filesystemError fs₁ => .err .validationError fs₁
  | r => r

/-! ### File names -/

/-- `std::filesystem::path::has_extension()` of a file name ([fs.path.decompose]): it is not `.` or `..`, and
its last dot is not its first character. -/
def hasExtension (name : Str) : Bool :=
  decide (name ≠ ['.', '.']) && decide ('.' ∈ name.tail)

/-- `std::tolower` of the C locale. -/
def lowerChar (c : Char) : Char :=
  if 'A'.toNat ≤ c.toNat ∧ c.toNat ≤ 'Z'.toNat then Char.ofNat (c.toNat + 32) else c

/-- The loop of `case_insensitive_string_ends_with`, validators.hpp lines 483-485: both texts, of the same length,
from front to back. -/
def sameIgnoringCase : Str → Str → Bool
  | a :: s, b :: t => if lowerChar a ≠ lowerChar b then false else sameIgnoringCase s t
  | _, _ => true

/-- `case_insensitive_string_ends_with`, validators.hpp lines 475-488. -/
def endsWithIgnoringCase (str suffix : Str) : Bool :=
  if suffix.length > str.length then false
  else sameIgnoringCase (str.drop (str.length - suffix.length)) suffix

/-- `validate_filename`, validators.hpp lines 368-404. -/
def validateFilename (extensions : List Str) (name : Str) : FsM Unit :=
  if extensions.isEmpty then M.pure ()
  else if !hasExtension name then M.throw .validationError
  else
    let filePath := if name.head? = some '.' then name.tail else name
    if !extensions.any (endsWithIgnoringCase filePath) then M.throw .validationError else M.pure ()

/-- `validate_readability`, validators.hpp lines 411-431. -/
def validateReadability (p : Loc) : FsM Unit :=
  M.bind (fsIsDirectory p) fun isDir =>
  if isDir then
    M.bind (fsCanList p) fun ok => if !ok then M.throw .validationError else M.pure ()
  else
    M.bind (fsIsRegularFile p) fun isFile =>
    if !isFile then M.throw .validationError
    else M.bind (fsCanRead p) fun ok => if !ok then M.throw .validationError else M.pure ()

/-- `validate_writeability`, validators.hpp lines 439-459. -/
def validateWriteability (ndebug : Bool) (p : Loc) : FsM Unit :=
  M.bind (fsIsDirectory p) fun isDir =>
  if isDir then M.throw .validationError
  else
    M.bind (fsOpenForWriting p) fun opened =>
    withGuard ndebug p (if !opened then M.throw .validationError else fsRemove p)

/-- `input_file_validator::operator()`, validators.hpp lines 563-586; help text lines 592-597. -/
def inputFile (extensions : List Str) (help : Str) : Validator Disk PathArg where
  run p := rethrowFs (
    M.bind (fsExists p.loc) fun there =>
    if !there then M.throw .validationError
    else
      M.bind (validateReadability p.loc) fun _ =>
      validateFilename extensions p.name)
  help := help

/-- `output_file_open_options`, validators.hpp lines 604-610. -/
inductive OpenMode where
  | openOrCreate
  | createNew
  deriving DecidableEq, Repr

/-- `output_file_validator::operator()`, validators.hpp lines 721-746; help text lines 753-767. -/
def outputFile (ndebug : Bool) (mode : OpenMode) (extensions : List Str) (help : Str) : Validator Disk PathArg where
  run p :=
    M.bind (fsIsDirectory p.loc) fun isDir =>
    if isDir then M.throw .validationError
    else rethrowFs (
      M.bind (if mode = .createNew then fsExists p.loc else M.pure false) fun there =>
      if there then M.throw .validationError
      else
        M.bind (validateWriteability ndebug p.loc) fun _ =>
        validateFilename extensions p.name)
  help := help

/-- `input_directory_validator::operator()`, validators.hpp lines 823-846. -/
def inputDirectory : Validator Disk PathArg where
  run p := rethrowFs (
    M.bind (fsExists p.loc) fun there =>
    if !there then M.throw .validationError
    else
      M.bind (fsIsDirectory p.loc) fun isDir =>
      if !isDir then M.throw .validationError
      else validateReadability p.loc)
  help := "An existing, readable path for the input directory.".toList

/-- The name `"dummy.txt"` of validators.hpp lines 923 and 928. -/
def dummyName : Str := "dummy.txt".toList

/-- `output_directory_validator::operator()`, validators.hpp lines 908-941. -/
def outputDirectory (ndebug : Bool) : Validator Disk PathArg where
  run p :=
    M.bind (fsExists p.loc) fun there =>
    M.bind (fsCreateDirectory p.loc) fun ok =>
    if !ok then M.throw .validationError
    else rethrowFs (
      if !there then
        withGuard ndebug p.loc (
          M.bind (validateWriteability ndebug (p.loc ++ [dummyName])) fun _ =>
          fsRemoveAll p.loc)
      else validateWriteability ndebug (p.loc ++ [dummyName]))
  help := "A valid path for the output directory.".toList

end Sharg
