import Verif.Spec.Account
import Verif.Spec.Files
import Verif.Spec.PathValue
import Verif.Model.System

/-!
# What the checks of files promise

When `parse()` has returned, the program goes on with the paths in its variables. These are the promises it may rely on.
-/

namespace Sharg.Spec

/-- The path is in the variable: as a path or as a text, alone or in a list. -/
def Holds (v : Val) (p : Str) : Prop := v = .one (pathElem p) ∨ v = .one (.str p) ∨ ∃ es, v = .many es ∧ (pathElem p ∈ es ∨ .str p ∈ es)

/-- What is behind the last slash. -/
def NameOf (p name : Str) : Prop := '/' ∉ name ∧ (p = name ∨ ∃ dir, p = dir ++ '/' :: name)

/-- The file can be read (and has a name with one of the extensions). -/
def InputUsable (s : System) (exts : List Str) (p : Str) : Prop :=
  (∃ n, Reaches s.disk (locOf s.cwd p) n ∧ Readable n) ∧ ∀ name, NameOf p name → NameAccepted exts name

/-- The directory can be read. -/
def DirectoryUsable (s : System) (p : Str) : Prop := ∃ w x, Reaches s.disk (locOf s.cwd p) (.dir true w x)

/-- Nothing is there, and a file can be created (with a name with one of the extensions). -/
def OutputFree (s : System) (exts : List Str) (p : Str) : Prop :=
  (∀ n, ¬ Reaches s.disk (locOf s.cwd p) n) ∧ CanCreate s.disk (locOf s.cwd p) ∧ ∀ name, NameOf p name → NameAccepted exts name

/-- A validator that leaves the files and the current directory alone. -/
def LeavesFiles (v : Val → System → Bool × System) : Prop := ∀ x s, (v x s).2.disk = s.disk ∧ (v x s).2.cwd = s.cwd

/-- The variable belongs to an option that was given, or to a positional option, and has the validator. `args` are the arguments the parser works on. -/
def CheckedBy {W : Type} (D : Decls W) (args : List Str) (v : Val → W → Bool × W) (x : VarId) : Prop :=
  (∃ d ∈ D.options, d.var = x ∧ d.validator = v ∧ ∃ a ∈ free D false (before args), Names d a) ∨
  (∃ d ∈ D.positionals, d.var = x ∧ d.validator = v)

end Sharg.Spec
