import Verif.Spec.Version
import Verif.Model.Steps

/-!
# Specification for programs that are killed or run at the same time

Only the data types of the model are used, and the functions and the steps whose behaviour is compared.
-/

namespace Sharg.Spec

open Sharg

/-- A validator of the file system and the path it is called with. -/
inductive PathCheck where
  | inputFile (extensions : List Str) (path : PathArg)
  | inputDirectory (path : PathArg)
  | outputFile (ndebug : Bool) (mode : OpenMode) (extensions : List Str) (path : PathArg)
  | outputDirectory (ndebug : Bool) (path : PathArg)

/-- The checked location. -/
def PathCheck.loc : PathCheck → Loc
  | .inputFile _ p | .inputDirectory p | .outputFile _ _ _ p | .outputDirectory _ p => p.loc

/-- Whether the check is one for an output. -/
def PathCheck.isOutput : PathCheck → Bool
  | .inputFile _ _ | .inputDirectory _ => false
  | .outputFile _ _ _ _ | .outputDirectory _ _ => true

/-- The check in one go. -/
def PathCheck.alone : PathCheck → Disk → Res Disk Unit
  | .inputFile exts p => (Sharg.inputFile exts []).run p
  | .inputDirectory p => Sharg.inputDirectory.run p
  | .outputFile nd mode exts p => (Sharg.outputFile nd mode exts []).run p
  | .outputDirectory nd p => (Sharg.outputDirectory nd).run p

/-- The check in steps. -/
def PathCheck.steps : PathCheck → Steps Disk Unit
  | .inputFile exts p => inputFileSteps exts p
  | .inputDirectory p => inputDirectorySteps p
  | .outputFile nd mode exts p => outputFileSteps nd mode exts p
  | .outputDirectory nd p => outputDirectorySteps nd p

/-- Check `a` may disturb check `b`: `a` is for an output which `b` wants to use, or through which, or (if `b` is for an output,
too) in which its path leads. -/
def Disturbs (a b : PathCheck) : Prop :=
  a.isOutput = true ∧ (a.loc <+: b.loc ∨ (b.isOutput = true ∧ b.loc <+: a.loc))

/-- A machine on which some programs, each in its own surroundings, are about to do a check. -/
def checksOn (fs : Disk) (jobs : List (PathCheck × System)) : Machine :=
  ⟨fs, jobs.map fun j => some ⟨Steps.onDisk j.1.steps, j.2⟩⟩

/-! ### Version checks -/

/-- In the directory `D`, which can be used, there is a cookie that can be read and whose last word is NEVER, and nothing but a file that can
be written to is in the way of the test file. -/
def NeverOn (D : Loc) (cookie : Str) (d : Disk) : Prop :=
  (∃ r, Reaches d D (.dir r true true)) ∧ (∀ e ∈ d, dummyIn D <+: e.1 → ∃ c r, e = (dummyIn D, .file c r true)) ∧
  ∃ text w, Reaches d (D ++ [cookie]) (.file text true w) ∧ LastRead text "NEVER".toList

/-- No step of the code destroys `J`, whatever happened before it. -/
def Respects {α : Type} (J : Disk → Prop) : Steps System α → Prop
  | .done _ => True
  | .step next rest => ∀ s, J s.disk → J (next s).disk ∧ Respects J (rest s)

/-- The program is about to do a version check, and the directory of its cookies is `D`. -/
def IsCheck (D : Loc) (p : Process) (i : CheckInput) (notify : Bool) (user : Option Bool) : Prop :=
  p.code = runVersionCheckSteps i notify user ∧ ∃ h, p.own.home = some h ∧ seqanDir p.own.cwd h = D

end Sharg.Spec
