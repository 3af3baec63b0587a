import Verif.Model.Steps
import Verif.Model.PathValue
import Verif.Spec.Concurrency

/-!
# `parse()` on a system where the program may be killed

The parser knows the outside world only through its hooks and validators. Here the world is a system together with the number of steps
that the program will still live to do; the version check and the file validators are those of Steps.lean. When no step is left nothing
more happens to the system, whatever the functions around it return.
-/

namespace Sharg

open Spec

/-- A system and the number of steps after which the program is killed; `none`: it is not killed. -/
structure Mortal where
  system : System
  left : Option Nat

/-- The steps that are still done. No result if the program is killed. -/
def Steps.mortal {α : Type} : Steps System α → Mortal → Option (Except Exn α) × Mortal
  | .done r, m => (some r, m)
  | .step next rest, m =>
    match m.left with
    | none => (rest m.system).mortal ⟨next m.system, none⟩
    | some 0 => (none, m)
    | some (n + 1) => (rest m.system).mortal ⟨next m.system, some n⟩

/-- The validators for paths, without the path. -/
inductive PathKind where
  | inputFile (extensions : List Str)
  | inputDirectory
  | outputFile (ndebug : Bool) (mode : OpenMode) (extensions : List Str)
  | outputDirectory (ndebug : Bool)

/-- The check of a path. -/
def PathKind.check : PathKind → PathArg → PathCheck
  | .inputFile exts, p => .inputFile exts p
  | .inputDirectory, p => .inputDirectory p
  | .outputFile nd mode exts, p => .outputFile nd mode exts p
  | .outputDirectory nd, p => .outputDirectory nd p

/-- The check of a path text in the system. -/
def PathKind.steps (k : PathKind) (cwd : Loc) (t : Str) : Steps System Unit := Steps.onDisk (k.check (pathArg cwd t)).steps

/-- The overload for ranges, validators.hpp lines 349-360: every element in order. -/
def PathKind.stepsEach (k : PathKind) (cwd : Loc) : List Str → Steps System Unit
  | [] => Steps.pure ()
  | t :: ts => (k.steps cwd t).bind fun _ => k.stepsEach cwd ts

/-- What the parser sees: every exception is a rejection. -/
def passed {α : Type} : Option (Except Exn α) × Mortal → Bool × Mortal
  | (some (.ok _), m) => (true, m)
  | (_, m) => (false, m)

/-- The validator at an option or positional option that holds paths or texts, as `Validator.onPaths` (Model/PathValue.lean). -/
def PathKind.killable (k : PathKind) : Val → Mortal → Bool × Mortal := fun x m =>
  match x with
  | .one e => match elemPath e with
    | some t => passed ((k.steps m.system.cwd t).mortal m)
    | none => (true, m)
  | .many es => passed ((k.stepsEach m.system.cwd (es.filterMap elemPath)).mortal m)

/-- What `parse()` sees of the version check: an exception, if there is one. (After the program was killed the answer does not matter.) -/
def thrown {α : Type} : Option (Except Exn α) × Mortal → Option Exn × Mortal
  | (some (.ok _), m) => (none, m)
  | (some (.error e), m) => (some e, m)
  | (none, m) => (none, m)

/-- The hooks of `parse()`, as `Surroundings.env` (Model/VersionCheck.lean). -/
def Surroundings.killable (r : Surroundings) : Env Mortal where
  ndebug := r.pages.build.ndebug
  versionCheck name notify user m := thrown ((runVersionCheckSteps (r.check name) notify user).mortal m)
  printPage f p st m :=
    ((pageOf r.pages f p st).1, { m with system := { m.system with stdout := m.system.stdout ++ (pageOf r.pages f p st).2 } })

end Sharg
