import Verif.Props.DiskTraces
import Verif.Model.Killed

/-!
# What may be different on the disk when a program is killed
-/

namespace Sharg.Spec

/-- Nothing, an empty file, or a new directory. -/
def Blank : Option Node → Prop
  | none => True
  | some (.file c _ _) => c = []
  | some (.dir r w x) => r = true ∧ w = true ∧ x = true
  | some (.special _ _) => False

/-- The check of a path may change what is at `q`; `old` is what was there before. -/
def MayChange (c : PathCheck) (old : Option Node) (q : Loc) : Prop :=
  match c with
  | .inputFile _ _ | .inputDirectory _ => False
  | .outputFile _ .createNew _ p => q = p.loc ∧ old = none
  | .outputFile _ .openOrCreate _ p => q = p.loc
  | .outputDirectory _ p => (q = p.loc ∧ old = none) ∨ q = dummyIn p.loc

/-- The type of an option that holds paths: `std::string` or `std::filesystem::path`. -/
def HoldsPaths (ty : ElemTy) : Prop := ty = .string ∨ ty = pathTy

/-- A validator that leaves the files and the current directory alone, in a system where programs are killed. -/
def LeavesFilesM (v : Val → Mortal → Bool × Mortal) : Prop :=
  ∀ x m, (v x m).2.system.disk = m.system.disk ∧ (v x m).2.system.cwd = m.system.cwd ∧ (v x m).2.left = m.left

/-- The validator is one for paths, at an option for paths, or leaves the files alone. -/
def Usual (ty : ElemTy) (v : Val → Mortal → Bool × Mortal) : Prop := LeavesFilesM v ∨ (HoldsPaths ty ∧ ∃ k : PathKind, v = k.killable)

/-- The object at `q` is named on the command line: the end of an argument (all of it, or what is behind the identifier) is the value of an option
whose validator may change what is at `q`; or an argument, perhaps without some characters that are flags, is the value of a positional option
with such a validator. -/
def NamedAsOutput (D : Decls Mortal) (args : List Str) (cwd : Loc) (old : Option Node) (q : Loc) : Prop :=
  ∃ a ∈ args, ∃ p, ∃ k : PathKind, MayChange (k.check (pathArg cwd p)) old q ∧
    ((∃ d ∈ D.options, HoldsPaths d.ty ∧ d.validator = k.killable ∧ p <:+ a) ∨
     (∃ d ∈ D.positionals, HoldsPaths d.ty ∧ d.validator = k.killable ∧ p.Sublist a))

/-- All validators are usual. -/
def AllUsual (D : Decls Mortal) : Prop :=
  (∀ d ∈ D.options, Usual d.ty d.validator) ∧ ∀ d ∈ D.positionals, Usual d.ty d.validator

/-- The version check may create or remove the object at `q`. -/
def UsedByCheck (s : System) (cookie : Str) (old : Option Node) (q : Loc) : Prop :=
  (∃ f ∈ testFiles s, f <+: q) ∨ (q ∈ cookieDirs s ∧ old = none) ∨ q ∈ cookiePlaces s cookie

/-- A start of a program that calls `parse()`, perhaps killed. The disk in it is not used. -/
structure Start where
  around : Surroundings
  prog : Prog Mortal

/-- The program, started on a disk. -/
def Start.on (r : Start) (d : Disk) : Prog Mortal :=
  { r.prog with world := ⟨{ r.prog.world.system with disk := d }, r.prog.world.left⟩ }

/-- The name of the cookie of the app. -/
def Start.cookie (r : Start) : Str := cookieName r.around.pages.build.ndebug r.prog.parser.appName

/-- The program may create, empty or remove the object at `q`. -/
def Start.mayTouch (r : Start) (old : Option Node) (q : Loc) : Prop :=
  NamedAsOutput (declsOf r.prog.parser.operations) r.prog.parser.arguments.tail r.prog.world.system.cwd old q ∨
  UsedByCheck r.prog.world.system r.cookie old q

/-- The disk after programs were started one after the other. -/
def afterAll : List Start → Disk → Disk
  | [], d => d
  | r :: rs, d => afterAll rs (parse r.around.killable (r.on d)).2.world.system.disk

/-- What can have become of the object at `q`: it is as before; or one of the programs may touch it, and now it is a new directory, an empty file, or
gone; or it is a cookie that one of them wrote. -/
def Accounted (rs : List Start) (d₀ d : Disk) (q : Loc) : Prop :=
  d.node? q = d₀.node? q ∨
  ((∃ r ∈ rs, r.mayTouch (d₀.node? q) q) ∧ Blank (d.node? q)) ∨
  ((∃ r ∈ rs, q ∈ cookiePlaces r.prog.world.system r.cookie) ∧ ∃ text x w, d.node? q = some (.file text x w) ∧ OwnCookie text)

end Sharg.Spec
