import Verif.Spec.Line

/-!
# Specification: command lines that can be read in one way only

For arbitrary arguments. The conditions exclude the lines on which the parser is known to go astray (C15, C20, C23, C28).
-/

namespace Sharg.Spec

/-- An argument that is not the value of an option: it is not empty, and if it is a group of short flags it contains
neither a dash nor NUL. -/
def LoneOk {W : Type} (D : Decls W) (a : Str) : Prop :=
  a ≠ [] ∧ ∀ x t, a = '-' :: x :: t → x ≠ '-' → '-' ∈ t ∨ '\x00' ∈ x :: t → x ≠ '\x00' ∧ ∃ d ∈ D.options, d.short = x

/-- Read from left to right, no value in an argument of its own looks like an option. -/
def ClearFront {W : Type} (D : Decls W) : List Str → Prop
  | [] => True
  | [a] => ¬ BareAny D a → LoneOk D a
  | a :: v :: l => if BareAny D a then ¬ LooksLikeOption D v ∧ ClearFront D l else LoneOk D a ∧ ClearFront D (v :: l)

/-- The arguments can be read in one way only. -/
structure Clear {W : Type} (D : Decls W) (args : List Str) : Prop where
  front : ClearFront D (before args)
  /-- no list option is given with both its identifiers -/
  lists : ∀ d ∈ D.options, d.isList = true → ¬ ((d.short ≠ '\x00' ∧ ∃ a ∈ before args, ['-', d.short] <+: a) ∧
    d.long ≠ [] ∧ ∃ a ∈ before args, a = '-' :: '-' :: d.long ∨ '-' :: '-' :: (d.long ++ ['=']) <+: a)
  /-- the words behind `--` are not mistaken for flags -/
  tail : ∀ w ∈ behind args, w ≠ [] ∧ ∀ f ∈ D.flags, ¬ EatenBy f.short w

/-- The program has set up its parser (with a clean name and without subcommands) and was called with the arguments,
among which there is no request (like `--help`). -/
structure RawGiven {W : Type} (g : Prog W) (args : List Str) : Prop where
  notParsed : g.parser.parseWasCalled = false
  cleanName : CleanName g.parser.appName
  noSubcommands : g.parser.subcommands = []
  arguments : ∃ exe, g.parser.arguments = exe :: args
  notEmpty : args ≠ []
  notReserved : ∀ a ∈ args, ¬ Reserved a

end Sharg.Spec
