import Verif.Spec.Line

/-!
# Specification: a command line for every choice of values

What a script writes when it has to give a program a certain value for each option, to set certain flags and to pass
certain words: one argument `--key=V` (or `-k=V`) per value, one argument per flag, `--`, and the words.
-/

namespace Sharg.Spec

/-- Give the option the text: `--key=V`, or `-k=V` if there is no long identifier; an empty text can only be given as an
argument of its own. -/
def giveItem {W : Type} (d : OptDecl W) (v : Str) : Item :=
  if d.long ≠ [] then .long d.long (v.isEmpty) v
  else .short d.short (if v = [] then .separate else .equals) v

/-- Set the flag: `-f`, or `--flag` if there is no short identifier. -/
def giveFlag (f : FlagDecl) : Item := if f.short ≠ '\x00' then .flags [f.short] else .longFlag f.long

/-- The line in front of `--`. `vals` are the texts for each option, `on` the flags to be set. -/
def recipe {W : Type} (D : Decls W) (vals : OptDecl W → List Str) (on : FlagDecl → Bool) : List Item :=
  D.options.flatMap (fun d => (vals d).map (giveItem d)) ++ (D.flags.filter on).map giveFlag

/-- Some text denotes the value. -/
def Expressible (ty : ElemTy) (e : Elem) : Prop := ∃ t, Denotes ty t e

/-- A value a program can ask for: a scalar, or a list that is not empty; each element has a text. -/
def ExpressibleVal (isList : Bool) (ty : ElemTy) (val : Val) : Prop :=
  if isList then ∃ es, val = .many es ∧ es ≠ [] ∧ ∀ e ∈ es, Expressible ty e
  else ∃ e, val = .one e ∧ Expressible ty e

/-- The parser was set up (with a clean name, without subcommands) and is called with the arguments. -/
structure CalledWith {W : Type} (g : Prog W) (args : List Str) : Prop where
  notParsed : g.parser.parseWasCalled = false
  cleanName : CleanName g.parser.appName
  noSubcommands : g.parser.subcommands = []
  arguments : ∃ exe, g.parser.arguments = exe :: args

/-- The words can be passed behind `--`: they are not empty, they are not one of the predefined requests, and no flag
could be found in them. -/
def Passable {W : Type} (D : Decls W) (ws : List Str) : Prop :=
  ∀ w ∈ ws, w ≠ [] ∧ ¬ Reserved w ∧ ∀ f ∈ D.flags, ¬ EatenBy f.short w

/-- The variable holds the text, as its value or in its list. -/
def HoldsText (val : Val) (s : Str) : Prop := val = .one (.str s) ∨ ∃ es, val = .many es ∧ .str s ∈ es

end Sharg.Spec
