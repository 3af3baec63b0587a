import Verif.Spec.Grammar
import Verif.Spec.Scan
import Verif.Spec.Setup
import Verif.Spec.Account

/-!
# Specification: programs that parse a given line, and what they should find in their variables
-/

namespace Sharg.Spec

/-- A program state that set-up calls and `parse()` calls can lead to. -/
def Reachable {W : Type} (env : Env W) (g : Prog W) : Prop :=
  ∃ (i : Init) (st : Store) (w : W) (as : List (Action W)), g = runActions env as (start i st w)

/-- The line contains no request: flags called `version-check` are excluded, as `--version-check` is always read as the
predefined one (C08); the words behind `--` are not reserved (C15). -/
def NotRequest (items : List Item) (tail : Option (List Str)) : Prop :=
  Item.longFlag "version-check".toList ∉ items ∧ ∀ ws, tail = some ws → ∀ w ∈ ws, ¬ Reserved w

/-- The program has set up its parser (with clean names and without subcommands) and was called with the line. -/
structure LineGiven {W : Type} (g : Prog W) (items : List Item) (tail : Option (List Str)) : Prop where
  notParsed : g.parser.parseWasCalled = false
  cleanName : CleanName g.parser.appName
  noSubcommands : g.parser.subcommands = []
  arguments : ∃ exe, g.parser.arguments = exe :: renderLine items tail
  notEmpty : renderLine items tail ≠ []
  notRequest : NotRequest items tail

/-- Like `LineGiven` for lines that may contain, besides unambiguously written options, arbitrary other arguments
(unknown identifiers, repeated flags, empty arguments ...) as long as they are neither requests nor could be read as an
option. -/
structure LooseGiven {W : Type} (g : Prog W) (items : List Item) (tail : Option (List Str)) : Prop where
  notParsed : g.parser.parseWasCalled = false
  cleanName : CleanName g.parser.appName
  noSubcommands : g.parser.subcommands = []
  arguments : ∃ exe, g.parser.arguments = exe :: renderLine items tail
  notEmpty : renderLine items tail ≠ []
  itemsLoose : ∀ it ∈ items, it.Loose (declsOf g.parser.operations)
  others : ∀ it ∈ items, it.isOption = false → ∀ a ∈ it.render, ¬ Reserved a ∧ a ∉ g.parser.options
  tailPlain : ∀ ws, tail = some ws → ∀ w ∈ ws, ¬ Reserved w

/-- The version check (if any) of the program does not throw and leaves the world `w`. -/
def CheckPasses {W : Type} (env : Env W) (g : Prog W) (w : W) : Prop :=
  env.versionCheck g.parser.appName g.parser.notify none g.world = (none, w)

/-- Two programs with the same registrations, variables and surroundings: they differ in their arguments only. -/
structure SameSetup {W : Type} (g₁ g₂ : Prog W) : Prop where
  operations : g₁.parser.operations = g₂.parser.operations
  appName : g₁.parser.appName = g₂.parser.appName
  notify : g₁.parser.notify = g₂.parser.notify
  store : g₁.store = g₂.store
  world : g₁.world = g₂.world

/-- `parse()` ends in the same way and with the same effects. -/
def SameOutcome {W : Type} (env : Env W) (g₁ g₂ : Prog W) : Prop :=
  (parse env g₁).1 = (parse env g₂).1 ∧ (parse env g₁).2.store = (parse env g₂).2.store ∧
    (parse env g₁).2.world = (parse env g₂).2.world

/-- The values of an option are all given with the same identifier. -/
def Uniform {W : Type} (d : OptDecl W) (items : List Item) : Prop :=
  ¬ ((∃ form v, Item.short d.short form v ∈ items) ∧ (∃ sep v, Item.long d.long sep v ∈ items))

/-- `it` is one of the spellings of giving option `d` the value `v`. -/
inductive SpellingOf {W : Type} (d : OptDecl W) (v : Str) : Item → Prop where
  | short (h : d.short ≠ '\x00') (form : Form) : SpellingOf d v (.short d.short form v)
  | long (h : d.long ≠ []) (sep : Bool) : SpellingOf d v (.long d.long sep v)

/-- The same item, or another spelling of the same option occurrence. -/
inductive Respelled {W : Type} (D : Decls W) : Item → Item → Prop where
  | same (it : Item) : Respelled D it it
  | respell (d : OptDecl W) (hd : d ∈ D.options) (s t : Item) (v : Str) (hs : SpellingOf d v s) (ht : SpellingOf d v t) :
    Respelled D s t

/-- Two programs that differ only in the order in which options and flags were registered. -/
structure SameUpToOrder {W : Type} (g₁ g₂ : Prog W) : Prop where
  options : (declsOf g₁.parser.operations).options.Perm (declsOf g₂.parser.operations).options
  flags : (declsOf g₁.parser.operations).flags.Perm (declsOf g₂.parser.operations).flags
  positionals : (declsOf g₁.parser.operations).positionals = (declsOf g₂.parser.operations).positionals
  appName : g₁.parser.appName = g₂.parser.appName
  notify : g₁.parser.notify = g₂.parser.notify
  store : g₁.store = g₂.store
  world : g₁.world = g₂.world

/-- Every option, flag and positional option has a variable of its own. -/
def VarsDistinct {W : Type} (D : Decls W) : Prop :=
  (D.options.map (·.var) ++ D.flags.map (·.var) ++ D.positionals.map (·.var)).Nodup

/-- The text denotes no value of the type. Enumerations without names are excluded: there the exception is of another
kind (C30). -/
def BadText (ty : ElemTy) (t : Str) : Prop := (∀ e, ¬ Denotes ty t e) ∧ ∀ names, ty = .enumeration names → names ≠ []

/-- The variables of the positional options hold the words, in order. -/
def PositionalValues {W : Type} : List (PosDecl W) → List Str → Store → Prop
  | [], ws, _ => ws = []
  | d :: ds, ws, st =>
    if d.isList then ds = [] ∧ ws ≠ [] ∧ ValueOf true d.ty ws (st d.var)
    else ∃ t ts, ws = t :: ts ∧ ValueOf false d.ty [t] (st d.var) ∧ PositionalValues ds ts st

/-- The words fit the positional options. -/
def PositionalsFit {W : Type} : List (PosDecl W) → List Str → Prop
  | [], ws => ws = []
  | d :: ds, ws =>
    if d.isList then ds = [] ∧ ws ≠ [] ∧ ∃ val, ValueOf true d.ty ws val ∧ ∀ w, (d.validator val w).1 = true
    else ∃ t ts val, ws = t :: ts ∧ ValueOf false d.ty [t] val ∧ (∀ w, (d.validator val w).1 = true) ∧ PositionalsFit ds ts

/-- What the variables should hold after a line was parsed. -/
structure Delivered {W : Type} (D : Decls W) (items : List Item) (tail : Option (List Str)) (st st' : Store) : Prop where
  /-- an option that was given holds its value(s) -/
  value : ∀ d ∈ D.options, given d items ≠ [] → ValueOf d.isList d.ty (given d items) (st' d.var)
  /-- an option that was not given keeps its default -/
  default : ∀ d ∈ D.options, given d items = [] → st' d.var = st d.var
  /-- required options were given -/
  required : ∀ d ∈ D.options, d.required = true → given d items ≠ []
  /-- flags that were given are true -/
  flagSet : ∀ f ∈ D.flags, mentions f items ≠ 0 → st' f.var = .one (.bool true)
  flagUnset : ∀ f ∈ D.flags, mentions f items = 0 → st' f.var = st f.var
  /-- the words are delivered in order -/
  positionals : PositionalValues D.positionals (words items tail) st'
  /-- nothing else changes -/
  frame : ∀ x, (∀ d ∈ D.options, d.var ≠ x) → (∀ f ∈ D.flags, f.var ≠ x) → (∀ d ∈ D.positionals, d.var ≠ x) →
    st' x = st x

/-- A line that is acceptable option by option: required options are given, texts denote values, and validators accept
them whatever the state of the world is. -/
structure Accepted {W : Type} (D : Decls W) (items : List Item) (tail : Option (List Str)) : Prop where
  required : ∀ d ∈ D.options, d.required = true → given d items ≠ []
  values : ∀ d ∈ D.options, given d items ≠ [] → ∃ val, ValueOf d.isList d.ty (given d items) val ∧
    ∀ w, (d.validator val w).1 = true
  positionals : PositionalsFit D.positionals (words items tail)

end Sharg.Spec
