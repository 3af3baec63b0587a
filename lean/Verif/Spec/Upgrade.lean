import Verif.Spec.Line

/-!
# Specification: a new release of a program has more options and flags
-/

namespace Sharg.Spec

/-- The identifiers that are searched for when the arguments are scanned are those of the registered options. (Calls of
`add_option` that were rejected may leave identifiers behind, see C03.) -/
def ScansOptions {W : Type} (g : Prog W) : Prop :=
  ∀ o, o ∈ g.parser.options ↔ ∃ d ∈ (declsOf g.parser.operations).options, Bare d o

/-- `g₂` is a new release of `g₁`: the options and flags of the old one are those with `old` and `oldFlag` among the ones
of the new one, in the same order. Required options were not added. Everything else, in particular the call, is the
same. -/
structure Upgrade {W : Type} (old : OptDecl W → Bool) (oldFlag : FlagDecl → Bool) (g₁ g₂ : Prog W) : Prop where
  options : (declsOf g₁.parser.operations).options = (declsOf g₂.parser.operations).options.filter old
  flags : (declsOf g₁.parser.operations).flags = (declsOf g₂.parser.operations).flags.filter oldFlag
  positionals : (declsOf g₁.parser.operations).positionals = (declsOf g₂.parser.operations).positionals
  notRequired : ∀ e ∈ (declsOf g₂.parser.operations).options, old e = false → e.required = false
  scans₁ : ScansOptions g₁
  scans₂ : ScansOptions g₂
  parsed : g₁.parser.parseWasCalled = g₂.parser.parseWasCalled
  appName : g₁.parser.appName = g₂.parser.appName
  executableName : g₁.parser.executableName = g₂.parser.executableName
  notify : g₁.parser.notify = g₂.parser.notify
  subcommands : g₁.parser.subcommands = g₂.parser.subcommands
  subParser : g₁.parser.subParser = g₂.parser.subParser
  arguments : g₁.parser.arguments = g₂.parser.arguments
  store : g₁.store = g₂.store
  world : g₁.world = g₂.world

/-- Nothing on the line could be taken for a new option or flag: no argument (also no value) begins with an identifier
of a new option; no argument in front of `--`, other than those that begin with the identifier of an option, can set a
new flag; and no argument behind `--` looks like a group with a new flag. -/
structure NotMeant {W : Type} (old : OptDecl W → Bool) (oldFlag : FlagDecl → Bool) (D : Decls W) (args : List Str) : Prop where
  options : ∀ e ∈ D.options, old e = false → ∀ a ∈ args, ¬ Names e a
  flags : ∀ f ∈ D.flags, oldFlag f = false → ∀ a ∈ before args, (∀ d ∈ D.options, ¬ Names d a) → ¬ FlagSeen D f a
  tail : ∀ f ∈ D.flags, oldFlag f = false → ∀ a ∈ behind args, ¬ InGroup f a

/-- The arguments that are looked at until reading stops: behind the name of a subcommand they are for its own parser. -/
def Stop.looked : Stop → List Str
  | .subcommand s _ => [s]
  | .unknownSubcommand a _ => [a]
  | stop => stop.render

/-- Two runs of `parse()` end alike: the same return or exception, the same variables, the same world and the same
arguments for the parser of the subcommand. -/
structure SameEnd {W : Type} (r₁ r₂ : Outcome × Prog W) : Prop where
  outcome : r₁.1 = r₂.1
  store : r₁.2.store = r₂.2.store
  world : r₁.2.world = r₂.2.world
  subParser : r₁.2.parser.subParser = r₂.2.parser.subParser

/-- Both runs come to printing the same page, in the same world and with the same variables; the pages may of course
show different texts. -/
def SamePage {W : Type} (env : Env W) (r₁ r₂ : Outcome × Prog W) : Prop :=
  ∃ f p₁ p₂ st w, f ≠ .parse ∧ r₁ = parseFormat env f ⟨p₁, st, w⟩ ∧ r₂ = parseFormat env f ⟨p₂, st, w⟩

/-- The call is not one of a new option or flag. -/
def isOldCall {W : Type} (old : Char → Str → Bool) : Call W → Bool
  | .addOption cfg _ _ _ _ => old cfg.short cfg.long
  | .addFlag cfg _ _ => old cfg.short cfg.long
  | _ => true

/-- The set-up of the old release: without the new options and flags. -/
def olderRelease {W : Type} (old : Char → Str → Bool) (cs : List (Call W)) : List (Call W) := cs.filter (isOldCall old)

/-- All calls of the set-up are accepted. -/
def AllAccepted {W : Type} (env : Env W) (cs : List (Call W)) (g : Prog W) : Prop :=
  (accepted env (cs.map .call) g).length = cs.length

instance {W : Type} (env : Env W) (cs : List (Call W)) (g : Prog W) : Decidable (AllAccepted env cs g) :=
  inferInstanceAs (Decidable (_ = _))

/-- No new option is required. -/
def NoneRequired {W : Type} (old : Char → Str → Bool) (cs : List (Call W)) : Prop :=
  ∀ cfg x l ty v, Call.addOption cfg x l ty v ∈ cs → old cfg.short cfg.long = false → cfg.required = false

/-- The new options were added behind all old ones; flags anywhere. -/
def NewOptionsLast {W : Type} (old : Char → Str → Bool) (cs : List (Call W)) : Prop :=
  ∃ front back, cs = front ++ back ∧
    (∀ cfg x l ty v, Call.addOption cfg x l ty v ∈ front → old cfg.short cfg.long = true) ∧
    ∀ cfg x l ty v, Call.addOption cfg x l ty v ∈ back → old cfg.short cfg.long = false

/-- Arguments that no user would write: a group of short flags with another `-` in it, or a text with a null
character. -/
def Odd (a : Str) : Prop := '\x00' ∈ a ∨ ∃ t, a = '-' :: t ∧ t.head? ≠ some '-' ∧ '-' ∈ t

/-- The identifiers of the new options are not arguments of the line, the new flags do not occur behind `--`, nor in odd
arguments. Values may begin like a new option. -/
structure NotUsed {W : Type} (old : OptDecl W → Bool) (oldFlag : FlagDecl → Bool) (D : Decls W) (args : List Str) : Prop where
  options : ∀ e ∈ D.options, old e = false → ∀ a ∈ args, ¬ Bare e a
  odd : ∀ f ∈ D.flags, oldFlag f = false → ∀ a ∈ before args, Odd a → ¬ FlagSeen D f a
  tail : ∀ f ∈ D.flags, oldFlag f = false → ∀ a ∈ behind args, ¬ InGroup f a

end Sharg.Spec
