import Verif.Spec.Line

/-!
# Lines without subcommand
-/

namespace Sharg.Spec

/-- The arguments contain no words: only options with the argument behind them, `--version-check` with the argument behind it, and arguments with a dash in
front. -/
inductive OnlyDashed (options : List Str) : List Str → Prop where
  | nil : OnlyDashed options []
  | option {o v : Str} {rest : List Str} : o ∈ options → OnlyDashed options rest → OnlyDashed options (o :: v :: rest)
  | last {o : Str} : o ∈ options → OnlyDashed options [o]
  | check {v : Str} {rest : List Str} : OnlyDashed options rest → OnlyDashed options ("--version-check".toList :: v :: rest)
  | dashed {a : Str} {rest : List Str} : a.head? = some '-' → OnlyDashed options rest → OnlyDashed options (a :: rest)

/-- The program has subcommands, but was called with options and flags only, perhaps with `--` behind them. -/
structure NoSubcommandGiven {W : Type} (g : Prog W) (items : List Item) (tail : Option (List Str)) : Prop where
  notParsed : g.parser.parseWasCalled = false
  cleanName : CleanName g.parser.appName
  cleanSubs : ∀ s ∈ g.parser.subcommands, CleanName s
  noDash : ∀ s ∈ g.parser.subcommands, s.head? ≠ some '-'
  arguments : ∃ exe, g.parser.arguments = exe :: renderLine items tail
  notEmpty : renderLine items tail ≠ []
  noWords : ∀ w, Item.word w ∉ items
  noTail : tail = none ∨ tail = some []
  notRequest : Item.longFlag "version-check".toList ∉ items

/-- A word that cannot be mistaken for an option. -/
def PlainWord (w : Str) : Prop := w ≠ [] ∧ (w = ['-'] ∨ w.head? ≠ some '-')

end Sharg.Spec
