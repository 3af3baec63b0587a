import Verif.Spec.Line
import Verif.Spec.Setup

/-!
# Specification: applications with subcommands

An application constructs a parser, registers its options and calls `parse()`. If that returns and a subcommand was
given, it goes on with the sub-parser (`get_sub_parser`), and so on.
-/

namespace Sharg.Spec

/-- What an application registers with a parser, depending on the parser and on its variables so far. -/
abbrev App (W : Type) := Init → Store → W → List (Call W)

/-- The parser of one level, set up. -/
def App.level {W : Type} (app : App W) (env : Env W) (i : Init) (st : Store) (w : W) : Prog W :=
  runActions env ((app i st w).map .call) (start i st w)

/-- The arguments are the line with decisions about the version check put in anywhere; the last argument is what they decide. -/
inductive WithChecks : List Str → List Str → Option Bool → Prop where
  | nil : WithChecks [] [] none
  | keep {pre line : List Str} {d : Option Bool} (a : Str) : WithChecks pre line d → WithChecks (a :: pre) (a :: line) d
  | check {pre line : List Str} {d : Option Bool} {b : Bool} {v : Str} : CheckValue b v → WithChecks pre line d →
      WithChecks ("--version-check".toList :: v :: pre) line (some (d.getD b))

/-- What a level has seen: the parser it started with, and the arguments it parsed. -/
structure Visit where
  init : Init
  parsed : List Str

/-- The run of an application: the outcome of the last `parse()`, the variables and the world at the end, and the levels. -/
inductive AppRuns {W : Type} (env : Env W) (app : App W) : Init → Store → W → Outcome → Store → W → List Visit → Prop where
  | last {i : Init} {st : Store} {w : W} {o : Outcome} {g' : Prog W} :
      parse env (app.level env i st w) = (o, g') → (o ≠ .returned ∨ g'.parser.subParser = none) →
      AppRuns env app i st w o g'.store g'.world [⟨i, g'.parser.formatArguments⟩]
  | sub {i j : Init} {st st' : Store} {w w' : W} {o : Outcome} {g' : Prog W} {vs : List Visit} :
      parse env (app.level env i st w) = (.returned, g') → g'.parser.subParser = some j →
      AppRuns env app j g'.store g'.world o st' w' vs →
      AppRuns env app i st w o st' w' (⟨i, g'.parser.formatArguments⟩ :: vs)

/-- The program is called with the items (options and flags only), possibly `--`, then the subcommand `s` and `rest`. -/
structure LevelGiven {W : Type} (g : Prog W) (items : List Item) (tail : Option (List Str)) (s : Str) (rest : List Str) : Prop where
  notParsed : g.parser.parseWasCalled = false
  cleanName : CleanName g.parser.appName
  cleanSubs : ∀ s ∈ g.parser.subcommands, CleanName s
  noDash : ∀ s ∈ g.parser.subcommands, s.head? ≠ some '-'
  known : s ∈ g.parser.subcommands
  arguments : ∃ exe, g.parser.arguments = exe :: (renderLine items tail ++ s :: rest)
  noWords : ∀ w, Item.word w ∉ items
  noTail : tail = none ∨ tail = some []
  notRequest : Item.longFlag "version-check".toList ∉ items

/-- One level of a line: items, perhaps `--`, subcommand. -/
structure LineLevel where
  items : List Item
  tail : Option (List Str)
  name : Str

/-- The whole line: the levels with subcommands, and the last level. -/
def renderApp (levels : List LineLevel) (items : List Item) (tail : Option (List Str)) : List Str :=
  levels.flatMap (fun l => renderLine l.items l.tail ++ [l.name]) ++ renderLine items tail

/-- Every level of the line is well-formed for the options registered at that level, and has a meaning there. -/
inductive AppMeans {W : Type} (env : Env W) (app : App W) :
    Init → List LineLevel → List Item → Option (List Str) → Store → W → Store → W → Prop where
  | last {i : Init} {items : List Item} {tail : Option (List Str)} {st st' : Store} {w w₁ w' : W} :
      LineGiven (app.level env i st w) items tail →
      LineOk (declsOf (app.level env i st w).parser.operations) items tail →
      CheckPasses env (app.level env i st w) w₁ →
      LineMeans (declsOf (app.level env i st w).parser.operations) items tail st w₁ st' w' →
      AppMeans env app i [] items tail st w st' w'
  | sub {i : Init} {l : LineLevel} {rest : List Str} {ls : List LineLevel} {items : List Item} {tail : Option (List Str)}
      {st st₁ st' : Store} {w w₁ w₂ w' : W} :
      LevelGiven (app.level env i st w) l.items l.tail l.name rest →
      LineOk (declsOf (app.level env i st w).parser.operations) l.items l.tail →
      CheckPasses env (app.level env i st w) w₁ →
      LineMeans (declsOf (app.level env i st w).parser.operations) l.items l.tail st w₁ st₁ w₂ →
      AppMeans env app
        { appName := i.appName ++ '-' :: l.name, arguments := l.name :: rest, notify := false, subcommands := [],
          executableName := i.executableName ++ i.arguments.take 1 } ls items tail st₁ w₂ st' w' →
      AppMeans env app i (l :: ls) items tail st w st' w'

end Sharg.Spec
