import Verif.Spec.Ends
import Verif.Spec.App

/-!
# Specification: how `parse()` ends on any arguments, and how an application with subcommands ends
-/

namespace Sharg.Spec

/-- The names are allowed. -/
structure CleanParser {W : Type} (p : Parser W) : Prop where
  app : CleanName p.appName
  subs : ∀ s ∈ p.subcommands, CleanName s

/-- A page is to be shown: the one requested last, or the short help if there is nothing to parse. -/
def PageWanted (toks : List Tok) (stop : Stop) (f : Format) : Prop :=
  lastRequest toks = some f ∨ (lastRequest toks = none ∧ kept toks ++ stop.kept = [] ∧ stop.sub? = none ∧ f = .shortHelp)

/-- The parser for the subcommand. -/
def nextParser {W : Type} (p : Parser W) : Stop → Option Init
  | .subcommand s rest => some
      { appName := p.appName ++ '-' :: s, arguments := s :: rest, notify := false, subcommands := [],
        executableName := p.executableName ++ p.arguments.take 1 }
  | _ => none

/-- The page was printed, or printing failed. -/
def pageOutcome (f : Format) : Option Exn → Outcome
  | none => .exited f
  | some e => .threw e

/-- How a call of `parse()` ends: variables, outside world, outcome, and the parser of the subcommand, if any. -/
inductive CallEnds {W : Type} (env : Env W) (g : Prog W) : Store → W → Outcome → Option Init → Prop where
  | badName : ¬ CleanParser g.parser → CallEnds env g g.store g.world (.threw .designError) none
  /-- not even the name of the program is given -/
  | noArguments : CleanParser g.parser → g.parser.arguments = [] →
      CallEnds env g g.store g.world (.threw (if env.ndebug then .undefinedBehaviour else .assertFailed)) none
  /-- unknown subcommand, missing or wrong value of `--export-help` or `--version-check` -/
  | refused {exe : Str} {args : List Str} {toks : List Tok} {stop : Stop} {e : Exn} : CleanParser g.parser → g.parser.arguments = exe :: args →
      Reading g.parser.options g.parser.subcommands args toks stop → stop.exn? = some e → CallEnds env g g.store g.world (.threw e) none
  | checkThrows {exe : Str} {args : List Str} {toks : List Tok} {stop : Stop} {e : Exn} {w' : W} : CleanParser g.parser →
      g.parser.arguments = exe :: args → Reading g.parser.options g.parser.subcommands args toks stop → stop.exn? = none →
      env.versionCheck g.parser.appName g.parser.notify (lastCheck toks) g.world = (some e, w') → CallEnds env g g.store w' (.threw e) none
  | page {exe : Str} {args : List Str} {toks : List Tok} {stop : Stop} {f : Format} {w₁ w' : W} {r : Option Exn} : CleanParser g.parser →
      g.parser.arguments = exe :: args → Reading g.parser.options g.parser.subcommands args toks stop → stop.exn? = none →
      PageWanted toks stop f → env.versionCheck g.parser.appName g.parser.notify (lastCheck toks) g.world = (none, w₁) →
      env.printPage f (parse env g).2.parser g.store w₁ = (r, w') → CallEnds env g g.store w' (pageOutcome f r) none
  /-- What is left when the decisions about the version check are taken out is a line, and the line decides (`LineEnds`). -/
  | line {exe : Str} {args : List Str} {toks : List Tok} {stop : Stop} {w₁ w' : W} {items : List Item} {tail : Option (List Str)} {st' : Store}
      {r : Option Exn} : CleanParser g.parser →
      g.parser.arguments = exe :: args → Reading g.parser.options g.parser.subcommands args toks stop → stop.exn? = none →
      (∀ f, ¬ PageWanted toks stop f) → env.versionCheck g.parser.appName g.parser.notify (lastCheck toks) g.world = (none, w₁) →
      kept toks ++ stop.kept = renderLine items tail → NeatLine (declsOf g.parser.operations) items tail →
      LineEnds env.ndebug (declsOf g.parser.operations) items tail g.store w₁ st' w' r →
      CallEnds env g st' w' (endOutcome r) (nextParser g.parser stop)

/-- The arguments in question: whenever it comes to parsing, what is left is a line written unambiguously. -/
def Understandable {W : Type} (g : Prog W) : Prop :=
  ∀ exe args toks stop, g.parser.arguments = exe :: args → Reading g.parser.options g.parser.subcommands args toks stop →
    stop.exn? = none → (∀ f, ¬ PageWanted toks stop f) →
    ∃ items tail, kept toks ++ stop.kept = renderLine items tail ∧ NeatLine (declsOf g.parser.operations) items tail

/-- How an application ends: the first level that does not return decides; a level that returns hands over to the parser of its subcommand. -/
inductive AppEnds {W : Type} (env : Env W) (app : App W) : Init → Store → W → Store → W → Outcome → Prop where
  | last {i : Init} {st st' : Store} {w w' : W} {o : Outcome} {next : Option Init} : CallEnds env (app.level env i st w) st' w' o next →
      (o ≠ .returned ∨ next = none) → AppEnds env app i st w st' w' o
  | sub {i j : Init} {st st₁ st' : Store} {w w₁ w' : W} {o : Outcome} : CallEnds env (app.level env i st w) st₁ w₁ .returned (some j) →
      AppEnds env app j st₁ w₁ st' w' o → AppEnds env app i st w st' w' o

/-- Every level that is reached can be understood. -/
inductive AppUnderstandable {W : Type} (env : Env W) (app : App W) : Init → Store → W → Prop where
  | mk {i : Init} {st : Store} {w : W} : Understandable (app.level env i st w) →
      (∀ st₁ w₁ j, CallEnds env (app.level env i st w) st₁ w₁ .returned (some j) → AppUnderstandable env app j st₁ w₁) →
      AppUnderstandable env app i st w

end Sharg.Spec
