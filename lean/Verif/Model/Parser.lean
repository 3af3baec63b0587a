import Verif.Model.Scan

/-!
# `parse()` and histories of calls

Models `parser::parse`, `run_version_check` (as a hook), `parse_format` and the exit at the end
(`include/sharg/parser.hpp` lines 414-440, 1114-1148).
-/

namespace Sharg

/-- Everything `parse()` gets from outside.
* `ndebug`: compiled with `NDEBUG`.
* `versionCheck`: `run_version_check` (parser.hpp lines 1114-1125), given app name, developer decision and
  user decision; modelled concretely in `Verif.Model.VersionCheck`.
* `printPage`: `parse` of a format other than `format_parse`, given the parser object (entries, subcommands) and the
  variables (default values); output goes to the world; modelled concretely in
  `Verif.Model.Help` and its siblings. -/
structure Env (W : Type) where
  ndebug : Bool
  versionCheck : Str → Bool → Option Bool → W → Option Exn × W
  printPage : Format → Parser W → Store → W → Option Exn × W

/-- How a call of `parse()` ends. -/
inductive Outcome where
  | returned
  | exited (page : Format)
  | threw (e : Exn)
  deriving DecidableEq, Repr

/-- Applying the deferred operations to `format_parse` (parser.hpp lines 428-429, format_parse.hpp lines
61-103): the three call lists. -/
def declsOf {W : Type} (ops : List (Entry W)) : Decls W where
  options := ops.filterMap fun
    | .option cfg x l ty v => some
        { short := cfg.short, long := cfg.long, var := x, isList := l, ty := ty,
          required := cfg.required, validator := v }
    | _ => none
  flags := ops.filterMap fun
    | .flag cfg x => some { short := cfg.short, long := cfg.long, var := x }
    | _ => none
  positionals := ops.filterMap fun
    | .positional _ x l ty v => some { var := x, isList := l, ty := ty, validator := v }
    | _ => none

/-- A program under execution: the parser object, the variables, the world. -/
structure Prog (W : Type) where
  parser : Parser W
  store : Store
  world : W

/-- `parse_format` and the exit, parser.hpp lines 432-439. -/
def parseFormat {W : Type} (env : Env W) (f : Format) (g : Prog W) : Outcome × Prog W :=
  match f with
  | .parse =>
    match formatParse env.ndebug (declsOf g.parser.operations) g.parser.formatArguments g.store g.world with
    | .ok _ s => (.returned, { g with store := s.store, world := s.world })
    | .err e s => (.threw e, { g with store := s.store, world := s.world })
  | f =>
    match env.printPage f g.parser g.store g.world with
    | (some e, w) => (.threw e, { g with world := w })
    | (none, w) => (.exited f, { g with world := w })

/-- `run_version_check` followed by `parse_format`, parser.hpp lines 431-439. -/
def checkAndParse {W : Type} (env : Env W) (f : Format) (g : Prog W) : Outcome × Prog W :=
  match env.versionCheck g.parser.appName g.parser.notify g.parser.userDecision g.world with
  | (some e, w) => (.threw e, { g with world := w })
  | (none, w) => parseFormat env f { g with world := w }

/-- `parser::parse`, parser.hpp lines 414-440. -/
def parse {W : Type} (env : Env W) (g : Prog W) : Outcome × Prog W :=
  if g.parser.parseWasCalled then (.threw .designError, g)
  else
    match verifyAppAndSubcommandNames { g.parser with parseWasCalled := true } with
    | .err e p => (.threw e, { g with parser := p })
    | .ok _ p =>
      match determineFormatAndSubcommand env.ndebug p with
      | .err e p' => (.threw e, { g with parser := p' })
      | .ok f p' => checkAndParse env f { g with parser := p' }

/-- What a program can do with a parser object: a set-up call, `parse()`, or a change of its own variables.
`std::exit` ends the program, so nothing follows an exited `parse()`; the model lets histories continue all
the same, which only makes the statements stronger. -/
inductive Action (W : Type) where
  | call (c : Call W)
  | parse

/-- One action; exceptions are caught by the program. -/
def Action.run {W : Type} (env : Env W) : Action W → Prog W → Outcome × Prog W
  | .call c, g =>
    match c.run g.parser with
    | .ok _ p => (.returned, { g with parser := p })
    | .err e p => (.threw e, { g with parser := p })
  | .parse, g => Sharg.parse env g

/-- A history of actions. -/
def runActions {W : Type} (env : Env W) : List (Action W) → Prog W → Prog W
  | [], g => g
  | a :: as, g => runActions env as (a.run env g).2

end Sharg
