import Verif.Model.Scan

/-!
# Specification: what the arguments mean for the choice between parsing and printing

Arguments are read from left to right as tokens: a registered option with the argument behind it, a request to
print something, a version check request, or any other argument.
-/

namespace Sharg.Spec

/-- The arguments that make up a request for a page. -/
inductive Requests : Format → List Str → Prop where
  | help : Requests (.help false) ["-h".toList]
  | helpLong : Requests (.help false) ["--help".toList]
  | advanced : Requests (.help true) ["-hh".toList]
  | advancedLong : Requests (.help true) ["--advanced-help".toList]
  | version : Requests .version ["--version".toList]
  | copyright : Requests .copyright ["--copyright".toList]
  | html : Requests .html ["--export-help".toList, "html".toList]
  | man : Requests .man ["--export-help".toList, "man".toList]
  | ctd : Requests (.tdl false) ["--export-help".toList, "ctd".toList]
  | cwl : Requests (.tdl true) ["--export-help".toList, "cwl".toList]
  | htmlEq : Requests .html ["--export-help=html".toList]
  | manEq : Requests .man ["--export-help=man".toList]
  | ctdEq : Requests (.tdl false) ["--export-help=ctd".toList]
  | cwlEq : Requests (.tdl true) ["--export-help=cwl".toList]

/-- The identifiers of an option or a flag as the user writes them. -/
def written (cfg : Config) : List Str :=
  (if cfg.short = '\x00' then [] else [['-', cfg.short]]) ++ (if cfg.long = [] then [] else ['-' :: '-' :: cfg.long])

/-- The values of `--version-check`. -/
def CheckValue (b : Bool) (v : Str) : Prop :=
  if b then v = "1".toList ∨ v = "true".toList else v = "0".toList ∨ v = "false".toList

/-- Arguments with a predefined meaning. -/
def Reserved (a : Str) : Prop :=
  a ∈ ["-h".toList, "--help".toList, "-hh".toList, "--advanced-help".toList, "--version".toList,
    "--copyright".toList, "--export-help".toList, "--version-check".toList] ∨
  ∃ v, a = "--export-help=".toList ++ v

/-- Tokens. -/
inductive Tok where
  | option (o v : Str)
  | request (f : Format) (args : List Str)
  | check (b : Bool) (v : Str)
  | plain (a : Str)
  deriving DecidableEq

/-- The arguments of a token. -/
def Tok.render : Tok → List Str
  | .option o v => [o, v]
  | .request _ args => args
  | .check _ v => ["--version-check".toList, v]
  | .plain a => [a]

def renderToks (toks : List Tok) : List Str := toks.flatMap Tok.render

/-- A token is read as such by a parser with registered options `options` (with dashes) and subcommands `subs`. -/
def Tok.Ok (options subs : List Str) : Tok → Prop
  | .option o _ => o ∈ options
  | .request f args => Requests f args ∧ ∀ a rest, args = a :: rest → a ∉ options ∧ a ∉ subs
  | .check b v => CheckValue b v ∧ "--version-check".toList ∉ options ∧ "--version-check".toList ∉ subs
  | .plain a => a ∉ options ∧ a ∉ subs ∧ ¬ Reserved a ∧ (subs ≠ [] → a.head? = some '-')

/-- How reading can stop. -/
inductive Stop where
  | atEnd
  /-- a registered option is the last argument, without value -/
  | lastOption (o : Str)
  | subcommand (s : Str) (rest : List Str)
  | unknownSubcommand (a : Str) (rest : List Str)
  /-- `--export-help` or `--version-check` without value -/
  | missingValue (a : Str)
  | badExport (v : Str) (rest : List Str)
  | badExportEq (v : Str) (rest : List Str)
  | badCheck (v : Str) (rest : List Str)
  deriving DecidableEq

def Stop.render : Stop → List Str
  | .atEnd => []
  | .lastOption o => [o]
  | .subcommand s rest => s :: rest
  | .unknownSubcommand a rest => a :: rest
  | .missingValue a => [a]
  | .badExport v rest => "--export-help".toList :: v :: rest
  | .badExportEq v rest => ("--export-help=".toList ++ v) :: rest
  | .badCheck v rest => "--version-check".toList :: v :: rest

/-- The values of `--export-help`. -/
def exportValues : List Str := ["html".toList, "man".toList, "ctd".toList, "cwl".toList]

def Stop.Ok (options subs : List Str) : Stop → Prop
  | .atEnd => True
  | .lastOption o => o ∈ options
  | .subcommand s _ => s ∉ options ∧ s ∈ subs
  | .unknownSubcommand a _ => a ∉ options ∧ a ∉ subs ∧ subs ≠ [] ∧ a.head? ≠ some '-'
  | .missingValue a => a ∉ options ∧ a ∉ subs ∧ (a = "--export-help".toList ∨ a = "--version-check".toList)
  | .badExport v _ => "--export-help".toList ∉ options ∧ "--export-help".toList ∉ subs ∧ v ∉ exportValues
  | .badExportEq v _ => "--export-help=".toList ++ v ∉ options ∧ "--export-help=".toList ++ v ∉ subs ∧ v ∉ exportValues
  | .badCheck v _ => "--version-check".toList ∉ options ∧ "--version-check".toList ∉ subs ∧ ∀ b, ¬ CheckValue b v

/-- The exception of a failed reading. -/
def Stop.exn? : Stop → Option Exn
  | .atEnd | .lastOption _ | .subcommand _ _ => none
  | .unknownSubcommand _ _ => some .userInputError
  | .missingValue _ => some .tooFewArguments
  | .badExport _ _ | .badExportEq _ _ | .badCheck _ _ => some .validationError

def Tok.request? : Tok → Option Format
  | .request f _ => some f
  | _ => none

def Tok.check? : Tok → Option Bool
  | .check b _ => some b
  | _ => none

/-- What a token leaves for the option parser. -/
def Tok.kept : Tok → List Str
  | .option o v => [o, v]
  | .plain a => [a]
  | _ => []

/-- The page requested last. -/
def lastRequest (toks : List Tok) : Option Format := (toks.filterMap Tok.request?).getLast?

/-- The version check decision given last. -/
def lastCheck (toks : List Tok) : Option Bool := (toks.filterMap Tok.check?).getLast?

/-- The arguments that remain for the option parser. -/
def kept (toks : List Tok) : List Str := toks.flatMap Tok.kept

def Stop.kept : Stop → List Str
  | .lastOption o => [o]
  | _ => []

/-- The arguments from the subcommand on. -/
def Stop.sub? : Stop → Option (List Str)
  | .subcommand s rest => some (s :: rest)
  | _ => none

/-- The arguments are read as the tokens `toks`, then reading stops with `stop`. -/
structure Reading (options subs args : List Str) (toks : List Tok) (stop : Stop) : Prop where
  eq : args = renderToks toks ++ stop.render
  toksOk : ∀ t ∈ toks, t.Ok options subs
  stopOk : stop.Ok options subs

end Sharg.Spec
