import Verif.Model.Help
import Verif.Model.Html
import Verif.Model.Man
import Verif.Model.Tdl

/-!
# All pages

Which page each format prints (`parse_format`, `include/sharg/parser.hpp` lines 1136-1147, with the construction of the
formats in lines 895-931).
-/

namespace Sharg

/-- What the pages depend on besides the parser object and the variables: build, types, meta data
(`parser::info`), the text `seqan_license` (format_help.hpp lines 471-498), `stdout_is_terminal()`,
`get_terminal_width()`, and the external library that prints tool descriptions. -/
structure PageEnv where
  build : Build
  types : TypeEnv
  info : Meta
  license : Str
  tty : Bool
  terminalWidth : Nat
  printTool : Bool → ToolInfo → Str

/-- The console of a page. -/
def PageEnv.console (pe : PageEnv) : Console :=
  { ndebug := pe.build.ndebug, tty := pe.tty, layout := mkLayout pe.terminalWidth }

/-- The input of `format_help_base` (format_base.hpp lines 265-271). -/
def PageEnv.input {W : Type} (pe : PageEnv) (advanced : Bool) (p : Parser W) (st : Store) : PageInput W :=
  { build := pe.build, types := pe.types, info := pe.info, appName := p.appName, commandNames := p.subcommands,
    notify := p.notify, advanced := advanced, entries := p.operations, store := st }

/-- Exception and output of a print function started on an empty output. -/
def runHelp (m : HelpM) : Option Exn × Str :=
  ((m { out := [], prevWasParagraph := false }).exn?, (m { out := [], prevWasParagraph := false }).state.out)

/-- The same for HTML. -/
def runHtml (m : HtmlM) : Option Exn × Str :=
  ((m { out := [], isDl := false, isP := false }).exn?, (m { out := [], isDl := false, isP := false }).state.out)

/-- The same for man pages. -/
def runMan (m : ManM) : Option Exn × Str :=
  ((m { out := [], isFirst := true }).exn?, (m { out := [], isFirst := true }).state.out)

/-- The page a format prints: exception, if any, and what was written to `std::cout`. `format_html` and `format_man` are
constructed without the argument `advanced` (parser.hpp lines 925-927), whose default is `false`
(format_html.hpp line 51, format_man.hpp line 52). Without the `tdl` library the tool description formats throw
(format_tdl.hpp lines 40-45). -/
def pageOf {W : Type} (pe : PageEnv) (f : Format) (p : Parser W) (st : Store) : Option Exn × Str :=
  match f with
  | .parse => (none, [])
  | .help advanced =>
    runHelp (printFullPage (helpPrinter pe.console p.appName pe.info) (pe.input advanced p st))
  | .shortHelp => runHelp (shortHelpPage pe.console p.appName pe.info)
  | .version => runHelp (versionPage pe.console pe.build p.appName pe.info)
  | .copyright => runHelp (copyrightPage pe.console pe.license p.appName pe.info)
  | .html => runHtml (printFullPage (htmlPrinter pe.build.ndebug p.appName pe.info) (pe.input false p st))
  | .man => runMan (printFullPage (manPrinter p.appName pe.info) (pe.input false p st))
  | .tdl cwl =>
    if pe.build.hasTdl then
      (none, pe.printTool cwl (toolInfo pe.types pe.info p.appName p.executableName p.operations st)
        ++ if cwl then ['\n'] else [])
    else (some .validationError, [])

end Sharg
