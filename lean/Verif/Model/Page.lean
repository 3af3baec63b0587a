import Verif.Model.Text
import Verif.Model.Scan

/-!
# What is on a help page

Models `format_help_base` of `include/sharg/detail/format_base.hpp` lines 241-656. All page formats share it: it
turns the set-up of the parser into a sequence of print calls, which the formats execute
(`Model/Help.lean`, `Model/Html.lean`, `Model/Man.lean`).
-/

namespace Sharg

/-- `parser_meta_data`, `include/sharg/auxiliary.hpp` lines 48-109, without the name of the app, which is a member of
`Parser`. -/
structure Meta where
  version : Str := []
  shortDescription : Str := []
  author : Str := []
  email : Str := []
  date : Str := []
  url : Str := []
  shortCopyright : Str := []
  longCopyright : Str := []
  citation : Str := []
  manPageTitle : Str := []
  manPageSection : Nat := 1
  description : List Str := []
  synopsis : List Str := []
  examples : List Str := []
  deriving DecidableEq, Repr

/-- What is fixed when the library is compiled: `NDEBUG`, `SHARG_HAS_TDL` (to_string.hpp lines 21-26),
`sharg_version_cstring`, and `seqan3_version_cstring` if SeqAn is used. -/
structure Build where
  ndebug : Bool
  hasTdl : Bool
  shargVersion : Str
  seqanVersion : Option Str

/-- The print calls of a format: `print_section`, `print_subsection`, `print_line`, `print_list_item`. -/
inductive Block where
  | sec (title : Str)
  | subsec (title : Str)
  | line (text : Str) (isParagraph : Bool)
  | item (term desc : Str)
  deriving DecidableEq, Repr

/-- What a page is made of: build, types, meta data, and the members `command_names`,
`version_check_dev_decision` and `show_advanced_options` of the format, the entries and the variables. -/
structure PageInput (W : Type) where
  build : Build
  types : TypeEnv
  info : Meta
  appName : Str
  commandNames : List Str
  notify : Bool
  advanced : Bool
  entries : List (Entry W)
  store : Store

/-- `store_help_page_element`, format_base.hpp lines 634-655. -/
def storeElement (showAdvanced advanced hidden : Bool) (b : Block) : List Block :=
  if !hidden && (!advanced || showAdvanced) then [b] else []

/-- The part ". message" of the description, format_base.hpp lines 289-290, 336-339. -/
def validatorPart (cfg : Config) : Str :=
  if cfg.validatorMessage ≠ [] then ". ".toList ++ cfg.validatorMessage else []

/-- The term and description computed by `add_option`, format_base.hpp lines 279-290. -/
def optionItem (te : TypeEnv) (st : Store) (cfg : Config) (x : VarId) (isList : Bool) (ty : ElemTy) : Block :=
  .item (prepIdForHelp cfg.short cfg.long ++ [' '] ++ typeInfo te isList ty)
    (cfg.description
      ++ (if cfg.defaultMessage = [] then (if cfg.required then [] else defaultOfValue te ty (st x))
          else defaultOfMessage te isList ty cfg.defaultMessage)
      ++ validatorPart cfg)

/-- The item computed by `add_flag`, format_base.hpp lines 303-312. -/
def flagItem (cfg : Config) : Block := .item (prepIdForHelp cfg.short cfg.long) cfg.description

/-- The item printed for the `n`-th positional option, format_base.hpp lines 317-356. -/
def positionalItem (te : TypeEnv) (st : Store) (n : Nat) (cfg : Config) (x : VarId) (isList : Bool) (ty : ElemTy) :
    Block :=
  .item ("\\fBARGUMENT-".toList ++ showNat n ++ "\\fP ".toList ++ typeInfo te isList ty)
    (cfg.description ++ (if isList then defaultOfValue te ty (st x) else []) ++ validatorPart cfg)

/-- One deferred call on the format: what it appends to `parser_set_up_calls` (format_base.hpp lines 279-312,
441-492). -/
def setUpCall {W : Type} (te : TypeEnv) (st : Store) (showAdvanced : Bool) : Entry W → List Block
  | .option cfg x l ty _ => storeElement showAdvanced cfg.advanced cfg.hidden (optionItem te st cfg x l ty)
  | .flag cfg _ => storeElement showAdvanced cfg.advanced cfg.hidden (flagItem cfg)
  | .positional _ _ _ _ _ => []
  | .sec t a => storeElement showAdvanced a false (.sec t)
  | .subsec t a => storeElement showAdvanced a false (.subsec t)
  | .line t p a => storeElement showAdvanced a false (.line t p)
  | .listItem k d a => storeElement showAdvanced a false (.item k d)

/-- `positional_option_calls`, numbered from `n + 1` on (format_base.hpp lines 342-355, 400-401). -/
def positionalCalls {W : Type} (te : TypeEnv) (st : Store) (n : Nat) : List (Entry W) → List Block
  | [] => []
  | .positional cfg x l ty _ :: es => positionalItem te st (n + 1) cfg x l ty :: positionalCalls te st (n + 1) es
  | _ :: es => positionalCalls te st n es

/-- The text of a synopsis line, format_base.hpp lines 528-530: `insert` throws `std::out_of_range` if there is no
blank and no tabulator. -/
def synopsisText (s : Str) : Except Exn Str :=
  let text := "\\fB".toList ++ s
  match text.findIdx? (fun c => c = ' ' || c = '\t') with
  | none => .error .outOfRange
  | some i => .ok (text.take i ++ "\\fP".toList ++ text.drop i)

/-- A print call that may throw before it prints. -/
abbrev Step := Except Exn Block

/-- `print_synopsis`, format_base.hpp lines 524-534. -/
def synopsisSteps (m : Meta) : List Step :=
  m.synopsis.map fun s => match synopsisText s with
    | .ok t => .ok (.line t false)
    | .error e => .error e

/-- `supported_exports`, to_string.hpp lines 21-26. -/
def supportedExports (b : Build) : Str :=
  if b.hasTdl then "[html, man, ctd, cwl]".toList else "[html, man]".toList

/-- The common options, format_base.hpp lines 411-422. -/
def commonOptions (b : Build) (notify : Bool) : List Block :=
  [ .subsec "Common options".toList,
    .item "\\fB-h\\fP, \\fB--help\\fP".toList "Prints the help page.".toList,
    .item "\\fB-hh\\fP, \\fB--advanced-help\\fP".toList "Prints the help page including advanced options.".toList,
    .item "\\fB--version\\fP".toList "Prints the version information.".toList,
    .item "\\fB--copyright\\fP".toList "Prints the copyright/license information.".toList,
    .item "\\fB--export-help\\fP (std::string)".toList
      ("Export the help page information. Value must be one of ".toList ++ supportedExports b ++ ".".toList) ]
  ++ (if notify then
      [ .item "\\fB--version-check\\fP (bool)".toList
          "Whether to check for the newest app version. Default: true".toList ]
    else [])

/-- The subcommands section, format_base.hpp lines 380-393. -/
def subcommandBlocks (appName : Str) (names : List Str) : List Block :=
  match names with
  | [] => []
  | first :: _ =>
    [ .sec "Subcommands".toList,
      .line "This program must be invoked with one of the following subcommands:".toList false ]
    ++ names.map (fun n => .line ("- \\fB".toList ++ n ++ "\\fP".toList) false)
    ++ [ .line ("See the respective help page for further details (e.g. by calling ".toList ++ appName ++ " ".toList
            ++ first ++ " -h).".toList) true,
         .line ("The following options belong to the top-level parser and need to be ".toList
            ++ "specified \\fBbefore\\fP the subcommand key word. Every argument after the ".toList
            ++ "subcommand key word is passed on to the corresponding sub-parser.".toList) true ]

/-- `print_version`, format_base.hpp lines 545-565. `bold` is `in_bold` of the format. -/
def versionBlocks (b : Build) (bold : Str → Str) (appName : Str) (m : Meta) : List Block :=
  [ .sec "Version".toList,
    .line (bold "Last update: ".toList ++ m.date) false,
    .line (bold (appName ++ " version: ".toList) ++ m.version) false,
    .line (bold "Sharg version: ".toList ++ b.shargVersion) false ]
  ++ (match b.seqanVersion with
      | some v => [ .line (bold "SeqAn version: ".toList ++ v) false ]
      | none => [])
  ++ (if m.url ≠ [] then [ .sec "Url".toList, .line m.url false ] else [])

/-- `print_legal`, format_base.hpp lines 568-609. -/
def legalBlocks (bold : Str → Str) (appName : Str) (m : Meta) : List Block :=
  if m.shortCopyright ≠ [] ∨ m.longCopyright ≠ [] ∨ m.citation ≠ [] ∨ m.author ≠ [] ∨ m.email ≠ [] then
    [ .sec "Legal".toList ]
    ++ (if m.shortCopyright ≠ [] then
        [ .line (bold (appName ++ " Copyright: ".toList) ++ m.shortCopyright) false ] else [])
    ++ (if m.author ≠ [] then [ .line (bold "Author: ".toList ++ m.author) false ] else [])
    ++ (if m.email ≠ [] then [ .line (bold "Contact: ".toList ++ m.email) false ] else [])
    ++ [ .line (bold "SeqAn Copyright: ".toList
          ++ "2006-2024 Knut Reinert, FU-Berlin; released under the 3-clause BSDL.".toList) false ]
    ++ (if m.citation ≠ [] then
        [ .line (bold "In your academic works please cite: ".toList ++ m.citation) false ] else [])
    ++ (if m.longCopyright ≠ [] then
        [ .line ("For full copyright and/or warranty information see ".toList ++ bold "--copyright".toList
            ++ ".".toList) false ] else [])
  else []

/-- A section of paragraphs, only if there are any (format_base.hpp lines 373-378, 424-429). -/
def paragraphSection (title : Str) (texts : List Str) : List Block :=
  if texts ≠ [] then .sec title :: texts.map (fun d => .line d true) else []

/-- Description, subcommands, positional arguments and the heading of the options, format_base.hpp lines
373-404. -/
def startBlocks {W : Type} (i : PageInput W) : List Block :=
  paragraphSection "Description".toList i.info.description
    ++ subcommandBlocks i.appName i.commandNames
    ++ (if positionalCalls i.types i.store 0 i.entries ≠ [] then [.sec "Positional Arguments".toList] else [])
    ++ positionalCalls i.types i.store 0 i.entries
    ++ [.sec "Options".toList]

/-- The first part of `parse`, format_base.hpp lines 367-404. -/
def pageStart {W : Type} (i : PageInput W) : List Step :=
  (if i.info.synopsis ≠ [] then .ok (.sec "Synopsis".toList) :: synopsisSteps i.info else [])
    ++ (startBlocks i).map .ok

/-- The developer's options, flags, sections and texts, format_base.hpp lines 407-408. -/
def entryBlocks {W : Type} (i : PageInput W) : List Block :=
  i.entries.flatMap (setUpCall i.types i.store i.advanced)

/-- The last part of `parse`: common options, examples, version, legal information, format_base.hpp lines
411-433. -/
def endBlocks {W : Type} (i : PageInput W) (bold : Str → Str) : List Block :=
  commonOptions i.build i.notify
    ++ paragraphSection "Examples".toList i.info.examples
    ++ versionBlocks i.build bold i.appName i.info
    ++ legalBlocks bold i.appName i.info

/-- The print calls of `format_help_base::parse` between header and footer, format_base.hpp lines 361-436. -/
def pageSteps {W : Type} (i : PageInput W) (bold : Str → Str) : List Step :=
  pageStart i ++ (entryBlocks i).map .ok ++ (endBlocks i bold).map .ok

/-- A format as a user of the base class: `print_header`, the print calls, `print_footer`, `in_bold`. -/
structure Printer (σ : Type) where
  header : M σ Unit
  block : Block → M σ Unit
  footer : M σ Unit
  bold : Str → Str

/-- Executes one print call. -/
def Printer.step {σ : Type} (pr : Printer σ) : Step → M σ Unit
  | .ok b => pr.block b
  | .error e => M.throw e

/-- Executes the print calls in order. -/
def Printer.steps {σ : Type} (pr : Printer σ) (l : List Step) : M σ Unit := M.forEach pr.step l

/-- `format_help_base::parse`, format_base.hpp lines 361-436. -/
def printFullPage {σ W : Type} (pr : Printer σ) (i : PageInput W) : M σ Unit :=
  M.bind pr.header fun _ =>
  M.bind (pr.steps (pageSteps i pr.bold)) fun _ =>
  pr.footer

end Sharg
