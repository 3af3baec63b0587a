import Verif.Spec.Shown
import Verif.Spec.Values

/-!
# Specification: the outline of the pages

Which sections a page has, what is in them, and how each element looks on the console, in HTML and in man pages.
-/

namespace Sharg.Spec

variable {W : Type}

/-! ### Texts -/

/-- Marked up text and what is written to the console for it. Fonts are switched only on terminals. -/
inductive ConsoleText (tty : Bool) : Str → Str → Prop
  | nil : ConsoleText tty [] []
  | char {c s t} : c ≠ '\\' → ConsoleText tty s t → ConsoleText tty (c :: s) (c :: t)
  | dash {s t} : ConsoleText tty s t → ConsoleText tty ('\\' :: '-' :: s) ('-' :: t)
  | font {c d s t} : (c, d) ∈ [('B', '1'), ('I', '4'), ('P', '0')] → ConsoleText tty s t →
      ConsoleText tty ('\\' :: 'f' :: c :: s) ((if tty then ['\x1b', '[', d, 'm'] else []) ++ t)
  | unknown {c s t} : c ∉ ['B', 'I', 'P'] → ConsoleText tty s t → ConsoleText tty ('\\' :: 'f' :: c :: s) ('\\' :: 'f' :: c :: t)
  | other {c s t} : c ∉ ['-', 'f'] → ConsoleText tty s t → ConsoleText tty ('\\' :: c :: s) ('\\' :: c :: t)

/-- Marked up text and its HTML; `open` are the elements that are open, the innermost first. -/
inductive HtmlText : List Str → Str → Str → Prop
  | nil {l} : HtmlText l [] []
  | char {l c s t} : c ≠ '\\' → HtmlText l s t → HtmlText l (c :: s) (c :: t)
  | dash {l s t} : HtmlText l s t → HtmlText l ('\\' :: '-' :: s) ('-' :: t)
  | on {l c e s t} : (c, e) ∈ [('B', "strong".toList), ('I', "em".toList)] → HtmlText (e :: l) s t →
      HtmlText l ('\\' :: 'f' :: c :: s) ("<".toList ++ e ++ ">".toList ++ t)
  | off {l e s t} : HtmlText l s t → HtmlText (e :: l) ('\\' :: 'f' :: 'P' :: s) ("</".toList ++ e ++ ">".toList ++ t)
  | unknown {l c s t} : c ∉ ['B', 'I', 'P'] → HtmlText l s t → HtmlText l ('\\' :: 'f' :: c :: s) ('\\' :: 'f' :: c :: t)
  | other {l c s t} : c ∉ ['-', 'f'] → HtmlText l s t → HtmlText l ('\\' :: c :: s) ('\\' :: c :: t)

/-- Bold text in the language of the page, for texts that the page composes itself. -/
def boldText (pe : PageEnv) : Format → Str → Str
  | .html, s => "<strong>".toList ++ s ++ "</strong>".toList
  | .man, s => "\\fB".toList ++ s ++ "\\fR".toList
  | _, s => if pe.tty then "\x1b[1m".toList ++ s ++ "\x1b[0m".toList else s

/-! ### The sections -/

/-- A section of a page: a title and the elements below it. -/
structure Part where
  title : Str
  body : List Block

/-- All elements of a list of sections. -/
def elements (l : List Part) : List Block := l.flatMap fun s => .sec s.title :: s.body

/-- Sections without elements are left out. -/
def nonEmptyParts (l : List Part) : List Part := l.filter fun s => !s.body.isEmpty

/-- A line of the synopsis: the first word is bold. -/
def synopsisLine (s : Str) : Block :=
  .line ("\\fB".toList ++ s.takeWhile (fun c => !isGap c) ++ "\\fP".toList ++ s.dropWhile (fun c => !isGap c)) false

/-- What is said about subcommands. -/
def subcommandLines (app : Str) : List Str → List Block
  | [] => []
  | first :: rest =>
    .line "This program must be invoked with one of the following subcommands:".toList false
    :: (first :: rest).map (fun n => .line ("- \\fB".toList ++ n ++ "\\fP".toList) false)
    ++ ["See the respective help page for further details (e.g. by calling ".toList ++ app ++ [' '] ++ first ++ " -h).".toList,
        ("The following options belong to the top-level parser and need to be specified \\fBbefore\\fP the "
          ++ "subcommand key word. Every argument after the subcommand key word is passed on to the "
          ++ "corresponding sub-parser.").toList].map (.line · true)

/-- The predefined options: names, what follows the names, description. -/
def predefinedOptions (hasTdl notify : Bool) : List (List String × String × String) :=
  [(["-h", "--help"], "", "Prints the help page."),
   (["-hh", "--advanced-help"], "", "Prints the help page including advanced options."),
   (["--version"], "", "Prints the version information."),
   (["--copyright"], "", "Prints the copyright/license information."),
   (["--export-help"], " (std::string)", "Export the help page information. Value must be one of [html, man"
      ++ (if hasTdl then ", ctd, cwl" else "") ++ "].")]
  ++ if notify then
      [(["--version-check"], " (bool)", "Whether to check for the newest app version. Default: true")]
    else []

/-- The element of a predefined option. -/
def predefinedItem (x : List String × String × String) : Block :=
  .item (joined ", ".toList (x.1.map fun n => "\\fB".toList ++ n.toList ++ "\\fP".toList) ++ x.2.1.toList) x.2.2.toList

/-- Lines with a bold label; those without text are left out. -/
def labelled (bold : Str → Str) (l : List (Str × Str)) : List Block :=
  (l.filter fun x => !x.2.isEmpty).map fun x => .line (bold x.1 ++ x.2) false

/-- The section with the versions. The date and the version of the app are shown even if they are empty. -/
def versionPart (pe : PageEnv) (f : Format) (app : Str) : Part where
  title := "Version".toList
  body := ([("Last update: ".toList, pe.info.date), (app ++ " version: ".toList, pe.info.version),
    ("Sharg version: ".toList, pe.build.shargVersion)]
    ++ pe.build.seqanVersion.toList.map fun v => ("SeqAn version: ".toList, v)).map
      fun x => .line (boldText pe f x.1 ++ x.2) false

/-- The section with the address. -/
def urlPart (pe : PageEnv) : Part := ⟨"Url".toList, [pe.info.url].filterMap fun u => if u = [] then none else some (.line u false)⟩

/-- The developer said something about authors, copyright or citation. -/
def legalSupplied (m : Meta) : Bool := [m.shortCopyright, m.longCopyright, m.citation, m.author, m.email].any fun s => !s.isEmpty

/-- The legal section, if the developer supplied anything for it. -/
def legalPart (pe : PageEnv) (f : Format) (app : Str) : Part where
  title := "Legal".toList
  body := if legalSupplied pe.info then
      labelled (boldText pe f)
        [(app ++ " Copyright: ".toList, pe.info.shortCopyright), ("Author: ".toList, pe.info.author),
         ("Contact: ".toList, pe.info.email),
         ("SeqAn Copyright: ".toList, "2006-2024 Knut Reinert, FU-Berlin; released under the 3-clause BSDL.".toList),
         ("In your academic works please cite: ".toList, pe.info.citation)]
      ++ (if pe.info.longCopyright.isEmpty then []
          else [.line ("For full copyright and/or warranty information see ".toList ++ boldText pe f "--copyright".toList
            ++ ['.']) false])
    else []

/-- The sections of a help page. -/
def outline (pe : PageEnv) (f : Format) (p : Parser W) (st : Store) : List Part :=
  nonEmptyParts
    [⟨"Synopsis".toList, pe.info.synopsis.map synopsisLine⟩,
     ⟨"Description".toList, pe.info.description.map (.line · true)⟩,
     ⟨"Subcommands".toList, subcommandLines p.appName p.subcommands⟩,
     ⟨"Positional Arguments".toList,
       ((p.operations.filter isArgument).zipIdx 1).map fun x => argumentCall pe.types st x.2 x.1⟩,
     ⟨"Options".toList,
       (p.operations.filter fun e => visible (advancedShown f) e && !isArgument e).map (callOf pe.types st)
        ++ .subsec "Common options".toList :: (predefinedOptions pe.build.hasTdl p.notify).map predefinedItem⟩,
     ⟨"Examples".toList, pe.info.examples.map (.line · true)⟩,
     versionPart pe f p.appName, urlPart pe, legalPart pe f p.appName]

/-! ### How elements look -/

/-- The text with something in between: `p₁, p₂, ...` in this order, everything between, before and behind them is
`ok`, and there is something behind each of them. -/
inductive Woven (ok : Str → Prop) : List Str → Str → Prop
  | nil {s} : ok s → Woven ok [] s
  | cons {gap p ps c s} : ok gap → ok [c] → Woven ok ps (c :: s) → Woven ok (p :: ps) (gap ++ p ++ c :: s)

/-- Only blanks and line feeds. -/
def Blanks (s : Str) : Prop := ∀ c ∈ s, c = ' ' ∨ c = '\n'

/-- The text up to the first zero character. -/
def untilZero (s : Str) : Str := s.takeWhile (· ≠ '\x00')

/-- An element on the console. -/
def ConsoleElement (pe : PageEnv) : Block → Str → Prop
  | .sec t, o => o = "\n".toList ++ boldText pe (.help false) (t.map Char.toUpper) ++ "\n".toList
  | .subsec t, o => o = "\n  ".toList ++ boldText pe (.help false) t ++ "\n".toList
  | .line t _, o => ∃ ws ps, Words (untilZero t) ws ∧ List.Forall₂ (ConsoleText pe.tty) ws ps ∧ Woven Blanks ps o
  | .item k d, o => ∃ k' ws ps, ConsoleText pe.tty k k' ∧ Words (untilZero d) ws ∧ List.Forall₂ (ConsoleText pe.tty) ws ps ∧
      Woven Blanks (k' :: ps) o

/-- An element of an HTML page; elements that were open before are closed first, and a list or paragraph is opened unless
the last element was of the same kind. -/
def HtmlElement : Block → Str → Prop
  | .sec t, o => ∃ a b t', (a = [] ∨ a = "</dl>\n".toList) ∧ (b = [] ∨ b = "</p>\n".toList) ∧ HtmlText [] t t' ∧
      o = a ++ b ++ "<h2>".toList ++ t' ++ "</h2>\n".toList
  | .subsec t, o => ∃ a b t', (a = [] ∨ a = "</dl>\n".toList) ∧ (b = [] ∨ b = "</p>\n".toList) ∧ HtmlText [] t t' ∧
      o = a ++ b ++ "<h3>".toList ++ t' ++ "</h3>\n".toList
  | .line t p, o => ∃ a b t', (a = [] ∨ a = "</dl>\n".toList) ∧ (b = [] ∨ b = "<p>\n".toList) ∧ HtmlText [] t t' ∧
      o = a ++ b ++ t' ++ "\n".toList ++ if p then "</p>\n".toList else "<br>\n".toList
  | .item k d, o => ∃ a b k' d', (a = [] ∨ a = "</p>\n".toList) ∧ (b = [] ∨ b = "<dl>\n".toList) ∧ HtmlText [] k k' ∧
      HtmlText [] d d' ∧ o = a ++ b ++ "<dt>".toList ++ k' ++ "</dt>\n<dd>".toList ++ d' ++ "</dd>\n".toList

/-- An element of a man page. -/
def ManElement : Block → Str → Prop
  | .sec t, o => o = ".SH ".toList ++ t.map Char.toUpper ++ "\n".toList
  | .subsec t, o => o = ".SS ".toList ++ t ++ "\n".toList
  | .line t p, o => o = t ++ "\n".toList ∨ o = (if p then ".sp\n".toList else ".br\n".toList) ++ t ++ "\n".toList
  | .item k d, o => o = ".TP\n".toList ++ k ++ "\n".toList ++ d ++ "\n".toList

/-- An element on a page. -/
def Element (pe : PageEnv) : Format → Block → Str → Prop
  | .html => HtmlElement
  | .man => ManElement
  | _ => ConsoleElement pe

/-! ### Beginning and end -/

/-- The title line of a page on the console. -/
def titleLine (app short : Str) : Str := app ++ if short = [] then [] else " - ".toList ++ short

/-- The beginning of a page on the console: the title, underlined. -/
def ConsoleStart (app short o : Str) : Prop :=
  ∃ n, o = titleLine app short ++ "\n".toList ++ List.replicate n '=' ++ "\n".toList ∧
    ('\\' ∉ app → '\\' ∉ short → n = (titleLine app short).length)

/-- The beginning of an HTML page. The title is escaped (C44), the other texts are marked up. -/
def HtmlStart (app short o : Str) : Prop :=
  ∃ app' short' app'' short'', XmlDecodes app' app ∧ XmlDecodes short' short ∧ HtmlText [] app app'' ∧ HtmlText [] short short'' ∧
    o = ("<!DOCTYPE html PUBLIC \"-//W3C//DTD HTML 4.01//EN\" http://www.w3.org/TR/html4/strict.dtd\">\n"
        ++ "<html lang=\"en\">\n<head>\n"
        ++ "<meta http-equiv=\"content-type\" content=\"text/html; charset=utf-8\">\n<title>").toList
      ++ app' ++ " &mdash; ".toList ++ short' ++ "</title>\n</head>\n<body>\n<h1>".toList ++ app'' ++ "</h1>\n<div>".toList
      ++ short'' ++ "</div>\n".toList

/-- The beginning of a man page. -/
def ManStart (app : Str) (m : Meta) (o : Str) : Prop :=
  ∃ number, IsDecimal number ∧ decValue number = m.manPageSection ∧
    o = ".TH ".toList ++ app.map Char.toUpper ++ " ".toList ++ number ++ " \"".toList ++ m.date ++ "\" \"".toList
      ++ app.map Char.toLower ++ " ".toList ++ m.version ++ "\" \"".toList ++ m.manPageTitle ++ "\"\n.SH NAME\n".toList
      ++ app ++ " \\- ".toList ++ m.shortDescription ++ "\n".toList

/-- The beginning of a page. -/
def PageStart (pe : PageEnv) (app : Str) : Format → Str → Prop
  | .html => HtmlStart app pe.info.shortDescription
  | .man => ManStart app pe.info
  | _ => ConsoleStart app pe.info.shortDescription

/-- The end of a page: an open paragraph is closed. -/
def PageEnd : Format → Str → Prop
  | .html, o => o = "</body></html>".toList ∨ o = "</p>\n</body></html>".toList
  | _, o => o = []

/-- The page consists of the beginning, the elements in this order, and the end; nothing else. -/
def PageMadeOf (pe : PageEnv) (f : Format) (app : Str) (es : List Block) (page : Str) : Prop :=
  ∃ start os fin, PageStart pe app f start ∧ List.Forall₂ (Element pe f) es os ∧ PageEnd f fin ∧
    page = start ++ os.flatten ++ fin

/-- The copyright page: the long text, the short text if there is no long one, or a remark. -/
def copyrightText (pe : PageEnv) (app : Str) : Str :=
  let ruler (c : Char) := List.replicate 80 c ++ ['\n']
  let b := boldText pe .copyright
  let plain := if pe.tty then "\x1b[0m".toList else []
  ruler '=' ++ b ("Copyright information for ".toList ++ app ++ ":\n".toList) ++ ruler '-'
    ++ (if ¬ pe.info.longCopyright = [] then plain ++ pe.info.longCopyright
        else if ¬ pe.info.shortCopyright = [] then
          b (app ++ (" full copyright information not available. Displaying short copyright "
            ++ "information instead:\n").toList) ++ pe.info.shortCopyright
        else plain ++ app ++ " copyright information not available.".toList) ++ ['\n']
    ++ ruler '=' ++ b "This program contains SeqAn code licensed under the following terms:\n".toList
    ++ ruler '-' ++ pe.license ++ ['\n']

end Sharg.Spec
