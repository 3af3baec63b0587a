import Verif.Model.Page

/-!
# The help page on the console, and the short pages

Models `include/sharg/detail/format_help.hpp`.

Simplification: numbers of type `unsigned` are natural numbers; subtraction is subtraction of `uint32_t`
(`usub`), for texts shorter than 2^32 characters nothing else can overflow.
-/

namespace Sharg

/-- Subtraction of `uint32_t` values. -/
def usub (a b : Nat) : Nat := (a + 2 ^ 32 - b) % 2 ^ 32

/-- `console_layout_struct`, format_help.hpp lines 62-83 (the members that are not constant). -/
structure Layout where
  screenWidth : Nat
  leftPadding : Nat
  centerPadding : Nat
  rightPadding : Nat
  leftColumnWidth : Nat
  rightColumnWidth : Nat
  rightColumnTab : Nat
  deriving DecidableEq, Repr

/-- The constructor of `console_layout_struct`, format_help.hpp lines 87-106. -/
def mkLayout (terminalWidth : Nat) : Layout :=
  let guess := if terminalWidth > 0 then terminalWidth else 80
  let screen := usub (min (max guess 40) 120) 2
  { screenWidth := screen, leftPadding := 4, centerPadding := 2, rightPadding := 2, leftColumnWidth := 4,
    rightColumnWidth := usub (usub (usub (usub screen 4) 4) 2) 2,
    rightColumnTab := 4 + 4 + 2 }

/-- What surrounds a console page: build kind, `stdout_is_terminal()`, the layout. -/
structure Console where
  ndebug : Bool
  tty : Bool
  layout : Layout

/-- State while printing: what was written to `std::cout`, and `prev_was_paragraph`. -/
structure HelpState where
  out : Str
  prevWasParagraph : Bool
  deriving DecidableEq, Repr

abbrev HelpM := M HelpState Unit

/-- `std::cout << s`. -/
def emit (s : Str) : HelpM := M.modify fun h => { h with out := h.out ++ s }

/-- `n` blanks (`std::fill_n(out, n, ' ')`). -/
def blanks (n : Nat) : Str := List.replicate n ' '

/-- `std::cout << to_text(s)`. -/
def emitText (c : Console) (s : Str) : HelpM :=
  match toText c.ndebug c.tty s with
  | .ok t => emit t
  | .error e => M.throw e

/-- The loop of `print_text` from the second word on, format_help.hpp lines 354-370. -/
def printWords (c : Console) (tab : Nat) (pos : Nat) : List Str → HelpM
  | [] => M.pure ()
  | w :: ws =>
    if pos + 1 + textWidth w > c.layout.screenWidth then
      M.bind (emit ('\n' :: blanks tab)) fun _ =>
      M.bind (emitText c w) fun _ =>
      printWords c tab (tab + textWidth w) ws
    else
      M.bind (emit [' ']) fun _ =>
      M.bind (emitText c w) fun _ =>
      printWords c tab (pos + (textWidth w + 1)) ws

/-- `print_text`, format_help.hpp lines 327-374 (lines 337-338 do nothing: `pos` equals `tab`). -/
def printText (c : Console) (text : Str) (tab : Nat) : HelpM :=
  match words text with
  | [] => M.pure ()
  | w :: ws =>
    M.bind (emitText c w) fun _ =>
    M.bind (if tab + textWidth w > c.layout.screenWidth then
        M.bind (emit ('\n' :: blanks tab)) fun _ => printWords c tab tab ws
      else printWords c tab (tab + textWidth w) ws) fun _ =>
    emit ['\n']

/-- `prev_was_paragraph = b`. -/
def setParagraph (b : Bool) : HelpM := M.modify fun h => { h with prevWasParagraph := b }

/-- `if (prev_was_paragraph) std::cout << '\n';` -/
def paragraphBreak : HelpM := M.modify fun h => { h with out := h.out ++ if h.prevWasParagraph then ['\n'] else [] }

/-- `in_bold`, format_help.hpp lines 380-383. -/
def inBold (c : Console) (s : Str) : Str := ansi c.tty '1' ++ s ++ ansi c.tty '0'

/-- `print_header`, format_help.hpp lines 114-127. -/
def helpHeader (appName : Str) (m : Meta) : HelpM :=
  emit (appName ++ (if m.shortDescription = [] then [] else " - ".toList ++ m.shortDescription) ++ ['\n']
    ++ List.replicate
        (textWidth appName + (if m.shortDescription = [] then 0 else 3) + textWidth m.shortDescription) '='
    ++ ['\n'])

/-- `print_section`, format_help.hpp lines 132-145. -/
def helpSection (c : Console) (title : Str) : HelpM :=
  M.bind (emit (['\n'] ++ ansi c.tty '1' ++ title.map upperChar ++ ansi c.tty '0' ++ ['\n'])) fun _ =>
  setParagraph false

/-- `print_subsection`, format_help.hpp lines 150-157. -/
def helpSubsection (c : Console) (title : Str) : HelpM :=
  M.bind (emit (['\n'] ++ blanks (c.layout.leftPadding / 2) ++ inBold c title ++ ['\n'])) fun _ =>
  setParagraph false

/-- `print_line`, format_help.hpp lines 164-173. -/
def helpLine (c : Console) (text : Str) (isParagraph : Bool) : HelpM :=
  M.bind paragraphBreak fun _ =>
  M.bind (emit (blanks c.layout.leftPadding)) fun _ =>
  M.bind (printText c text c.layout.leftPadding) fun _ =>
  setParagraph isParagraph

/-- `print_list_item`, format_help.hpp lines 189-209. The position is computed from the raw length of the term. -/
def helpItem (c : Console) (term desc : Str) : HelpM :=
  let pos := c.layout.leftPadding + term.length
  M.bind paragraphBreak fun _ =>
  M.bind (emit (blanks c.layout.leftPadding)) fun _ =>
  M.bind (emitText c term) fun _ =>
  M.bind (emit (if pos + c.layout.centerPadding > c.layout.rightColumnTab then
      '\n' :: blanks (usub c.layout.rightColumnTab 0)
    else blanks (usub c.layout.rightColumnTab pos))) fun _ =>
  M.bind (printText c desc c.layout.rightColumnTab) fun _ =>
  setParagraph false

/-- The print calls of `format_help`. -/
def helpBlock (c : Console) : Block → HelpM
  | .sec t => helpSection c t
  | .subsec t => helpSubsection c t
  | .line t p => helpLine c t p
  | .item k d => helpItem c k d

/-- `format_help` as a printer; there is no footer (format_help.hpp lines 212-215). -/
def helpPrinter (c : Console) (appName : Str) (m : Meta) : Printer HelpState where
  header := helpHeader appName m
  block := helpBlock c
  footer := M.pure ()
  bold := inBold c

/-- `format_short_help::parse`, format_help.hpp lines 412-422. -/
def shortHelpPage (c : Console) (appName : Str) (m : Meta) : HelpM :=
  M.bind (helpHeader appName m) fun _ =>
  M.bind ((helpPrinter c appName m).steps (synopsisSteps m)) fun _ =>
  helpLine c "Try -h or --help for more information.\n".toList true

/-- `format_version::parse`, format_help.hpp lines 442-448. -/
def versionPage (c : Console) (b : Build) (appName : Str) (m : Meta) : HelpM :=
  M.bind (helpHeader appName m) fun _ =>
  (helpPrinter c appName m).steps ((versionBlocks b (inBold c) appName m).map .ok)

/-- `format_copyright::parse`, format_help.hpp lines 468-522. `license` is the text `seqan_license`. -/
def copyrightPage (c : Console) (license : Str) (appName : Str) (m : Meta) : HelpM :=
  emit (List.replicate 80 '=' ++ ['\n']
    ++ inBold c ("Copyright information for ".toList ++ appName ++ ":\n".toList) ++ List.replicate 80 '-' ++ ['\n']
    ++ (if m.longCopyright ≠ [] then ansi c.tty '0' ++ m.longCopyright ++ ['\n']
        else if m.shortCopyright ≠ [] then
          inBold c (appName ++ " full copyright information not available. ".toList
            ++ "Displaying short copyright information instead:\n".toList) ++ m.shortCopyright ++ ['\n']
        else ansi c.tty '0' ++ appName ++ " copyright information not available.\n".toList)
    ++ List.replicate 80 '=' ++ ['\n']
    ++ inBold c "This program contains SeqAn code licensed under the following terms:\n".toList
    ++ List.replicate 80 '-' ++ ['\n'] ++ license ++ ['\n'])

end Sharg
