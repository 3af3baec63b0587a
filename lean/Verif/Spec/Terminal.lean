import Verif.Spec.Outline

/-!
# Specification: pages on different terminals
-/

namespace Sharg.Spec

/-- A text with font sequences, and the text without them. The font sequences are escape, `[`, `0`, `1` or `4`, `m`; they
are used on terminals only. -/
inductive Adorned (tty : Bool) : Str → Str → Prop
  | nil : Adorned tty [] []
  | char {c s t} : Adorned tty s t → Adorned tty (c :: s) (c :: t)
  | font {d s t} : tty = true → d ∈ ['0', '1', '4'] → Adorned tty s t → Adorned tty ('\x1b' :: '[' :: d :: 'm' :: s) t

/-- The pages have the same words, apart from font sequences. -/
def SameWords (tty tty' : Bool) (page page' : Str) : Prop :=
  ∃ s s' ws, Adorned tty page s ∧ Adorned tty' page' s' ∧ Words s ws ∧ Words s' ws

/-- The same program with another standard output. -/
def onTerminal (pe : PageEnv) (tty : Bool) (width : Nat) : PageEnv := { pe with tty := tty, terminalWidth := width }

/-- The width that is used for pages: at least 40, at most 120, and 80 if it is not known. -/
def usedWidth (width : Nat) : Nat := if width = 0 then 80 else if width < 40 then 40 else if 120 < width then 120 else width

/-- The lines with the versions: label and text. -/
def versionLines (pe : PageEnv) (app : Str) : List (Str × Str) :=
  [("Last update: ".toList, pe.info.date), (app ++ " version: ".toList, pe.info.version),
    ("Sharg version: ".toList, pe.build.shargVersion)] ++ pe.build.seqanVersion.toList.map fun v => ("SeqAn version: ".toList, v)

/-- The legal lines with a label. -/
def legalLines (pe : PageEnv) (app : Str) : List (Str × Str) :=
  [(app ++ " Copyright: ".toList, pe.info.shortCopyright), ("Author: ".toList, pe.info.author), ("Contact: ".toList, pe.info.email),
    ("SeqAn Copyright: ".toList, "2006-2024 Knut Reinert, FU-Berlin; released under the 3-clause BSDL.".toList),
    ("In your academic works please cite: ".toList, pe.info.citation)].filter fun x => !x.2.isEmpty

/-- The lines of a page whose label is bold. -/
def labelledLines (pe : PageEnv) (app : Str) : Format → List (Str × Str)
  | .help _ => versionLines pe app ++ if legalSupplied pe.info then legalLines pe app else []
  | .version => versionLines pe app
  | _ => []

/-- Label and text both begin with a word, there is no zero character, and the line fits into one line, with four blanks
before it, two behind it, and eight characters for the fonts. -/
structure FitsInLine (width : Nat) (x : Str × Str) : Prop where
  label : ∃ c s, x.1 = c :: s ∧ c ∉ blank
  text : ∃ c s, x.2 = c :: s ∧ c ∉ blank
  zero : '\x00' ∉ x.1 ++ x.2
  fits : 4 + x.1.length + x.2.length + 8 + 2 ≤ usedWidth width

/-- The elements of a page on the console, in order. -/
def pageElements {W : Type} (pe : PageEnv) (f : Format) (p : Parser W) (st : Store) : List Block :=
  match f with
  | .help _ => elements (outline pe f p st)
  | .version => elements (nonEmptyParts [versionPart pe .version p.appName, urlPart pe])
  | .shortHelp => pe.info.synopsis.map synopsisLine ++ [.line "Try -h or --help for more information.\n".toList true]
  | _ => []

/-- The part of a page for an element: on the terminal `x`, in the file `y`. Only lines with a bold label that do not fit
into one line may be broken differently, and the remark about the copyright if there are less than 77 columns. -/
def PartAlike (width : Nat) (bold : List (Str × Str)) (b : Block) (x y : Str) : Prop :=
  Adorned true x y ∨
  SameWords true false x y ∧
    ((∃ q ∈ bold, ¬ FitsInLine width q ∧ b = .line (q.1 ++ q.2) false) ∨
    (usedWidth width < 77 ∧ b = .line "For full copyright and/or warranty information see --copyright.".toList false))

end Sharg.Spec
