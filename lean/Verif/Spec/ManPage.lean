import Verif.Spec.Placed
import Verif.Spec.Setup

/-!
# Specification: how a man page is read

What the formatter of man pages (`man`, `groff -man`) makes of the lines of its input, as far as the pages of sharg need it.
-/

namespace Sharg.Spec

/-- What a line of the input of a man page means. -/
inductive ManPiece where
  /-- the title line, with its arguments -/
  | title (arguments : Str)
  | heading (t : Str)
  | subheading (t : Str)
  /-- the next line is a term, the lines after it are its description -/
  | tagged
  | lineBreak
  /-- a line break with an empty line -/
  | space
  | text (t : Str)
  /-- a text that begins a new line because of its indentation -/
  | indented (t : Str)
  /-- an instruction to the formatter that prints nothing -/
  | request (t : Str)
  deriving DecidableEq

/-- How a line is read. -/
def manPiece (l : Str) : ManPiece :=
  if l = ".TP".toList then .tagged
  else if l = ".br".toList then .lineBreak
  else if l = ".sp".toList then .space
  else if ".TH ".toList.isPrefixOf l then .title (l.drop 4)
  else if ".SH ".toList.isPrefixOf l && 4 < l.length then .heading (l.drop 4)
  else if ".SS ".toList.isPrefixOf l && 4 < l.length then .subheading (l.drop 4)
  else match l with
    | [] => .space
    | c :: s => if c = '.' ∨ c = '\'' then .request (c :: s) else if c = ' ' then .indented (c :: s) else .text (c :: s)

/-- The arguments of an instruction: words, or texts in quotes, separated by a blank. -/
inductive MacroArgs : Str → List Str → Prop
  | nil : MacroArgs [] []
  | word {w s l} : w ≠ [] → (∀ c ∈ w, c ≠ ' ' ∧ c ≠ '"') → MacroArgs s l → MacroArgs (w ++ [' '] ++ s) (w :: l)
  | quoted {q s l} : '"' ∉ q → MacroArgs s l → MacroArgs ("\"".toList ++ q ++ "\" ".toList ++ s) (q :: l)
  | last {q} : '"' ∉ q → MacroArgs ("\"".toList ++ q ++ "\"".toList) [q]

/-- What a man page with these elements should say. The first line below a title needs no break before it. -/
def manPieces (first : Bool) : List Block → List ManPiece
  | [] => []
  | .sec t :: bs => .heading (t.map Char.toUpper) :: manPieces true bs
  | .subsec t :: bs => .subheading t :: manPieces true bs
  | .line t p :: bs => (if first then [] else [if p then .space else .lineBreak]) ++ .text t :: manPieces false bs
  | .item k d :: bs => .tagged :: .text k :: .text d :: manPieces false bs

/-- A text that is read as it is: one line that does not start with a blank, a dot or an apostrophe. -/
def PlainLine (t : Str) : Prop := '\n' ∉ t ∧ t ≠ [] ∧ ∀ c, t.head? = some c → c ∉ [' ', '.', '\'']

/-- An element whose texts are read as they are. -/
def PlainElement : Block → Prop
  | .sec t => '\n' ∉ t ∧ t ≠ []
  | .subsec t => '\n' ∉ t ∧ t ≠ []
  | .line t _ => PlainLine t
  | .item k d => PlainLine k ∧ PlainLine d

/-- What the formatter shows for a text, without the fonts. Further sequences with a backslash are not described. -/
inductive RoffText : Str → Str → Prop
  | nil : RoffText [] []
  | char {c s t} : c ≠ '\\' → RoffText s t → RoffText (c :: s) (c :: t)
  | dash {s t} : RoffText s t → RoffText ('\\' :: '-' :: s) ('-' :: t)
  | font {c s t} : c ∈ ['B', 'I', 'R', 'P'] → RoffText s t → RoffText ('\\' :: 'f' :: c :: s) t

end Sharg.Spec
