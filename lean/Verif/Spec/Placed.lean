import Verif.Spec.Outline

/-!
# Specification: elements of a page on lines of their own
-/

namespace Sharg.Spec

variable {W : Type}

/-- The text has a character that is not white space (and not behind a zero character). -/
def HasWord (t : Str) : Prop := ∃ c ∈ untilZero t, c ∉ blank

/-- There is something to print for the element, below its title or term. -/
def HasText : Block → Prop
  | .sec _ => True
  | .subsec _ => True
  | .line t _ => HasWord t
  | .item _ d => HasWord d

/-- The text ends with a line feed. -/
def EndsLine (s : Str) : Prop := ∃ t, s = t ++ ['\n']

/-- Paragraphs are followed by an empty line. -/
def isParagraph : Block → Bool
  | .line _ p => p
  | _ => false

/-- What stands before an element: titles are preceded by an empty line, lines and terms are indented by four blanks. -/
def lead (afterParagraph : Bool) : Block → Str
  | .sec _ => "\n".toList
  | .subsec _ => "\n  ".toList
  | _ => (if afterParagraph then "\n".toList else []) ++ "    ".toList

/-- The elements and what is printed for them: each is preceded by its indentation, and ends its line if and only if it has
a text. -/
inductive Placed (pe : PageEnv) : Bool → List Block → List Str → Prop
  | nil {ap} : Placed pe ap [] []
  | cons {ap b o bs os} : ConsoleElement pe b o → lead ap b <+: o → (EndsLine o ↔ HasText b) → Placed pe (isParagraph b) bs os →
      Placed pe ap (b :: bs) (o :: os)

/-- An entry of the developer that has a text on the help page. -/
def Described (e : Entry W) : Prop :=
  match e with
  | .option cfg _ _ _ _ => HasWord cfg.description ∨
      '\x00' ∉ cfg.description ∧ (cfg.defaultMessage ≠ [] ∨ cfg.required = false ∨ cfg.validatorMessage ≠ [])
  | .flag cfg _ => HasWord cfg.description
  | .positional cfg _ l _ _ => HasWord cfg.description ∨
      '\x00' ∉ cfg.description ∧ (l = true ∨ cfg.validatorMessage ≠ [])
  | .sec _ _ => True
  | .subsec _ _ => True
  | .line t _ _ => HasWord t
  | .listItem _ d _ => HasWord d

end Sharg.Spec
