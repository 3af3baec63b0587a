import Verif.Spec.Files
import Verif.Model.PathValue

/-!
# Specification: paths on the command line

Independent of the stream operators of the model. Paths are texts; `pathCode` only numbers them.
-/

namespace Sharg.Spec

/-- The blanks of the classic locale. -/
def whiteSpace : List Char := [' ', '\t', '\n', '\x0b', '\x0c', '\r']

/-- The paths that can be given: not empty, without blanks, and without a quotation mark at the beginning. -/
def Nameable (p : Str) : Prop := p ≠ [] ∧ (∀ c ∈ p, c ∉ whiteSpace) ∧ p.head? ≠ some '"'

instance (p : Str) : Decidable (Nameable p) := inferInstanceAs (Decidable (_ ∧ _ ∧ _))

/-- The text of an argument is read as the path: blanks in front are dropped. -/
def DenotesPath (text p : Str) : Prop := Nameable p ∧ ∃ blanks, text = blanks ++ p ∧ ∀ c ∈ blanks, c ∈ whiteSpace

/-- The content of a variable of type `std::filesystem::path`. -/
def pathElem (p : Str) : Elem := .other (pathCode p)

/-- The text stands between quotation marks, with every quotation mark and backslash behind a backslash. -/
def Quotes (text p : Str) : Prop :=
  text = '"' :: (p.flatMap fun c => if c = '"' ∨ c = '\\' then ['\\', c] else [c]) ++ ['"']

end Sharg.Spec
