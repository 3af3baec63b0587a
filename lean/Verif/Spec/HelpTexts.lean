import Verif.Model.Base

/-!
# Specification: texts of values in lists
-/

namespace Sharg.Spec

/-- A text that can be told from what follows it in a list: not empty, no comma, no closing bracket. -/
def Tellable (s : Str) : Prop := s ≠ [] ∧ ',' ∉ s ∧ ']' ∉ s

end Sharg.Spec
