import Verif.Spec.PathValue

/-!
# The parts of a path
-/

namespace Sharg.Spec

/-- `n` is a name in the path: the text between two slashes, or between a slash and an end of the path. -/
def NameIn (t n : Str) : Prop :=
  n ≠ [] ∧ '/' ∉ n ∧ ∃ a b, t = a ++ n ++ b ∧ (a = [] ∨ ∃ a', a = a' ++ ['/']) ∧ (b = [] ∨ ∃ b', b = '/' :: b')

/-- `q` is a part of the path: a slash at the beginning, a name, or nothing, if there is a slash at the end behind a name. -/
def PartOf (t q : Str) : Prop :=
  (q = ['/'] ∧ ∃ b, t = '/' :: b) ∨ NameIn t q ∨ (q = [] ∧ (∃ n, NameIn t n) ∧ ∃ a, t = a ++ ['/'])

end Sharg.Spec
