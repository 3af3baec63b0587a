import Verif.Spec.PathCheck
import Verif.Spec.Killed

/-!
# What the checks of output directories promise
-/

namespace Sharg.Spec

/-- The systems have the same current directory, and the same files but for those called `dummy.txt` (and what is below such a directory). -/
def BesideDummies (s s' : System) : Prop := s'.cwd = s.cwd ∧ ∀ q, "dummy.txt".toList ∉ q → s'.disk.node? q = s.disk.node? q

/-- A validator that leaves files that are not called `dummy.txt` and the current directory alone, in well-formed systems. -/
def LeavesOthers (v : Val → System → Bool × System) : Prop :=
  ∀ x s, WellFormed s.disk → WellFormed (v x s).2.disk ∧ BesideDummies s (v x s).2

/-- There is a directory in which files can be created; or there is nothing, and a directory can be created. -/
def OutputDirectoryUsable (s : System) (p : Str) : Prop :=
  (∃ r, Reaches s.disk (locOf s.cwd p) (.dir r true true)) ∨ ((∀ n, ¬ Reaches s.disk (locOf s.cwd p) n) ∧ CanCreate s.disk (locOf s.cwd p))

end Sharg.Spec
