import Verif.Spec.Git

/-!
# Parsers for which nothing is registered
-/

namespace Sharg.Spec

/-- Nothing but empty arguments and at most one `--`. -/
def OnlyMarker (args : List Str) : Prop :=
  (∀ a ∈ args, a = []) ∨ ∃ pre post, args = pre ++ "--".toList :: post ∧ (∀ a ∈ pre, a = []) ∧ ∀ a ∈ post, a = []

/-- No option, flag or positional option is registered. -/
def NothingRegistered {W : Type} (g : Prog W) : Prop := declsOf g.parser.operations = ⟨[], [], []⟩

/-- One of the arguments in front of `--` is written like an option. -/
def OptionInFront (args : List Str) : Prop :=
  ∃ pre a post, args = pre ++ a :: post ∧ "--".toList ∉ pre ∧ a ≠ "--".toList ∧ ∃ c r, a = '-' :: c :: r

/-- How `parse()` ends if nothing is registered and the (unreserved) arguments are not empty. -/
inductive BareEnds (args : List Str) : Outcome → Prop where
  | accepted : OnlyMarker args → BareEnds args .returned
  | unknown : OptionInFront args → BareEnds args (.threw .unknownOption)
  | tooMany : ¬ OptionInFront args → ¬ OnlyMarker args → BareEnds args (.threw .tooManyArguments)

end Sharg.Spec
