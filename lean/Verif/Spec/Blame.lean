import Verif.Spec.App

/-!
# Who is to blame (C98)

`sharg::design_error` is "directed at the developer of the application" (exceptions.hpp lines 192-193); all other parser exceptions are meant for
the user.
-/

namespace Sharg.Spec

/-- The outcomes of the actions of a history, one after the other. -/
def outcomes {W : Type} (env : Env W) : List (Action W) → Prog W → List Outcome
  | [], _ => []
  | a :: as, g => (a.run env g).1 :: outcomes env as (a.run env g).2

/-- The developer is blamed. -/
def Blamed (o : Outcome) : Prop := o = .threw .designError

/-- Errors of the user. -/
def UserErrors : List Exn :=
  [.unknownOption, .tooManyArguments, .tooFewArguments, .requiredOptionMissing, .optionDeclaredMultipleTimes, .userInputError, .validationError]

/-- The version check and the pages do not throw `design_error`. -/
structure Blameless {W : Type} (env : Env W) : Prop where
  check : ∀ app notify user w, CleanName app → (env.versionCheck app notify user w).1 ≠ some .designError
  page : ∀ f p st w, (env.printPage f p st w).1 ≠ some .designError

/-- All names of the application are clean: its own and those of the subcommands that it adds at any level. -/
structure CleanNames {W : Type} (app : App W) (i : Init) : Prop where
  name : CleanName i.appName
  subs : ∀ s ∈ i.subcommands, CleanName s
  added : ∀ j st w ns, Call.addSubcommands ns ∈ app j st w → ∀ s ∈ ns, CleanName s

/-- Two outcomes at the same place of two runs: both blame the developer, or none. -/
inductive SameBlame : List Outcome → List Outcome → Prop where
  | nil : SameBlame [] []
  | cons {o₁ o₂ : Outcome} {l₁ l₂ : List Outcome} : (Blamed o₁ ↔ Blamed o₂) → SameBlame l₁ l₂ → SameBlame (o₁ :: l₁) (o₂ :: l₂)

end Sharg.Spec
