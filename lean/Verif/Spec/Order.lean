import Verif.Spec.Line

/-!
# Specification: rearranged command lines
-/

namespace Sharg.Spec

/-- The identifier of an option with which the item gives it a value. -/
def Item.identifier : Item → Option Id
  | .short c _ _ => some (.short c)
  | .long s _ _ => some (.long s)
  | _ => none

/-- One of the items is an option, and they do not use the same identifier. -/
def Apart (a b : Item) : Prop := a.identifier ≠ b.identifier

/-- The items are not both words, and they do not use the same identifier. -/
def Unrelated (a b : Item) : Prop :=
  (a.identifier = none ∨ a.identifier ≠ b.identifier) ∧ ¬ ((∃ v, a = .word v) ∧ ∃ w, b = .word w)

/-- The second list comes from the first one by exchanging neighbours that are related by `R`. -/
inductive Rearranged (R : Item → Item → Prop) : List Item → List Item → Prop where
  | refl (l : List Item) : Rearranged R l l
  | swap (front : List Item) (a b : Item) (back l : List Item) (h : R a b) (rest : Rearranged R (front ++ b :: a :: back) l) :
    Rearranged R (front ++ a :: b :: back) l

end Sharg.Spec
