import Verif.Spec.Line

/-!
# Specification: lines on which a list option is given with both its identifiers
-/

namespace Sharg.Spec

/-- The item gives a value to a list option by its short identifier, and the option is on the line by its long identifier too. -/
def overruled {W : Type} (D : Decls W) (items : List Item) : Item → Bool
  | .short c _ _ => D.options.any fun d => d.isList && d.short == c && items.any fun
      | .long s _ _ => s == d.long
      | _ => false
  | _ => false

/-- The line without such items. -/
def lastWord {W : Type} (D : Decls W) (items : List Item) : List Item := items.filter fun it => !overruled D items it

/-- The texts that no one sees can be read: they denote elements, or are out of range in a release build (`nd`). -/
def OverruledReadable {W : Type} (nd : Bool) (D : Decls W) (items : List Item) : Prop :=
  ∀ d ∈ D.options, ∀ form v, Item.short d.short form v ∈ items → overruled D items (.short d.short form v) = true →
    (∃ e, Denotes d.ty v e) ∨ (nd = true ∧ OutOfRange d.ty v)

/-- A well-formed line (`LineOk`) on which lists may be given with both identifiers. -/
structure MixedOk {W : Type} (D : Decls W) (items : List Item) (tail : Option (List Str)) : Prop where
  itemsOk : ∀ it ∈ items, it.Ok D
  flagsOnce : ∀ f ∈ D.flags, mentions f items ≤ 1
  tailOk : ∀ ws, tail = some ws → ∀ w ∈ ws, w ≠ [] ∧ ∀ f ∈ D.flags, ¬ EatenBy f.short w

/-- The texts given to an option by its long identifier. -/
def longTexts {W : Type} (d : OptDecl W) (items : List Item) : List Str := items.filterMap fun
  | .long s _ v => if s = d.long then some v else none
  | _ => none

end Sharg.Spec
