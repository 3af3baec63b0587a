import Verif.Model.Files

/-!
# Specification of the validators

Which values, names and paths are acceptable, without the code of the validators. Only the data types of the model
(numbers, file system objects and their locations) are used.
-/

namespace Sharg.Spec

open Sharg

/-- The value of a number. -/
def numVal : Num → Rat
  | .int i => i
  | .real q => q

/-- The number belongs to the type. -/
def HasType : NumTy → Num → Prop
  | .integer lo hi, .int i => lo ≤ i ∧ i ≤ hi
  | .real, .real _ => True
  | _, _ => False

instance (ty : NumTy) (v : Num) : Decidable (HasType ty v) := by
  cases ty <;> cases v <;> simp only [HasType] <;> infer_instance

/-- Validators applied from left to right to one value: the first rejection ends the evaluation and is the result. -/
inductive LeftToRight {W α : Type} (x : α) : List (Validator W α) → W → Res W Unit → Prop
  | done {w} : LeftToRight x [] w (.ok () w)
  | accept {v vs w w' r} : v.run x w = .ok () w' → LeftToRight x vs w' r → LeftToRight x (v :: vs) w r
  | reject {v vs w e w'} : v.run x w = .err e w' → LeftToRight x (v :: vs) w (.err e w')

/-- An expression `v₁ | v₂ | …` with any grouping. -/
inductive Chain (W α : Type) where
  | single (v : Validator W α)
  | pipe (l r : Chain W α)

/-- The validators of an expression from left to right. -/
def Chain.parts {W α : Type} : Chain W α → List (Validator W α)
  | .single v => [v]
  | .pipe l r => l.parts ++ r.parts

/-- What the C++ expression evaluates to. -/
def Chain.value {W α : Type} : Chain W α → Validator W α
  | .single v => v
  | .pipe l r => l.value.chain r.value

/-- Same letter up to case: `A`-`Z` are at 65-90, `a`-`z` at 97-122. -/
def SameLetter (a b : Char) : Prop :=
  a = b ∨ (65 ≤ a.toNat ∧ a.toNat ≤ 90 ∧ b.toNat = a.toNat + 32) ∨ (65 ≤ b.toNat ∧ b.toNat ≤ 90 ∧ a.toNat = b.toNat + 32)

/-- Equal texts up to case. -/
def SameText : Str → Str → Prop
  | [], [] => True
  | a :: s, b :: t => SameLetter a b ∧ SameText s t
  | _, _ => False

/-- C39 as documented: the name ends with a dot and a listed extension. -/
def HasListedExtension (extensions : List Str) (name : Str) : Prop :=
  ∃ ext ∈ extensions, ∃ base e, name = base ++ '.' :: e ∧ SameText e ext

/-- What the code accepts: the name has a dot somewhere behind its first character, is not `..`, and, without the dot
of a hidden file, ends with the letters of a listed extension. -/
def NameAccepted (extensions : List Str) (name : Str) : Prop :=
  extensions = [] ∨
    ((∃ base e, name = base ++ '.' :: e ∧ base ≠ []) ∧ name ≠ ['.', '.'] ∧
      ∃ ext ∈ extensions, ∃ base e, (name = base ++ e ∧ name.head? ≠ some '.' ∨ name = '.' :: (base ++ e)) ∧ SameText e ext)

/-- The object at the location can be reached: every directory on the way exists and may be searched. -/
def Reaches (fs : Disk) (p : Loc) (n : Node) : Prop :=
  fs.node? p = some n ∧ ∀ q c t, p = q ++ c :: t → ∃ r w, fs.node? q = some (.dir r w true)

/-- Some directory on the way may not be searched. -/
def Denied (fs : Disk) (p : Loc) : Prop :=
  ∃ q c t r w, p = q ++ c :: t ∧ Reaches fs q (.dir r w false)

/-- Entries may be created in and removed from the directory of the location. -/
def CanCreate (fs : Disk) (p : Loc) : Prop :=
  ∃ q c r, p = q ++ [c] ∧ Reaches fs q (.dir r true true)

/-- One object per location, and every object lies in a directory. -/
def WellFormed (fs : Disk) : Prop :=
  (fs.map (·.1)).Nodup ∧ ∀ e ∈ fs, ∀ q c t, e.1 = q ++ c :: t → ∃ r w x, fs.node? q = some (.dir r w x)

/-- A readable regular file or directory. -/
def Readable : Node → Prop
  | .file _ r _ => r = true
  | .dir r _ _ => r = true
  | .special _ _ => False

end Sharg.Spec
