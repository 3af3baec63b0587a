import Verif.Spec.Float
import Verif.Spec.ErrorTexts

/-!
# Specification: what the name of a type promises
-/

namespace Sharg.Spec

/-- The text is a whole number between the limits; a minus sign is allowed if negative numbers are. -/
def WholeNumber (lo hi : Int) (text : Str) : Prop := ∃ v, DenotesInt lo hi text v

/-- What a user who reads the name of the type will take for a value. -/
inductive PromisedBy (name text : Str) : Prop where
  | signed (bits : Nat) (n : Str) : NumberText bits n → 0 < bits → name = "signed ".toList ++ n ++ " bit integer".toList →
      WholeNumber (-2 ^ (bits - 1)) (2 ^ (bits - 1) - 1) text → PromisedBy name text
  | unsigned (bits : Nat) (n : Str) : NumberText bits n → 0 < bits → name = "unsigned ".toList ++ n ++ " bit integer".toList →
      WholeNumber 0 (2 ^ bits - 1) text → PromisedBy name text
  | bool : name = "bool".toList → text ∈ ["0".toList, "1".toList, "true".toList, "false".toList] → PromisedBy name text
  | string : name = "std::string".toList → PromisedBy name text
  | path : name = "std::filesystem::path".toList → PromisedBy name text
  | char (c : Char) : name = "char".toList → text = [c] → PromisedBy name text
  /-- single precision: 23 bits behind the leading one, 8 bits of exponent -/
  | float (v : Nat) : name = "float".toList → DenotesFloat ⟨23, 8, 149⟩ text v → PromisedBy name text
  | double (v : Nat) : name = "double".toList → DenotesFloat ⟨52, 11, 1074⟩ text v → PromisedBy name text

end Sharg.Spec
