import Verif.Model.Value

/-!
# Specification: which texts denote which values

Independent of the model's conversion functions; only the type descriptions are shared.
-/

namespace Sharg.Spec

/-- `0`, ..., `9`. -/
def digits : List Char := ['0', '1', '2', '3', '4', '5', '6', '7', '8', '9']

/-- Positional value of a digit string: each digit times a power of ten. -/
def decValue : Str → Nat
  | [] => 0
  | c :: s => digits.idxOf c * 10 ^ s.length + decValue s

/-- A non-empty string of decimal digits. -/
def IsDecimal (s : Str) : Prop := s ≠ [] ∧ ∀ c ∈ s, c ∈ digits

instance (s : Str) : Decidable (IsDecimal s) := inferInstanceAs (Decidable (_ ∧ _))

/-- `s` denotes the integer `v` in a type with limits `lo`, `hi`: digits, or, in a signed type, `-` and digits;
and the number lies within the limits. -/
def DenotesInt (lo hi : Int) (s : Str) (v : Int) : Prop :=
  lo ≤ v ∧ v ≤ hi ∧
    ((IsDecimal s ∧ v = decValue s) ∨ (lo < 0 ∧ ∃ ds, s = '-' :: ds ∧ IsDecimal ds ∧ v = - (decValue ds : Int)))

/-- `text` denotes the value `e` of type `ty`. -/
def Denotes : ElemTy → Str → Elem → Prop
  | .string, text, e => e = .str text
  | .boolean, text, e =>
    (e = .bool true ∧ (text = ['1'] ∨ text = ['t', 'r', 'u', 'e'])) ∨
    (e = .bool false ∧ (text = ['0'] ∨ text = ['f', 'a', 'l', 's', 'e']))
  | .integer lo hi, text, e => ∃ v, e = .int v ∧ DenotesInt lo hi text v
  | .enumeration names, text, e => ∃ tag, e = .enumv tag ∧
      ∃ before after, names = before ++ (text, tag) :: after ∧ ∀ p ∈ before, p.1 ≠ text
  | .foreign _ conv, text, e => conv text = .ok e

/-- The text starts with a number (for signed types possibly with `-`) that lies outside of the limits. -/
def IntOutOfRange (lo hi : Int) (text : Str) : Prop :=
  ∃ ds rest, IsDecimal ds ∧ (∀ c, rest.head? = some c → c ∉ digits) ∧
    ((text = ds ++ rest ∧ ¬ (lo ≤ decValue ds ∧ decValue ds ≤ hi)) ∨
     (lo < 0 ∧ text = '-' :: (ds ++ rest) ∧ ¬ (lo ≤ -(decValue ds : Int) ∧ -(decValue ds : Int) ≤ hi)))

/-- Texts for which `std::from_chars` reports `result_out_of_range`. -/
def OutOfRange : ElemTy → Str → Prop
  | .integer lo hi, text => IntOutOfRange lo hi text
  | .foreign arith conv, text => arith = true ∧ conv text = .overflow
  | _, _ => False

end Sharg.Spec
