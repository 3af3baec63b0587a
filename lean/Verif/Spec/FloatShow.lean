import Verif.Spec.Float

/-!
# Specification: decimal numbers with few digits
-/

namespace Sharg.Spec

/-- A decimal number (not negative) with at most six significant digits. -/
def SixDigits (y : ℚ) : Prop := ∃ (m : Nat) (j : Int), m < 10 ^ 6 ∧ y = m * (10 : ℚ) ^ j

/-- The pattern (without sign) of a number that has all digits of its significand, or 0. -/
def FullPrecision (F : FloatFormat) (n : Nat) : Prop := n = 0 ∨ 2 ^ F.fraction ≤ n

/-- The notation of `%g` for a number whose first digit stands for a multiple of `10^x`: no point without digits behind it and no zero at the end of
a fraction; an exponent only if `x` is below -4 or above 5, with its sign and two digits, or more if it needs more. -/
structure GeneralForm (d : DecimalText) (x : Int) : Prop where
  fraction : ∀ f, d.frac = some f → f ≠ [] ∧ f.getLast? ≠ some '0'
  plain : -4 ≤ x → x < 6 → d.exp = none ∧ d.int.length = x.toNat + 1
  small : -4 ≤ x → x < 0 → d.int = ['0']
  scientific : (x < -4 ∨ 6 ≤ x) → d.int.length = 1 ∧ ∃ ds, d.exp = some ('e', some (if x < 0 then '-' else '+'), ds) ∧ 2 ≤ ds.length ∧
    (2 < ds.length → ds.head? ≠ some '0')

end Sharg.Spec
