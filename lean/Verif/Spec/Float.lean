import Verif.Model.Float
import Verif.Spec.Values
import Mathlib.Algebra.Order.Field.Rat

/-!
# Specification: decimal numbers and the floating point numbers nearest to them
-/

namespace Sharg.Spec

/-! ### The numbers of a floating point type -/

/-- The number with the bit pattern `n` (without sign): a significand times a power of two. -/
def patternValue (F : FloatFormat) (n : Nat) : ℚ :=
  let exponent := n / 2 ^ F.fraction
  let fraction := n % 2 ^ F.fraction
  if exponent = 0 then (fraction : ℚ) / 2 ^ F.minExp
  else ((2 : ℚ) ^ F.fraction + fraction) * 2 ^ (exponent - 1) / 2 ^ F.minExp

/-- No number is nearer to `x` than the one with the pattern `n`; if another one is as near, `n` is the even one. -/
def Nearest (F : FloatFormat) (x : ℚ) (n : Nat) : Prop :=
  ∀ k, |x - patternValue F n| ≤ |x - patternValue F k| ∧
    (k ≠ n → |x - patternValue F n| = |x - patternValue F k| → n % 2 = 0)

/-! ### The texts of decimal numbers -/

/-- `-12.34e+5`: every part but the digits in front of or behind the point may be missing. -/
structure DecimalText where
  neg : Bool
  int : Str
  frac : Option Str
  /-- `e` or `E`, the sign if any, and the digits -/
  exp : Option (Char × Option Char × Str)

def DecimalText.fracDigits (d : DecimalText) : Str := d.frac.getD []

def DecimalText.render (d : DecimalText) : Str :=
  (if d.neg then ['-'] else []) ++ d.int ++ (d.frac.elim [] fun f => '.' :: f) ++
    d.exp.elim [] fun x => x.1 :: (x.2.1.elim [] fun c => [c]) ++ x.2.2

structure DecimalText.Ok (d : DecimalText) : Prop where
  int : ∀ c ∈ d.int, c ∈ digits
  frac : ∀ c ∈ d.fracDigits, c ∈ digits
  notEmpty : d.int ≠ [] ∨ d.fracDigits ≠ []
  exp : ∀ c sign ds, d.exp = some (c, sign, ds) → (c = 'e' ∨ c = 'E') ∧ (∀ s ∈ sign, s = '+' ∨ s = '-') ∧ IsDecimal ds

def DecimalText.exponent (d : DecimalText) : Int :=
  match d.exp with
  | none => 0
  | some (_, sign, ds) => if sign = some '-' then -(decValue ds : Int) else decValue ds

/-- The number without its sign. -/
def DecimalText.abs (d : DecimalText) : ℚ :=
  (decValue d.int + decValue d.fracDigits / (10 : ℚ) ^ d.fracDigits.length) * (10 : ℚ) ^ d.exponent

/-- The texts for infinity and NaN: case is ignored. -/
def IsInfinity (s : Str) : Prop := s.map Char.toLower = "inf".toList ∨ s.map Char.toLower = "infinity".toList

def IsNan (s : Str) : Prop :=
  ∃ word more, s = word ++ more ∧ word.map Char.toLower = "nan".toList ∧
    (more = [] ∨ ∃ chars, more = '(' :: (chars ++ [')']) ∧ ∀ c ∈ chars, c.isAlphanum = true ∨ c = '_')

def minusSign (neg : Bool) : Str := if neg then ['-'] else []

/-- `n` is the pattern of the finite number nearest to `x`; only 0 itself is rounded to 0. -/
def Rounded (F : FloatFormat) (x : ℚ) (n : Nat) : Prop := Nearest F x n ∧ n < F.infinity ∧ (n = 0 → x = 0)

/-- The text denotes the floating point number with the bit pattern `v`: a decimal number that is rounded to it, infinity or NaN. -/
def DenotesFloat (F : FloatFormat) (text : Str) (v : Nat) : Prop :=
  (∃ d : DecimalText, d.Ok ∧ text = d.render ∧ ∃ n, Rounded F d.abs n ∧ v = F.signBit d.neg + n) ∨
  (∃ neg s, text = minusSign neg ++ s ∧ ((IsInfinity s ∧ v = F.signBit neg + F.infinity) ∨ (IsNan s ∧ v = F.signBit neg + F.nan)))

/-- The decimal number with its sign. -/
def DecimalText.value (d : DecimalText) : ℚ := if d.neg then -d.abs else d.abs

/-- The finite number with the bit pattern `v`. -/
def floatValue (F : FloatFormat) (v : Nat) : ℚ :=
  if v < 2 ^ (F.expBits + F.fraction) then patternValue F v else -patternValue F (v - 2 ^ (F.expBits + F.fraction))

/-- A bit pattern. -/
def IsPattern (F : FloatFormat) (v : Nat) : Prop := v < 2 * 2 ^ (F.expBits + F.fraction)

/-- Neither infinity nor NaN. -/
def FiniteFloat (F : FloatFormat) (v : Nat) : Prop := v % 2 ^ (F.expBits + F.fraction) < F.infinity

/-- As IEEE 754 requires: 1 is in the middle of the exponents. -/
structure Ieee (F : FloatFormat) : Prop where
  fraction : 1 ≤ F.fraction
  expBits : 2 ≤ F.expBits
  minExp : F.minExp = 2 ^ (F.expBits - 1) - 2 + F.fraction

end Sharg.Spec
