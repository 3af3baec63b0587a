import Verif.Model.Value

/-!
# `std::from_chars` for floating point numbers

Options of floating point type are read by `parse_option_value` (`include/sharg/detail/format_parse.hpp` lines 401-413), which calls
`std::from_chars(first, last, value)` of the standard library. This file models what [charconv.from.chars] and IEEE 754 require of that call in the
general format: the longest prefix that is a decimal number (or `inf`, `nan`), rounded to the nearest number of the type, ties to even. The replacement
for standard libraries without that function is in `Model/Charconv.lean`.

Simplifications: a number other than 0 that is rounded to 0 is out of range (as in libstdc++); all texts for NaN give the same NaN. A number is kept
as its bit pattern.
-/

namespace Sharg

/-- A binary floating point type with `fraction` explicit bits of the significand, `expBits` bits of the exponent, and `2^-minExp` as the smallest
positive number. -/
structure FloatFormat where
  fraction : Nat
  expBits : Nat
  minExp : Nat

/-- `float`. -/
def binary32 : FloatFormat := ⟨23, 8, 149⟩

/-- `double`. -/
def binary64 : FloatFormat := ⟨52, 11, 1074⟩

/-- The bit pattern of infinity: all bits of the exponent. Patterns below it are the finite numbers, in order. -/
def FloatFormat.infinity (F : FloatFormat) : Nat := (2 ^ F.expBits - 1) * 2 ^ F.fraction

/-- The bit pattern of NaN. -/
def FloatFormat.nan (F : FloatFormat) : Nat := F.infinity + 2 ^ (F.fraction - 1)

/-- The sign bit. -/
def FloatFormat.signBit (F : FloatFormat) (neg : Bool) : Nat := if neg then 2 ^ (F.expBits + F.fraction) else 0

/-- The pattern of the number nearest to `a / b`, ties to even. (As IEEE 754 defines it: the exponent is not bounded, patterns from infinity on mean
overflow.) `e` is the exponent, relative to the smallest one, such that the significand `a / b / 2^e` has `fraction + 1` bits; `e = 0` for the
subnormal numbers. -/
def roundPattern (F : FloatFormat) (a b : Nat) : Nat :=
  let n := a * 2 ^ F.minExp
  let e := (n / b).log2 - F.fraction
  let q := n / (b * 2 ^ e)
  let r := n % (b * 2 ^ e)
  e * 2 ^ F.fraction + if 2 * r < b * 2 ^ e ∨ (2 * r = b * 2 ^ e ∧ q % 2 = 0) then q else q + 1

/-- The exponent at the beginning of the text, and the rest. Without digits it is not part of the number. -/
def scanExponent : Str → Int × Str
  | [] => (0, [])
  | c :: s =>
    if c = 'e' ∨ c = 'E' then
      let neg : Bool := s.head? == some '-'
      let body : Str := if neg ∨ s.head? = some '+' then s.tail else s
      if body.takeWhile isDigit = [] then (0, c :: s)
      else (if neg then -(digitsVal (body.takeWhile isDigit) : Int) else digitsVal (body.takeWhile isDigit), body.dropWhile isDigit)
    else (0, c :: s)

/-- The digits behind the decimal point, if there is one, and the rest. -/
def scanFraction : Str → Str × Str
  | '.' :: s => (s.takeWhile isDigit, s.dropWhile isDigit)
  | s => ([], s)

/-- `std::from_chars`: invalid, out of range, or the value (a bit pattern) and the rest `[ptr, last)`. -/
inductive FloatChars where
  | invalid
  | outOfRange
  | ok (v : Nat) (rest : Str)
  deriving DecidableEq, Repr

/-- The decimal number `digits * 10^k`, if it is in range. -/
def scaled (F : FloatFormat) (neg : Bool) (digits : Str) (k : Int) (rest : Str) : FloatChars :=
  let n := roundPattern F (digitsVal digits * 10 ^ k.toNat) (10 ^ (-k).toNat)
  if F.infinity ≤ n ∨ (n = 0 ∧ digitsVal digits ≠ 0) then .outOfRange else .ok (F.signBit neg + n) rest

/-- Case is ignored. -/
def stripWord (word : Str) (s : Str) : Option Str :=
  if (s.take word.length).map Char.toLower = word then some (s.drop word.length) else none

/-- The `n-char-sequence` behind `nan`. -/
def stripNanChars : Str → Str
  | '(' :: s =>
    match s.dropWhile (fun c => c.isAlphanum || c == '_') with
    | ')' :: rest => rest
    | _ => '(' :: s
  | s => s

/-- The number, `inf` or `nan` behind the sign. -/
def unsignedChars (F : FloatFormat) (neg : Bool) (s : Str) : FloatChars :=
  match stripWord "infinity".toList s, stripWord "inf".toList s, stripWord "nan".toList s with
  | some rest, _, _ => .ok (F.signBit neg + F.infinity) rest
  | none, some rest, _ => .ok (F.signBit neg + F.infinity) rest
  | none, none, some rest => .ok (F.signBit neg + F.nan) (stripNanChars rest)
  | none, none, none =>
    let int := s.takeWhile isDigit
    let frac := scanFraction (s.dropWhile isDigit)
    if int = [] ∧ frac.1 = [] then .invalid
    else
      let exp := scanExponent frac.2
      scaled F neg (int ++ frac.1) (exp.1 - frac.1.length) exp.2

/-- `std::from_chars(first, last, value)` for a floating point type. -/
def fromCharsFloat (F : FloatFormat) (s : Str) : FloatChars :=
  if s.head? = some '-' then unsignedChars F true s.tail else unsignedChars F false s

/-- `parse_option_value` for floating point types, format_parse.hpp lines 401-413, as a conversion for `parseForeign`. -/
def floatConv (F : FloatFormat) (s : Str) : Conv :=
  match fromCharsFloat F s with
  | .invalid => .fail none
  | .outOfRange => .overflow
  | .ok v rest => if rest = [] then .ok (.other v) else .fail (some (.other v))

/-- The value without the sign bit. -/
def FloatFormat.magnitude (F : FloatFormat) (v : Nat) : Nat := v % 2 ^ (F.expBits + F.fraction)

/-- Where a number that is not NaN stands in the order of all numbers (`-0` and `0` at the same place). -/
def FloatFormat.place (F : FloatFormat) (v : Nat) : Int :=
  if v < 2 ^ (F.expBits + F.fraction) then F.magnitude v else -(F.magnitude v : Int)

/-- `a <= b` (IEEE 754): false if one of them is NaN. -/
def floatLe (F : FloatFormat) (a b : Nat) : Bool :=
  decide (F.magnitude a ≤ F.infinity) && decide (F.magnitude b ≤ F.infinity) && decide (F.place a ≤ F.place b)

/-- `arithmetic_range_validator<F>{min, max}` at an option of the same type, validators.hpp lines 104-108 and 119-130, as called by the parser with
the content of the variable. Other contents do not occur. -/
def floatRange {W : Type} (F : FloatFormat) (min max : Nat) : Val → W → Bool × W := fun x w =>
  let inside (cmp : Nat) : Bool := !(!(floatLe F cmp max && floatLe F min cmp))
  match x with
  | .one (.other v) => (inside v, w)
  | .many es => (es.all fun | .other v => inside v | _ => true, w)
  | _ => (true, w)

/-- The type of an option that holds a floating point number. -/
def FloatFormat.elemTy (F : FloatFormat) : ElemTy := .foreign true (floatConv F)

/-! ### Subtraction -/

/-- The number without its sign as a multiple of the smallest one. -/
def FloatFormat.units (F : FloatFormat) (n : Nat) : Nat :=
  if n / 2 ^ F.fraction = 0 then n % 2 ^ F.fraction else (2 ^ F.fraction + n % 2 ^ F.fraction) * 2 ^ (n / 2 ^ F.fraction - 1)

/-- A finite number as a multiple of the smallest one. -/
def FloatFormat.multiple (F : FloatFormat) (v : Nat) : Int :=
  if v < 2 ^ (F.expBits + F.fraction) then F.units (F.magnitude v) else -(F.units (F.magnitude v) : Int)

/-- `a - b` (IEEE 754, rounded to nearest): NaN if one of them is NaN or both are the same infinity; an infinity stays; the difference of finite numbers
is rounded. Simplification: a difference of 0 is always `+0`. -/
def floatMinus (F : FloatFormat) (a b : Nat) : Nat :=
  if F.infinity < F.magnitude a ∨ F.infinity < F.magnitude b then F.nan
  else if F.magnitude a = F.infinity then (if a = b then F.nan else a)
  else if F.magnitude b = F.infinity then F.signBit (decide (b < 2 ^ (F.expBits + F.fraction))) + F.infinity
  else
    let d := F.multiple a - F.multiple b
    F.signBit (decide (d < 0)) + min F.infinity (roundPattern F d.natAbs (2 ^ F.minExp))

/-- `a < b` (IEEE 754): false if one of them is NaN. -/
def floatLt (F : FloatFormat) (a b : Nat) : Bool :=
  decide (F.magnitude a ≤ F.infinity) && decide (F.magnitude b ≤ F.infinity) && decide (F.place a < F.place b)

end Sharg
