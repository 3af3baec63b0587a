import Verif.Model.Float
import Verif.Model.ToChars

/-!
# `operator<<` for floating point numbers

The help page (`include/sharg/detail/format_base.hpp` lines 196-238, `include/sharg/detail/to_string.hpp` lines 66-73) and the replacement of
`std::to_chars` (`include/sharg/std/charconv` lines 51-68) write floating point numbers with `operator<<` on a fresh stream. That is `%g` of `printf`
([facet.num.put.virtuals]): six significant digits, rounded to nearest (ties to even), without zeros at the end; with an exponent if it is below -4
or above 5.
-/

namespace Sharg

/-- The number with the bit pattern `n` (without sign), as a multiple of `10^-minExp`. Since `2^-k = 5^k * 10^-k` every number of the type is one. -/
def FloatFormat.decimal (F : FloatFormat) (n : Nat) : Nat :=
  (if n / 2 ^ F.fraction = 0 then n % 2 ^ F.fraction
   else (2 ^ F.fraction + n % 2 ^ F.fraction) * 2 ^ (n / 2 ^ F.fraction - 1)) * 5 ^ F.minExp

/-- The number `n` rounded to six digits: `m * 10^(e - 5)`. -/
def sixDigits (n : Nat) : Nat × Nat :=
  let e := decExp n
  let q := n * 10 ^ 5 / 10 ^ e
  let r := n * 10 ^ 5 % 10 ^ e
  let m := if 2 * r < 10 ^ e ∨ (2 * r = 10 ^ e ∧ q % 2 = 0) then q else q + 1
  if m = 10 ^ 6 then (10 ^ 5, e + 1) else (m, e)

/-- Digits with a point; zeros at the end are dropped, and the point if no digit is behind it. -/
def pointText (int frac : Str) : Str := int ++ if dropZeros frac = [] then [] else '.' :: dropZeros frac

/-- The text of `m * 10^(x - 5)` for a number `m` of six digits. -/
def generalText (m : Nat) (x : Int) : Str :=
  let ds := showNat m
  if -4 ≤ x ∧ x < 6 then
    if 0 ≤ x then pointText (ds.take (x.toNat + 1)) (ds.drop (x.toNat + 1))
    else pointText ['0'] (List.replicate (x.natAbs - 1) '0' ++ ds)
  else
    pointText (ds.take 1) (ds.drop 1) ++ 'e' :: (if x < 0 then '-' else '+') ::
      ((if x.natAbs < 10 then ['0'] else []) ++ showNat x.natAbs)

/-- `stream << x` for the floating point number `x` with the bit pattern `v`. -/
def floatText (F : FloatFormat) (v : Nat) : Str :=
  let n := F.magnitude v
  (if 2 ^ (F.expBits + F.fraction) ≤ v then ['-'] else []) ++
    if F.infinity < n then "nan".toList
    else if n = F.infinity then "inf".toList
    else if n = 0 then ['0']
    else generalText (sixDigits (F.decimal n)).1 ((sixDigits (F.decimal n)).2 - F.minExp)

end Sharg
