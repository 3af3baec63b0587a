import Verif.Model.Value

/-!
# The replacement of `std::from_chars` for floating point numbers

Models `from_chars_floating_point` of `include/sharg/std/charconv` (lines 70-176), which is used with standard libraries that lack the function
(`__cpp_lib_to_chars` is not defined, e.g. libc++), and its use in `parse_option_value` (`include/sharg/detail/format_parse.hpp` lines 401-413)
and `get_time_diff_to_current` (`include/sharg/detail/version_check.hpp` lines 462-471).

`strtof`, `strtod`, `strtold` of the C library are an arbitrary function of the text before the first NUL. Simplification: the locale is "C".
-/

namespace Sharg

/-- The result of `strtof`, `strtod` or `strtold`: the value, how many characters were read, and whether `errno` was set to `ERANGE` (it is
not reset otherwise). -/
structure Strto (V : Type) where
  value : V
  length : Nat
  range : Bool
  deriving DecidableEq, Repr

/-- A floating point type with values `V`: the C library function for it; the conversion to `float` and back (`float tmp`, line 90, and
`value = tmp`, line 174); comparison with 0. -/
structure FloatType (V : Type) where
  strto : Str → Strto V
  viaFloat : V → V
  isZero : V → Bool

/-- `std::chars_format`. -/
inductive CharsFormat where
  | general
  | scientific
  | fixed
  | hex
  deriving DecidableEq, Repr

/-- `std::from_chars_result` together with the value written: `used` is `ptr - first`. `undefined` is undefined behaviour. -/
inductive ShimResult (V : Type) where
  | ok (v : V) (used : Nat)
  | invalid (used : Nat)
  | outOfRange (used : Nat)
  | undefined
  deriving DecidableEq, Repr

/-- The text that the C library function gets, lines 113-145. `next` is `*last`. The buffer has 100 characters; writing behind its end is
undefined behaviour (`none`). In the hexadecimal format `0x` is put in front, but the terminating NUL is written as if it was not there. -/
def shimText (fmt : CharsFormat) (next : Char) (s : Str) : Option Str :=
  if next ≠ '\x00' ∨ fmt = .hex then
    let pre : Str := if fmt = .hex then ['0', 'x'] else []
    let stop := min (100 - pre.length) s.length
    if 100 < pre.length + s.length ∨ 100 ≤ stop then none
    else some (((pre ++ s).take stop).takeWhile (· ≠ '\x00'))
  else some (s.takeWhile (· ≠ '\x00'))

/-- `from_chars_floating_point(first, last, value, fmt)`, lines 70-176, for the text `s` in `[first, last)` followed by `next`; `errno` tells
whether `errno == ERANGE` before the call, the second component whether it is so after the call. -/
def shimFromChars {V : Type} (T : FloatType V) (fmt : CharsFormat) (next : Char) (s : Str) (errno : Bool) : ShimResult V × Bool :=
  if s.headD next = '+' then (.invalid s.length, errno)
  else if fmt = .scientific ∧ ¬ (s.any fun c => c = 'e' ∨ c = 'E') then (.invalid s.length, errno)
  else if fmt = .fixed ∧ (s.any fun c => c = 'e' ∨ c = 'E') then (.invalid s.length, errno)
  else
    match shimText fmt next s with
    | none => (.undefined, errno)
    | some text =>
      let r := T.strto text
      if errno || r.range then (.outOfRange r.length, true)
      else if T.isZero (T.viaFloat r.value) ∧ r.length = 0 then (.invalid r.length, false)
      else (.ok (T.viaFloat r.value) r.length, false)

/-- `parse_option_value` for floating point types, format_parse.hpp lines 401-413: the result, the value written if any, and `errno`. The text
is a `std::string`, so that it is followed by NUL. (There is no undefined behaviour in this use, see `shimOption_defined`.) -/
def shimOption {V : Type} (T : FloatType V) (s : Str) (errno : Bool) : ParseRes × Option V × Bool :=
  match shimFromChars T .general '\x00' s errno with
  | (.ok v n, e) => (if n = s.length then .success else .error, some v, e)
  | (.invalid _, e) => (.error, none, e)
  | (.outOfRange _, e) => (.overflowError, none, e)
  | (.undefined, e) => (.error, none, e)

/-- Conversions one after the other in one process; `errno` is kept. -/
def shimOptions {V : Type} (T : FloatType V) : List Str → Bool → List (ParseRes × Option V)
  | [], _ => []
  | s :: ss, errno =>
    let r := shimOption T s errno
    (r.1, r.2.1) :: shimOptions T ss r.2.2

/-- Rounding of a natural number to `float`: 24 significant bits, to nearest, ties to even. Simplification: numbers of `2^128` and more,
which `float` does not represent, are rounded in the same way. -/
def roundToFloat (n : Nat) : Nat :=
  if n < 2 ^ 24 then n
  else
    let unit := 2 ^ (n.log2 - 23)
    let q := n / unit
    let r := n % unit
    if 2 * r < unit ∨ (2 * r = unit ∧ q % 2 = 0) then q * unit else (q + 1) * unit

/-- `strtod` for texts of at most 15 decimal digits, which `double` represents exactly; any other text is not read. Only for examples. -/
def strtodDigits (s : Str) : Strto Nat :=
  let ds := s.takeWhile isDigit
  if ds.length ≤ 15 then ⟨digitsVal ds, ds.length, false⟩ else ⟨0, 0, true⟩

/-- The type `double`, as far as `strtodDigits` goes. -/
def doubleDigits : FloatType Nat := ⟨strtodDigits, roundToFloat, fun n => n == 0⟩

/-- `get_time_diff_to_current(line) < 86400`, version_check.hpp lines 462-471, with the replacement, for a line of digits (below `2^53`) when
`errno` is not `ERANGE`: the difference of the two numbers is exact in `double`. -/
def youngerThanDayShim (line : Str) (now : Nat) : Bool := decide (now < roundToFloat (digitsVal line) + 86400)

end Sharg
