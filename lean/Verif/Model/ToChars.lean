import Verif.Model.Charconv
import Verif.Model.Text

/-!
# The replacement of `std::to_chars` for floating point numbers

Models `to_chars_floating_point` and `to_chars` of `include/sharg/std/charconv` (lines 48-68 and 186-194). The parser does not call them; they
are put into namespace `std` for the users of the header.
-/

namespace Sharg

/-- `std::to_chars_result` with the content of the buffer: `ptr - first` and whether `ec` is `value_too_large`. -/
structure ToChars where
  buffer : Str
  used : Nat
  tooLarge : Bool
  deriving DecidableEq, Repr

/-- `to_chars_floating_point(first, last, value)`, lines 51-68, with the buffer `[first, last)`; `show` is `operator<<` of a fresh stream.
Simplification: the two assertions on null pointers are left out (a list is never null). -/
def shimToChars {V : Type} (show' : V → Str) (buffer : Str) (v : V) : ToChars :=
  let str := show' v
  if buffer.length < str.length then ⟨buffer, buffer.length, true⟩
  else ⟨str ++ buffer.drop str.length, str.length, false⟩

/-- The exponent of a number in scientific notation. -/
def decExp (n : Nat) : Nat := if h : n < 10 then 0 else decExp (n / 10) + 1
termination_by n

/-- Without the zeros at the end. -/
def dropZeros (s : Str) : Str := (s.reverse.dropWhile (· = '0')).reverse

/-- `stream << x` for a floating point number `x` whose value is the natural number `n`, with the default settings of a stream: as by `%g`,
six significant digits, rounded to nearest (ties to even), no zeros at the end, an exponent of at least two digits. -/
def streamFloat (n : Nat) : Str :=
  if n < 10 ^ 6 then showNat n
  else
    let e := decExp n
    let unit := 10 ^ (e - 5)
    let q := n / unit
    let r := n % unit
    let m := if 2 * r < unit ∨ (2 * r = unit ∧ q % 2 = 0) then q else q + 1
    let m' := if m = 10 ^ 6 then 10 ^ 5 else m
    let e' := if m = 10 ^ 6 then e + 1 else e
    let digits := showNat m'
    let frac := dropZeros digits.tail
    digits.take 1 ++ (if frac = [] then [] else '.' :: frac) ++ "e+".toList ++ (if e' < 10 then ['0'] else []) ++ showNat e'

end Sharg
