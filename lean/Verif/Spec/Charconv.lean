import Verif.Model.Charconv

/-!
# Specification of `std::from_chars` for floating point numbers

[charconv.from.chars] describes the accepted pattern by that of `strtod`, with differences; so does this specification, in which the C library
function is a parameter.
-/

namespace Sharg.Spec

open Sharg

/-- White space in the "C" locale. -/
def IsBlank (c : Char) : Prop := c = ' ' ∨ ('\t' ≤ c ∧ c ≤ '\r')

instance (c : Char) : Decidable (IsBlank c) := inferInstanceAs (Decidable (_ ∨ _))

/-- The text starts with a hexadecimal number with prefix. -/
def HexPrefix (s : Str) : Prop :=
  ∃ rest, s = '0' :: 'x' :: rest ∨ s = '0' :: 'X' :: rest ∨ s = '-' :: '0' :: 'x' :: rest ∨ s = '-' :: '0' :: 'X' :: rest

/-- A text that `std::from_chars` (general format) and `strtod` read alike: no white space and no plus sign in front, no hexadecimal prefix,
no NUL. -/
def ReadAlike (s : Str) : Prop := (∀ c ∈ s.head?, ¬ IsBlank c ∧ c ≠ '+') ∧ ¬ HexPrefix s ∧ '\x00' ∉ s

/-- What `std::from_chars` gives for such a text. -/
def stdFromChars {V : Type} (T : FloatType V) (s : Str) : ShimResult V :=
  if (T.strto s).length = 0 then .invalid 0
  else if (T.strto s).range = true then .outOfRange (T.strto s).length
  else .ok (T.strto s).value (T.strto s).length

/-- The C library function reads at most the whole text, and if it reads nothing, then it returns 0 and leaves `errno` alone. -/
structure StrtoContract {V : Type} (T : FloatType V) : Prop where
  length : ∀ s, (T.strto s).length ≤ s.length
  nothing : ∀ s, (T.strto s).length = 0 → T.isZero (T.viaFloat (T.strto s).value) = true ∧ (T.strto s).range = false

end Sharg.Spec
