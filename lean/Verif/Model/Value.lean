import Verif.Model.Base

/-!
# Values of user variables and their conversion from command line text

Models `parse_option_value` and `throw_on_input_error` of `include/sharg/detail/format_parse.hpp`.
-/

namespace Sharg

/-- Identity of a user variable (a C++ lvalue bound by reference in `add_option` etc.). -/
abbrev VarId := Nat

/-- A value of a non-list type. `enumv` is an enumerator (by number), `other` a value of a type the model
does not look into (floating point, user types with `operator>>`). -/
inductive Elem where
  | str (s : Str)
  | bool (b : Bool)
  | int (i : Int)
  | enumv (tag : Int)
  | other (n : Nat)
  deriving DecidableEq, Repr

/-- Content of a user variable: a scalar or a container. -/
inductive Val where
  | one (e : Elem)
  | many (es : List Elem)
  deriving DecidableEq, Repr

/-- The user's variables. -/
abbrev Store := VarId → Val

/-- Assignment to a variable. -/
def Store.set (st : Store) (x : VarId) (v : Val) : Store := fun y => if y = x then v else st y

/-- format_parse.hpp lines 200-206 (`option_parse_result`). -/
inductive ParseRes where
  | success
  | error
  | overflowError
  deriving DecidableEq, Repr

/-- What converting a text to a type the model does not look into yields: the value; failure, with the value
that was nevertheless written to the variable, if any; or (floating point only) `errc::result_out_of_range`. -/
inductive Conv where
  | ok (e : Elem)
  | fail (written : Option Elem)
  | overflow
  deriving DecidableEq, Repr

/-- The (element) type of an option.
* `integer lo hi`: any integer type (also `char`), given by `std::numeric_limits`; signed iff `lo < 0`.
* `enumeration names`: `sharg::enumeration_names<T>`; a map, so the first entry of a name counts.
* `foreign arith conv`: floating point (`arith = true`, `std::from_chars`) and types read with `operator>>`
  (`arith = false`). `conv` is arbitrary. Simplification: `conv` cannot read the old content of the variable. -/
inductive ElemTy where
  | string
  | boolean
  | integer (lo hi : Int)
  | enumeration (names : List (Str × Int))
  | foreign (arith : Bool) (conv : Str → Conv)

/-- `std::is_arithmetic_v` (used at format_parse.hpp line 461). -/
def ElemTy.isArithmetic : ElemTy → Bool
  | .boolean => true
  | .integer _ _ => true
  | .foreign arith _ => arith
  | _ => false

/-- Value initialisation `T{}` (format_parse.hpp line 380, `value_type tmp{}`). -/
def ElemTy.init : ElemTy → Elem
  | .string => .str []
  | .boolean => .bool false
  | .integer _ _ => .int 0
  | .enumeration _ => .enumv 0
  | .foreign _ _ => .other 0

/-- Decimal digit. -/
def isDigit (c : Char) : Bool := decide ('0'.toNat ≤ c.toNat ∧ c.toNat ≤ '9'.toNat)

/-- Value of a decimal digit. -/
def digitVal (c : Char) : Nat := c.toNat - '0'.toNat

/-- Value of a digit string, most significant digit first. -/
def digitsVal (ds : Str) : Nat := ds.foldl (fun acc c => 10 * acc + digitVal c) 0

/-- Outcome of `std::from_chars`. -/
inductive FromChars where
  | invalid
  | outOfRange
  | ok (v : Int) (rest : Str)
  deriving DecidableEq, Repr

/-- `std::from_chars(first, last, value)` for an integer type with limits `lo`, `hi`, base 10, as specified in
[charconv.from.chars]: optional `-` (signed types only), then a maximal non-empty run of digits; out of range
leaves the value unmodified; `rest` is `[ptr, last)`. Called at format_parse.hpp line 405 and
version_check.hpp lines 483-485. -/
def fromChars (lo hi : Int) (s : Str) : FromChars :=
  let neg : Bool := decide (lo < 0) && (s.head? == some '-')
  let body : Str := if neg then s.tail else s
  let ds := body.takeWhile isDigit
  let rest := body.dropWhile isDigit
  if ds = [] then .invalid
  else
    let v : Int := if neg then - (digitsVal ds : Int) else (digitsVal ds : Int)
    if v < lo ∨ hi < v then .outOfRange else .ok v rest

/-- `parse_option_value` for arithmetic types, format_parse.hpp lines 401-413. The value is written by
`from_chars` even if unparsed characters remain (then the result is `error`). -/
def parseInteger (lo hi : Int) (s : Str) : ParseRes × Option Elem :=
  match fromChars lo hi s with
  | .outOfRange => (.overflowError, none)
  | .invalid => (.error, none)
  | .ok v rest => if rest = [] then (.success, some (.int v)) else (.error, some (.int v))

/-- `parse_option_value(bool &)`, format_parse.hpp lines 425-439. -/
def parseBool (s : Str) : ParseRes × Option Elem :=
  if s = ['0'] then (.success, some (.bool false))
  else if s = ['1'] then (.success, some (.bool true))
  else if s = ['t', 'r', 'u', 'e'] then (.success, some (.bool true))
  else if s = ['f', 'a', 'l', 's', 'e'] then (.success, some (.bool false))
  else (.error, none)

/-- `parse_option_value` for named enumerations, format_parse.hpp lines 308-347. If the name is unknown the
list of names is formatted first; with an empty table the text is only `"["`, so that
`result.replace(result.size() - 2, 2, "]")` (line 335) is called with a position behind the end and throws
`std::out_of_range` instead of the intended `user_input_error`. -/
def parseEnum (names : List (Str × Int)) (s : Str) : Except Exn (ParseRes × Option Elem) :=
  match names.lookup s with
  | some tag => .ok (.success, some (.enumv tag))
  | none => if names.isEmpty then .error .outOfRange else .error .userInputError

/-- `parse_option_value` for floating point types (format_parse.hpp lines 401-413) and for types read with
`operator>>` (lines 288-298, never an overflow). -/
def parseForeign (arith : Bool) (conv : Str → Conv) (s : Str) : ParseRes × Option Elem :=
  match conv s with
  | .ok e => (.success, some e)
  | .fail w => (.error, w)
  | .overflow => (if arith then .overflowError else .error, none)

/-- The overload set `parse_option_value` for scalar types (format_parse.hpp lines 288-439): parse result and
the value written to the variable, if any; `Except.error` if the function throws. -/
def parseElem (ty : ElemTy) (s : Str) : Except Exn (ParseRes × Option Elem) :=
  match ty with
  | .string => .ok (.success, some (.str s))
  | .boolean => .ok (parseBool s)
  | .integer lo hi => .ok (parseInteger lo hi s)
  | .enumeration names => parseEnum names s
  | .foreign arith conv => .ok (parseForeign arith conv s)

/-- `throw_on_input_error<option_type>`, format_parse.hpp lines 448-472. `arith` is
`std::is_arithmetic_v<option_type>` (false for containers), `ndebug` tells whether the final
`assert(res == success)` is compiled away. `none`: returns normally. -/
def throwOnInputError (ndebug arith : Bool) (res : ParseRes) : Option Exn :=
  match res with
  | .error => some .userInputError
  | .overflowError => if arith then some .userInputError else if ndebug then none else some .assertFailed
  | .success => none

end Sharg
