import Verif.Model.Value

/-!
# Validators that do not look at the file system

Models `include/sharg/validators.hpp` lines 58-268 and 960-1183. The file validators are in `Model/Files.lean`.
-/

namespace Sharg

/-- `sharg::validator` (validators.hpp lines 46-56): a function object that returns or throws, and the text
it adds to the help page. `W` is the world outside the parser, which a validator may read and change. -/
structure Validator (W α : Type) where
  run : α → M W Unit
  help : Str

/-- An arithmetic type: an integer type other than `bool` given by its limits, or a floating point type. -/
inductive NumTy where
  | integer (lo hi : Int)
  | real
  deriving DecidableEq, Repr

/-- A number. Simplification: a floating point number is a rational number, without infinities and NaN. -/
inductive Num where
  | int (i : Int)
  | real (q : Rat)
  deriving DecidableEq, Repr

/-- Discards the fractional part ([conv.fpint]). -/
def truncate (q : Rat) : Int := if q < 0 then q.ceil else q.floor

/-- The implicit conversion of an argument to `option_value_type const &` when `operator()` is called with
another arithmetic type: `std::invocable<validator_type, option_type>` (parser.hpp lines 240, 324) admits it.
Integer to integer is modulo 2^n ([conv.integral]); floating point to integer truncates and is undefined
outside the range of the target ([conv.fpint]); simplification: a floating point target represents every value. -/
def convertNum (ty : NumTy) (v : Num) : Except Exn Num :=
  match ty, v with
  | .integer lo hi, .int i => .ok (.int (lo + (i - lo) % (hi - lo + 1)))
  | .integer lo hi, .real q =>
    if truncate q < lo ∨ hi < truncate q then .error .undefinedBehaviour else .ok (.int (truncate q))
  | .real, .int i => .ok (.real i)
  | .real, .real q => .ok (.real q)

/-- `<=` on two numbers of the same type. -/
def Num.le : Num → Num → Bool
  | .int a, .int b => decide (a ≤ b)
  | .real a, .real b => decide (a ≤ b)
  | .int a, .real b => decide ((a : Rat) ≤ b)
  | .real a, .int b => decide (a ≤ (b : Rat))

/-- `arithmetic_range_validator<ty>{min, max}`, validators.hpp lines 76-150, on a single value (lines 104-108).
`show_` is `std::to_string` of the two bounds (lines 89-93). -/
def arithmeticRange {W : Type} (ty : NumTy) (show_ : Num → Str) (min max : Num) : Validator W Num where
  run v :=
    match convertNum ty v with
    | .error e => M.throw e
    | .ok cmp => if !(cmp.le max && min.le cmp) then M.throw .validationError else M.pure ()
  help := "Value must be in range ".toList ++ ("[".toList ++ show_ min ++ ",".toList ++ show_ max ++ "]".toList) ++ ".".toList

/-- The overload for ranges of `arithmetic_range_validator` (validators.hpp lines 119-130),
`value_list_validator` (lines 242-254), `file_validator_base` (lines 349-360) and `regex_validator`
(lines 1013-1022): every element in order. -/
def Validator.each {W α : Type} (v : Validator W α) : Validator W (List α) where
  run l := M.forEach v.run l
  help := v.help

/-- `value_list_validator`, validators.hpp lines 173-268, on a single value (lines 228-232). `conv` is the
implicit conversion of the argument to `option_value_type const &`, `help` the text of lines 260-263. -/
def valueList {W α β : Type} [DecidableEq α] (conv : β → α) (help : Str) (values : List α) : Validator W β where
  run v := if conv v ∈ values then M.pure () else M.throw .validationError
  help := help

/-- `regex_validator`, validators.hpp lines 975-1040. Simplification: `std::regex_match` with the pattern is an
arbitrary predicate, and the pattern is valid. -/
def regexValidator {W : Type} (pattern : Str) (isMatch : Str → Bool) : Validator W Str where
  run v := if !isMatch v then M.throw .validationError else M.pure ()
  help := "Value must match the pattern '".toList ++ pattern ++ "'.".toList

/-- `detail::default_validator`, validators.hpp lines 1053-1068. -/
def defaultValidator {W α : Type} : Validator W α where
  run _ := M.pure ()
  help := []

/-- `detail::validator_chain_adaptor`, validators.hpp lines 1082-1143, made by `operator|` (lines 1176-1182). -/
def Validator.chain {W α : Type} (v₁ v₂ : Validator W α) : Validator W α where
  run cmp := M.bind (v₁.run cmp) fun _ => v₂.run cmp
  help := v₁.help ++ " ".toList ++ v₂.help

/-- What the parser sees of a validator: `get_option` and `get_positional_option` turn every exception into
`validation_error` (format_parse.hpp lines 690-697, 793-801). Simplification: this also swallows undefined
behaviour of the validator; the properties of `parse` that use it are about validators without it. -/
def Validator.inParser {W α : Type} (v : Validator W α) : α → W → Bool × W := fun x w =>
  match v.run x w with
  | .ok _ w' => (true, w')
  | .err _ w' => (false, w')

/-- A validator for numbers at an option or positional option of integer type (scalar or list), as called by the
parser with the content of the variable. Other contents do not occur. -/
def Validator.onIntegers {W : Type} (v : Validator W Num) : Val → W → Bool × W := fun x w =>
  match x with
  | .one (.int i) => v.inParser (.int i) w
  | .many es => v.each.inParser (es.filterMap fun | .int i => some (.int i) | _ => none) w
  | _ => (true, w)

end Sharg
