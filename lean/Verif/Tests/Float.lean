import Verif.Model.Float
import Verif.Tests.Parse

/-!
# `test/unit/std/charconv_float_test.cpp`, and the tests with `double` of `test/unit/parser/format_parse_test.cpp`

The expected numbers are those of Lean's `Float` and `Float32`, which are the hardware's numbers.
-/

namespace Sharg.Tests

/-- `from_chars` gives the number and stops in front of `rest`, for `float` and `double`. -/
def reads (text : String) (value : Float) (value32 : Float32) (rest : String) : Bool :=
  fromCharsFloat binary64 text.toList = .ok value.toBits.toNat rest.toList &&
  fromCharsFloat binary32 text.toList = .ok value32.toBits.toNat rest.toList

def readsNan (text : String) : Bool :=
  fromCharsFloat binary64 text.toList = .ok binary64.nan [] && fromCharsFloat binary32 text.toList = .ok binary32.nan []

-- Test `real_numbers`.
#guard reads "1234" 1234 1234 ""
#guard reads "1.2e3" 1200 1200 ""
#guard reads "1.2e-3" 0.0012 0.0012 ""
#guard reads "1.e2" 100 100 ""
#guard reads "1." 1 1 ""
#guard reads ".2e3" 200 200 ""
#guard reads "2e3" 2000 2000 ""
#guard reads "2" 2 2 ""
#guard reads "4em" 4 4 "em"
#guard reads "-1.2e3" (-1200) (-1200) ""
#guard reads "-.3" (-0.3) (-0.3) ""
#guard reads "1.2e" 1.2 1.2 "e"
#guard reads "0.0" 0 0 ""
#guard reads "3.19" 3.19 3.19 ""
#guard reads "3.19abc" 3.19 3.19 "abc"

-- Test `infinity_value`.
#guard reads "inf" (1 / 0) (1 / 0) ""
#guard reads "infinity" (1 / 0) (1 / 0) ""
#guard reads "INF" (1 / 0) (1 / 0) ""
#guard reads "INFINITY" (1 / 0) (1 / 0) ""

-- Test `nan_value`.
#guard readsNan "nan"
#guard readsNan "NAN"
#guard readsNan "nan(abc)"
#guard readsNan "NAN(abc)"

-- Test `non_valid_strings`.
#guard fromCharsFloat binary64 "e3".toList = .invalid
#guard fromCharsFloat binary64 "+1.2e3".toList = .invalid

/-- A `double`. -/
def d (x : Float) : Val := .one (.other x.toBits.toNat)

-- Test `parse_success_double_option`.
#guard succeeds ["-d", "6.0221418e23"] [opt 'd' "" 0 binary64.elemTy] [d 0, d 0] [d 6.0221418e23, d 0]
#guard succeeds ["-d", "12.457", "0.123"] [opt 'd' "" 0 binary64.elemTy, pos 1 binary64.elemTy] [d 0, d 0] [d 12.457, d 0.123]

-- Test `parse_error_double_option`.
#guard fails ["-i", "abc"] [opt 'd' "" 0 binary64.elemTy] [d 0] .unknownOption [d 0]
#guard fails ["-d", "12.457a"] [opt 'd' "" 0 binary64.elemTy] [d 0] .userInputError [d 12.457]

end Sharg.Tests
