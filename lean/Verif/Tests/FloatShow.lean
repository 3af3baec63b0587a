import Verif.Model.FloatShow

/-!
# Numbers as a stream writes them

The expected texts are those of `printf("%g")`.
-/

namespace Sharg.Tests

def shows (x : Float) (text : String) : Bool := floatText binary64 x.toBits.toNat = text.toList

def shows32 (x : Float32) (text : String) : Bool := floatText binary32 x.toBits.toNat = text.toList

#guard shows 0 "0"
#guard shows (-0.0) "-0"
#guard shows 1 "1"
#guard shows 10 "10"
#guard shows 123456 "123456"
#guard shows 1234567 "1.23457e+06"
#guard shows 1e6 "1e+06"
#guard shows 999999.5 "1e+06"
#guard shows 999999.4 "999999"
#guard shows 0.5 "0.5"
#guard shows 0.1 "0.1"
#guard shows 6.0221418e23 "6.02214e+23"
#guard shows 12.457 "12.457"
#guard shows 0.0001 "0.0001"
#guard shows 0.00001 "1e-05"
#guard shows 0.000123456789 "0.000123457"
#guard shows 0.0000999999 "9.99999e-05"
#guard shows 0.00009999999 "0.0001"
#guard shows (-2.5) "-2.5"
#guard shows 1e100 "1e+100"
#guard shows 1.7976931348623157e308 "1.79769e+308"
#guard shows 5e-324 "4.94066e-324"
#guard shows 2.2250738585072014e-308 "2.22507e-308"
#guard shows 1234565 "1.23456e+06"
#guard shows 1234575 "1.23458e+06"
#guard shows (1 / 0) "inf"
#guard shows (-1 / 0) "-inf"
#guard shows32 0.1 "0.1"
#guard shows32 3.4028235e38 "3.40282e+38"
#guard shows32 16777216 "1.67772e+07"
#guard shows32 1e-45 "1.4013e-45"

end Sharg.Tests
