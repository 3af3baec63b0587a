import Verif.Model.ErrorTexts
import Verif.Model.Float
import Verif.Model.PathValue

/-!
# Names of types

The C++ types of option variables (or of their elements, for lists): what the program calls them on pages and in messages
(`get_type_name_as_string`, `include/sharg/detail/format_base.hpp` lines 33-83), and which of the model's descriptions of types they have.

Simplifications: integer types as on 64-bit Linux (`int` is `int32_t`, `long` is `int64_t`, `signed char` is `int8_t`, `char` is signed). Types the
function does not know get the name that `abi::__cxa_demangle` returns (`include/sharg/detail/type_name_as_string.hpp` lines 39-81); that name is a
part of the type here.
-/

namespace Sharg

inductive CppType where
  | int8 | uint8 | int16 | uint16 | int32 | uint32 | int64 | uint64
  | longLong | unsignedLongLong
  | double | float
  | bool
  | char
  | string
  | path
  | enumeration (demangled : Str) (names : List (Str × Int))
  | other (demangled : Str) (arith : Bool) (conv : Str → Conv)

/-- `get_type_name_as_string(value)`, format_base.hpp lines 37-72. -/
def CppType.name : CppType → Str
  | .int8 => "signed 8 bit integer".toList
  | .uint8 => "unsigned 8 bit integer".toList
  | .int16 => "signed 16 bit integer".toList
  | .uint16 => "unsigned 16 bit integer".toList
  | .int32 => "signed 32 bit integer".toList
  | .uint32 => "unsigned 32 bit integer".toList
  | .int64 => "signed 64 bit integer".toList
  | .uint64 => "unsigned 64 bit integer".toList
  | .double => "double".toList
  | .float => "float".toList
  | .bool => "bool".toList
  | .char => "char".toList
  | .string => "std::string".toList
  | .path => "std::filesystem::path".toList
  | .longLong => "long long".toList
  | .unsignedLongLong => "unsigned long long".toList
  | .enumeration demangled _ => demangled
  | .other demangled _ _ => demangled

/-- What the parser does with the type: the overloads of `parse_option_value`, format_parse.hpp lines 287-445 (a constrained overload for arithmetic
types wins against the one for `operator>>`, those for `bool` and `std::string` against both), with the limits of `std::numeric_limits`. -/
def CppType.elem : CppType → ElemTy
  | .int8 => .integer (-128) 127
  | .uint8 => .integer 0 255
  | .int16 => .integer (-32768) 32767
  | .uint16 => .integer 0 65535
  | .int32 => .integer (-2147483648) 2147483647
  | .uint32 => .integer 0 4294967295
  | .int64 => .integer (-9223372036854775808) 9223372036854775807
  | .uint64 => .integer 0 18446744073709551615
  | .longLong => .integer (-9223372036854775808) 9223372036854775807
  | .unsignedLongLong => .integer 0 18446744073709551615
  | .double => binary64.elemTy
  | .float => binary32.elemTy
  | .bool => .boolean
  | .char => .integer (-128) 127
  | .string => .string
  | .path => pathTy
  | .enumeration _ names => .enumeration names
  | .other _ arith conv => .foreign arith conv

/-- How `operator<<` and `to_string` print the values of integer types (to_string.hpp lines 66-73). -/
def CppType.kind : CppType → IntKind
  | .char => .character
  | .int8 => .byte
  | .uint8 => .byte
  | _ => .wide

/-- The pages and messages of a program in which the type is used. (The environments of the model are functions of `ElemTy`: programs that use both
`char` and `int8_t` are not described by one of them.) -/
structure CppType.Describes (t : CppType) (te : TypeEnv) (wd : Wording) : Prop where
  page : te.typeName t.elem = t.name
  /-- format_base.hpp lines 79-83: for a list the name of the elements -/
  message : ∀ isList, wd.typeName isList t.elem = t.name
  kind : te.kind t.elem = t.kind

end Sharg
