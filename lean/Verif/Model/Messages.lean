import Verif.Model.Files
import Verif.Model.Text
import Verif.Model.Validators

/-!
# Texts of validators on the help page

Models the functions `get_help_page_message` of `include/sharg/validators.hpp` whose text depends on the constructor
arguments. (The other texts are in `Model/Validators.lean` and `Model/Files.lean`.)
-/

namespace Sharg

/-- `value_list_validator::get_help_page_message`, validators.hpp lines 260-263; `shown` are the values as
`detail::to_string` writes them. -/
def valueListMessage (shown : List Str) : Str := "Value must be one of ".toList ++ showList shown ++ ".".toList

/-- `valid_extensions_help_page_message`, validators.hpp lines 462-468, with `extensions_str` (lines 540-546, 661-668). -/
def extensionsMessage (extensions : List Str) : Str :=
  if extensions.isEmpty then [] else "Valid file extensions are: ".toList ++ showList extensions ++ ".".toList

/-- A text, and behind it the extensions if there are any. -/
def withExtensions (t : Str) (extensions : List Str) : Str :=
  t ++ (if (extensionsMessage extensions).isEmpty then [] else " ".toList) ++ extensionsMessage extensions

/-- `input_file_validator::get_help_page_message`, validators.hpp lines 592-597. -/
def inputFileMessage (extensions : List Str) : Str :=
  withExtensions "The input file must exist and read permissions must be granted.".toList extensions

/-- `output_file_validator::get_help_page_message`, validators.hpp lines 753-767. -/
def outputFileMessage (mode : OpenMode) (extensions : List Str) : Str :=
  match mode with
  | .openOrCreate => withExtensions "Write permissions must be granted.".toList extensions
  | .createNew =>
    withExtensions "The output file must not exist already and write permissions must be granted.".toList extensions

/-- `std::to_string` of a number: integers in decimal, floating point numbers with six digits behind the point (`%f`). Simplification: a number
in the middle of two texts is rounded away from zero. -/
def toStringNum : Num → Str
  | .int i => showInt i
  | .real q =>
    let n := (2 * q.num.natAbs * 1000000 + q.den) / (2 * q.den)
    let frac := showNat (n % 1000000)
    (if q < 0 then "-".toList else []) ++ showNat (n / 1000000) ++ ".".toList ++ List.replicate (6 - frac.length) '0' ++ frac

end Sharg
