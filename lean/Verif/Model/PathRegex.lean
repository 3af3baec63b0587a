import Verif.Model.Validators
import Verif.Model.PathValue

/-!
# `regex_validator` at options that hold texts or paths

`regex_validator` (`include/sharg/validators.hpp` lines 975-1040) has two overloads of `operator()`: one for `std::string const &` (lines 997-1002), and
one for every `std::ranges::forward_range` whose elements convert to `std::string const &` (lines 1013-1022). A `std::filesystem::path` is such a range:
its elements are the parts of the path, which are paths and convert to `std::string`. For a path the second overload is an exact match and the first one
needs a user-defined conversion, so that overload resolution ([over.ics.rank]) chooses the second one. (`value_list_validator`, line 244, and
`file_validator_base`, line 351, exclude paths from the overload for ranges.)
-/

namespace Sharg

/-- The elements of a path ([fs.path.itr]) as texts: the root directory, the names between slashes, and an empty one for a slash behind a name. -/
def pathParts (t : Str) : List Str :=
  (if t.head? = some '/' then [['/']] else []) ++ splitFrom [] t ++
    (if splitFrom [] t ≠ [] ∧ t.getLast? = some '/' then [[]] else [])

/-- A validator for ranges of texts, called with a path: validators.hpp lines 1013-1022 with `range_type = std::filesystem::path`. -/
def Validator.onParts {W : Type} (v : Validator W Str) : Validator W Str where
  run t := v.each.run (pathParts t)
  help := v.help

/-- A validator for texts at an option or positional option of type `std::string` or a list of them. Other contents do not occur. -/
def Validator.atTexts {W : Type} (v : Validator W Str) : Val → W → Bool × W := fun x w =>
  match x with
  | .one (.str t) => v.inParser t w
  | .many es => v.each.inParser (es.filterMap fun | .str t => some t | _ => none) w
  | _ => (true, w)

/-- A validator at an option or positional option of type `std::filesystem::path` or a list of them: `single` is its `operator()` for a path, `list` the
one for a list of paths, as texts. Other contents do not occur. -/
def atPaths {W : Type} (single : Validator W Str) (list : Validator W (List Str)) : Val → W → Bool × W := fun x w =>
  match x with
  | .one e => match elemPath e with
    | some t => single.inParser t w
    | none => (true, w)
  | .many es => list.inParser (es.filterMap elemPath) w

/-- `regex_validator` at an option of type `std::filesystem::path` or a list of them. The elements of a list are converted to `std::string` by the
`static_cast` in line 1020, so that the overload for texts is called with each of them. -/
def regexAtPaths {W : Type} (pattern : Str) (isMatch : Str → Bool) : Val → W → Bool × W :=
  atPaths (regexValidator pattern isMatch).onParts (regexValidator pattern isMatch).each

end Sharg
