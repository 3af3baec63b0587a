import Verif.Spec.Ends
import Verif.Spec.PathCheck

/-!
# Specification: the program with two validators in a row
-/

namespace Sharg.Spec

/-- An absolute path of something that is not in the root directory. -/
def InDirectory (t : Str) : Prop := ∃ n rest, t = '/' :: n ++ '/' :: rest ∧ n ≠ [] ∧ '/' ∉ n

/-- The texts that the pattern describes: names of directories, each behind a slash, and then anything (without line breaks) with a dot and an
extension. -/
def AbsoluteText (t : Str) : Prop := ∃ (names : List Str) (r e : Str), t = names.flatMap ('/' :: ·) ++ '/' :: r ++ '.' :: e ∧ names ≠ [] ∧
  (∀ n ∈ names, n ≠ [] ∧ '/' ∉ n) ∧ '\n' ∉ r ∧ '\r' ∉ r ∧ e ≠ [] ∧ '/' ∉ e ∧ '.' ∉ e

/-- What the program says about the name it was given: an absolute path, and a file that can be read with one of the extensions. -/
structure FilePassed (s : System) (t : Str) : Prop where
  absolute : AbsoluteText t
  usable : InputUsable s ["sa".toList, "so".toList] t

/-- The texts for `-f` and for `--file`, in the order of the line. -/
def shortFiles (items : List Item) : List Str := items.filterMap fun
  | .short c _ v => if c = 'f' then some v else none
  | _ => none

def longFiles (items : List Item) : List Str := items.filterMap fun
  | .long s _ v => if s = "file".toList then some v else none
  | _ => none

/-- The content of `file_name` in the end. -/
def fileContent (items : List Item) : Str := ((tried (shortFiles items) (longFiles items)).getLast?).getD []

/-- Something on the line begins with a dash and is no option. -/
def StrayDash (items : List Item) : Prop := ∃ it ∈ items, (∃ cs, it = .flags cs) ∨ ∃ s, it = .longFlag s

/-- The ending: the first of these mistakes is reported. -/
inductive FileLineEnds (s : System) (items : List Item) (tail : Option (List Str)) : Option Exn → Prop where
  | twice (h : 2 ≤ (shortFiles items).length + (longFiles items).length) : FileLineEnds s items tail (some .optionDeclaredMultipleTimes)
  | rejected (h : (shortFiles items).length + (longFiles items).length = 1) (hr : ¬ FilePassed s (fileContent items)) :
      FileLineEnds s items tail (some .validationError)
  | unknown (h : (shortFiles items).length + (longFiles items).length = 0 ∨
      (shortFiles items).length + (longFiles items).length = 1 ∧ FilePassed s (fileContent items)) (hd : StrayDash items) :
      FileLineEnds s items tail (some .unknownOption)
  | words (h : (shortFiles items).length + (longFiles items).length = 0 ∨
      (shortFiles items).length + (longFiles items).length = 1 ∧ FilePassed s (fileContent items)) (hd : ¬ StrayDash items)
      (hw : words items tail ≠ []) : FileLineEnds s items tail (some .tooManyArguments)
  | fine (h : (shortFiles items).length + (longFiles items).length = 0 ∨
      (shortFiles items).length + (longFiles items).length = 1 ∧ FilePassed s (fileContent items)) (hd : ¬ StrayDash items)
      (hw : words items tail = []) : FileLineEnds s items tail none

end Sharg.Spec
