import Verif.Model.Page
import Verif.Model.Files

/-!
# The man page export

Models `include/sharg/detail/format_man.hpp`. Texts are written as they are.
-/

namespace Sharg

/-- State while printing: what was written to `std::cout`, and `is_first_in_section` (format_man.hpp line 160). -/
structure ManState where
  out : Str
  isFirst : Bool
  deriving DecidableEq, Repr

abbrev ManM := M ManState Unit

/-- `print_header`, format_man.hpp lines 58-83. -/
def manHeader (appName : Str) (m : Meta) : ManM :=
  M.modify fun h => { h with out := h.out
    ++ ".TH ".toList ++ appName.map upperChar ++ " ".toList ++ showNat m.manPageSection ++ " \"".toList ++ m.date
    ++ "\" \"".toList ++ appName.map lowerChar ++ " ".toList ++ m.version ++ "\" \"".toList ++ m.manPageTitle
    ++ "\"\n".toList
    ++ ".SH NAME\n".toList ++ appName ++ " \\- ".toList ++ m.shortDescription ++ "\n".toList }

/-- The print calls of `format_man`: `print_section` (format_man.hpp lines 88-101), `print_subsection` (106-110),
`print_line` (118-127), `print_list_item` (138-142). -/
def manBlock : Block → ManM
  | .sec t => M.modify fun h => { out := h.out ++ ".SH ".toList ++ t.map upperChar ++ "\n".toList, isFirst := true }
  | .subsec t => M.modify fun h => { out := h.out ++ ".SS ".toList ++ t ++ "\n".toList, isFirst := true }
  | .line t p => M.modify fun h =>
      { out := h.out ++ (if h.isFirst then [] else if p then ".sp\n".toList else ".br\n".toList)
          ++ t ++ "\n".toList,
        isFirst := false }
  | .item k d => M.modify fun h =>
      { out := h.out ++ ".TP\n".toList ++ k ++ "\n".toList ++ d ++ "\n".toList, isFirst := false }

/-- `format_man` as a printer; there is no footer (lines 145-148); `in_bold` is format_man.hpp lines 154-157. -/
def manPrinter (appName : Str) (m : Meta) : Printer ManState where
  header := manHeader appName m
  block := manBlock
  footer := M.pure ()
  bold := fun s => "\\fB".toList ++ s ++ "\\fR".toList

end Sharg
