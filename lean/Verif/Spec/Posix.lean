import Verif.Spec.Line

/-!
# Specification: the POSIX conventions for arguments

parser.hpp, lines 94-109, lists the conventions that the parser follows and one that it does not.
-/

namespace Sharg.Spec

/-- The same item, or the same option with the same identifier and value where the value is separated in another way:
`-cfoo`, `-c=foo` and `-c foo`; `--key=foo` and `--key foo`. -/
inductive Reformed : Item → Item → Prop where
  | same (it : Item) : Reformed it it
  | short (c : Char) (form form' : Form) (v : Str) : Reformed (.short c form v) (.short c form' v)
  | long (s : Str) (sep sep' : Bool) (v : Str) : Reformed (.long s sep v) (.long s sep' v)

end Sharg.Spec
