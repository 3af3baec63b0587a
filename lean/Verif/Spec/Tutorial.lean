import Verif.Spec.PathCheck

/-!
# What the program of the tutorial expects
-/

namespace Sharg.Spec

/-- The text contains `seasons.` with something behind it, and no ends of lines. -/
def SeasonsText (t : Str) : Prop := (∃ a b, t = a ++ "seasons.".toList ++ b ∧ b ≠ []) ∧ '\n' ∉ t ∧ '\r' ∉ t

/-- The variables of the program. -/
structure TutorialHolds (st : Store) (path : Str) (seasons : List Int) (aggregateBy : Str) (header : Bool) : Prop where
  path : st 0 = .one (pathElem path)
  seasons : st 1 = .many (seasons.map .int)
  aggregateBy : st 2 = .one (.str aggregateBy)
  header : st 3 = .one (.bool header)

/-- What `run_program` expects of them: the file can be read, is called as wanted and has the right extension, the seasons are seasons, and the way of
aggregation is one of the two that are known. -/
structure TutorialUsable (s : System) (path : Str) (seasons : List Int) (aggregateBy : Str) : Prop where
  readable : InputUsable s ["tsv".toList] path
  name : SeasonsText path
  seasons : ∀ i ∈ seasons, 1 ≤ i ∧ i ≤ 7
  aggregateBy : aggregateBy = "median".toList ∨ aggregateBy = "mean".toList

end Sharg.Spec
