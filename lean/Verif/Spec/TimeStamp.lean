import Verif.Spec.Float

/-!
# Specification: how old a time stamp is

The first line of a cookie is read as a `double`; whether a day has passed is decided in `double`, too.
-/

namespace Sharg.Spec

/-- `d` is the longest decimal number in front of the line. -/
def LongestNumber (line : Str) (d : DecimalText) : Prop :=
  d.Ok ∧ d.render <+: line ∧ ∀ d' : DecimalText, d'.Ok → d'.render <+: line → d'.render.length ≤ d.render.length

/-- The line begins with the word (given in small letters), in any case, with or without a minus sign. -/
def BeginsWith (word : Str) (neg : Bool) (line : Str) : Prop :=
  ∃ w rest, line = minusSign neg ++ (w ++ rest) ∧ w.map Char.toLower = word

/-- The line does not begin with a number or one of the words `inf` and `nan`, or the number is out of range. -/
def NoTime (line : Str) : Prop :=
  ((∀ d : DecimalText, d.Ok → ¬ d.render <+: line) ∧ ∀ neg, ¬ BeginsWith "inf".toList neg line ∧ ¬ BeginsWith "nan".toList neg line) ∨
  ∃ d, LongestNumber line d ∧ ¬ ∃ n, Rounded binary64 d.abs n

/-- At the time `now` the time stamp is less than a day old: the number in front of the line, rounded to a `double`, is less than a day before `now` (by
more than half of the distance between 86400 and the `double` in front of it), the line begins with `inf`, or the line is unreadable, counts
as 0, and the first day of the epoch is not over. -/
def Young (now : Nat) (line : Str) : Prop :=
  (∃ d n, LongestNumber line d ∧ Rounded binary64 d.abs n ∧
    (now : ℚ) - floatValue binary64 (binary64.signBit d.neg + n) < 86400 - 1 / 2 ^ 37) ∨
  BeginsWith "inf".toList false line ∨
  (NoTime line ∧ now < 86400)

/-- Up to this second `double` represents every clock (285 million years). -/
def lastSecond : Nat := 2 ^ 53

end Sharg.Spec
