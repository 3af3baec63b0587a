import Verif.Spec.Placed

/-!
# Specification: the exact picture of a help page
-/

namespace Sharg.Spec

/-- The text printed for `t` behind column `tab`, if nothing is printed in bold or colour. Texts with a zero or an escape
character, and texts with a backslash that starts no markup, are not described. If the first word fits, the words are
wrapped and the lines are indented to the column. Else the first word stands alone, and the line below starts one column
too late (C47). -/
def DrawnText (tab screen : Nat) (t o : Str) : Prop :=
  '\x00' ∉ t → '\x1b' ∉ t → ∀ ws vs, Words t ws → List.Forall₂ Marked ws vs →
    match vs with
    | [] => o = []
    | v :: vs =>
      if tab + v.length ≤ screen then
        ∃ ls, Wrapped tab screen (v :: vs) ls ∧ o = indented tab (ls.map (joined [' '])) ++ ['\n']
      else ∃ (cur : List Str) (ls : List (List Str)), vs = cur ++ ls.flatten ∧ (cur ≠ [] → tab + 1 + lineWidth cur ≤ screen) ∧
        (∀ l ∈ ls, tab + lineWidth l ≤ screen ∨ ∃ x, l = [x]) ∧
        o = v ++ ['\n'] ++ List.replicate tab ' ' ++ cur.flatMap (fun x => ' ' :: x)
          ++ (ls.flatMap fun l => '\n' :: (List.replicate tab ' ' ++ joined [' '] l)) ++ ['\n']

/-- What is printed for an element of the page. Titles of sections are in upper case. Lines stand at column 4. The terms of
lists stand at column 4, and what is said about them at column 10, on the same line only if the term has at most four
characters including its markup. -/
def Drawn (screen : Nat) (afterParagraph : Bool) : Block → Str → Prop
  | .sec t, o => o = "\n".toList ++ t.map Char.toUpper ++ "\n".toList
  | .subsec t, o => o = "\n  ".toList ++ t ++ "\n".toList
  | .line t p, o => ∃ x, o = lead afterParagraph (.line t p) ++ x ∧ DrawnText 4 screen t x
  | .item k d, o => ∀ k', Marked k k' → ∃ x, DrawnText 10 screen d x ∧
      o = lead afterParagraph (.item k d) ++ k' ++
        (if k.length ≤ 4 then List.replicate (6 - k.length) ' ' else '\n' :: List.replicate 10 ' ') ++ x

/-- What is printed for the elements of a page, one after the other. -/
inductive Drawing (screen : Nat) : Bool → List Block → List Str → Prop
  | nil {ap} : Drawing screen ap [] []
  | cons {ap b o bs os} : Drawn screen ap b o → Drawing screen (isParagraph b) bs os → Drawing screen ap (b :: bs) (o :: os)

/-- Columns of the screen that are used, for a terminal with this number of columns; zero if it is not known. -/
def usedColumns (terminal : Nat) : Nat :=
  if terminal = 0 then 78 else if terminal < 40 then 38 else if terminal > 120 then 118 else terminal - 2

end Sharg.Spec
