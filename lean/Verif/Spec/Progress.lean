import Verif.Spec.Ends

/-!
# Specification: the stages of `parse()`, and correcting one mistake after the other
-/

namespace Sharg.Spec

/-- A stage of `parse()`: what it makes of the variables and the outside world, and the exception, if any. -/
abbrev Stage (W : Type) := Store → W → Store → W → Option Exn → Prop

/-- Stages one after the other, up to the first exception. -/
def StagesEnd {W : Type} : List (Stage W) → Stage W
  | [], st, w, st', w', r => st' = st ∧ w' = w ∧ r = none
  | s :: ss, st, w, st', w', r => ∃ st₁ w₁ r₁, s st w st₁ w₁ r₁ ∧
    match r₁ with
    | some e => st' = st₁ ∧ w' = w₁ ∧ r = some e
    | none => StagesEnd ss st₁ w₁ st' w' r

/-- The flags: all are set, then unknown and repeated ones are noticed. -/
def flagsStage {W : Type} (D : Decls W) (items : List Item) : Stage W := fun st w st' w' r =>
  st' = setFlags items D.flags st ∧ w' = w ∧ ((Suspect D items ∧ r = some .unknownOption) ∨ (¬ Suspect D items ∧ r = none))

/-- A positional option: the next word, or all that are left for a list. -/
def positionalStage {W : Type} (nd : Bool) (d : PosDecl W) (ws : List Str) : Stage W := fun st w st' w' r =>
  match ws with
  | [] => st' = st ∧ w' = w ∧ r = some .tooFewArguments
  | t :: ts =>
    if d.isList then ∃ es r₁, ElementsEnd nd d.ty (t :: ts) es r₁ ∧ CheckEnds d.validator d.var (st.set d.var (.many es)) r₁ w st' w' r
    else ∃ st₁ r₁, AssignEnds d.ty d.var [t] st st₁ r₁ ∧ CheckEnds d.validator d.var st₁ r₁ w st' w' r

/-- Words that are left over. -/
def leftOverStage {W : Type} (ws : List Str) : Stage W := fun st w st' w' r =>
  st' = st ∧ w' = w ∧ r = if ws = [] then none else some .tooManyArguments

def positionalStages {W : Type} (nd : Bool) : List (PosDecl W) → List Str → List (Stage W)
  | [], ws => [leftOverStage ws]
  | d :: ds, ws => positionalStage nd d ws :: if d.isList then [] else positionalStages nd ds ws.tail

/-- All stages: a stage for each option, one for the flags, one for each positional option, one for words that are left over. -/
def lineStages {W : Type} (nd : Bool) (D : Decls W) (items : List Item) (tail : Option (List Str)) : List (Stage W) :=
  D.options.map (fun d => OptionEnds nd items d) ++ flagsStage D items :: positionalStages nd D.positionals (words items tail)

/-- The first exception comes from stage `k`. -/
def FailsAt {W : Type} (ss : List (Stage W)) (st : Store) (w : W) (k : Nat) (e : Exn) : Prop :=
  ∃ s st₁ w₁ st₂ w₂, StagesEnd (ss.take k) st w st₁ w₁ none ∧ ss[k]? = some s ∧ s st₁ w₁ st₂ w₂ (some e)

/-- The mistake at stage `k` has been corrected: nothing has changed for the stages in front of it, and stage `k` ends without exception now. -/
def CorrectedAt {W : Type} (ss ss' : List (Stage W)) (st : Store) (w : W) (k : Nat) : Prop :=
  ss'.take k = ss.take k ∧ ∃ st' w', StagesEnd (ss'.take (k + 1)) st w st' w' none

/-- Lines, each of which corrects the mistake that `parse()` reported for the one before. -/
inductive Corrections {W : Type} (nd : Bool) (D : Decls W) (st : Store) (w : W) : List (List Item × Option (List Str)) → Prop where
  | one {l : List Item × Option (List Str)} : Corrections nd D st w [l]
  | next {l l' : List Item × Option (List Str)} {ls : List (List Item × Option (List Str))} {k : Nat} {e : Exn} :
      FailsAt (lineStages nd D l.1 l.2) st w k e → CorrectedAt (lineStages nd D l.1 l.2) (lineStages nd D l'.1 l'.2) st w k →
      Corrections nd D st w (l' :: ls) → Corrections nd D st w (l :: l' :: ls)

end Sharg.Spec
