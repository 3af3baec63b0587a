import Verif.Model.Moved

/-!
# What one parser sees of the rest of the program (C87)

A parser sees the variables that were registered with it, and of the outside world what its validators, the version check and the pages look
at. `R w w'` stands for "`w` and `w'` look the same to this parser"; `V` are its variables.
-/

namespace Sharg.Spec

variable {W : Type}

/-- The variable of an entry. -/
def variableOf : Entry W → Option VarId
  | .option _ x _ _ _ => some x
  | .flag _ x => some x
  | .positional _ x _ _ _ => some x
  | _ => none

/-- The validator of an entry. -/
def validatorOf : Entry W → Option (Val → W → Bool × W)
  | .option _ _ _ _ v => some v
  | .positional _ _ _ _ v => some v
  | _ => none

/-- What a call registers if it is accepted. -/
def entryOf : Call W → Option (Entry W)
  | .addOption cfg x l ty v => some (.option cfg x l ty v)
  | .addFlag cfg x _ => some (.flag cfg x)
  | .addPositionalOption cfg x l ty v => some (.positional cfg x l ty v)
  | .addSection t a => some (.sec t a)
  | .addSubsection t a => some (.subsec t a)
  | .addLine t p a => some (.line t p a)
  | .addListItem k d a => some (.listItem k d a)
  | .addSubcommands _ => none

/-- The variables in `V` have the same values. -/
def AgreeOn (V : VarId → Prop) (st st' : Store) : Prop := ∀ x, V x → st x = st' x

/-- The entry belongs to the parser: its variable is in `V`, and its validator sees nothing but what `R` relates. -/
structure Own (V : VarId → Prop) (R : W → W → Prop) (e : Entry W) : Prop where
  var : ∀ x, variableOf e = some x → V x
  validator : ∀ v, validatorOf e = some v → ∀ x w w', R w w' → (v x w).1 = (v x w').1 ∧ R (v x w).2 (v x w').2

/-- The entry belongs to another parser: its variable is not in `V`, and what its validator does cannot be seen. -/
structure Foreign (V : VarId → Prop) (R : W → W → Prop) (e : Entry W) : Prop where
  var : ∀ x, variableOf e = some x → ¬ V x
  validator : ∀ v, validatorOf e = some v → ∀ x w w', R w w' → R w (v x w').2

/-- The version check and the pages of the parser called `app` see nothing but `V` and what `R` relates. -/
structure SeesOnly (V : VarId → Prop) (R : W → W → Prop) (env : Env W) (app : Str) (notify : Bool) : Prop where
  check : ∀ user w w', R w w' → (env.versionCheck app notify user w).1 = (env.versionCheck app notify user w').1 ∧
    R (env.versionCheck app notify user w).2 (env.versionCheck app notify user w').2
  page : ∀ f (p : Parser W) st st' w w', (∀ e ∈ p.operations, ∀ x, variableOf e = some x → V x) → AgreeOn V st st' → R w w' →
    (env.printPage f p st w).1 = (env.printPage f p st' w').1 ∧ R (env.printPage f p st w).2 (env.printPage f p st' w').2

/-- What the version checks of the other parsers and their pages do cannot be seen. `P` tells the names of the other parsers, and whether they
notify of updates. -/
structure Unseen (R : W → W → Prop) (env : Env W) (P : Str → Bool → Prop) : Prop where
  check : ∀ app notify user w w', P app notify → R w w' → R w (env.versionCheck app notify user w').2
  page : ∀ f (p : Parser W) st w w', R w w' → R w (env.printPage f p st w').2

/-- The action is a set-up call or `parse()` of object `k`. -/
def ActsOn (k : Nat) : ObjectAction W → Bool
  | .call j _ => j == k
  | .parse j => j == k
  | _ => false

/-- The action does not take object `k` away. -/
def Leaves (k : Nat) : ObjectAction W → Prop
  | .move j => j ≠ k
  | .assign j l => j ≠ k ∧ l ≠ k
  | .destroy j => j ≠ k
  | _ => True

/-- The registrations of the action: own ones for object `k`, foreign ones for the others. -/
def Separate (V : VarId → Prop) (R : W → W → Prop) (P : Str → Bool → Prop) (k : Nat) : ObjectAction W → Prop
  | .call j c => ∀ e, entryOf c = some e → if j = k then Own V R e else Foreign V R e
  | .construct i => P i.appName i.notify
  | _ => True

/-- The same for what is there before. -/
structure Separated (V : VarId → Prop) (R : W → W → Prop) (P : Str → Bool → Prop) (k : Nat) (o : Object W) (s : Objects W) : Prop where
  here : s.slots[k]? = some (.object o)
  owners : ∀ j ∈ o.owners, j = k
  own : ∀ e ∈ o.parser.operations, Own V R e
  others : ∀ j o', j ≠ k → s.slots[j]? = some (.object o') → (∀ e ∈ o'.parser.operations, Foreign V R e) ∧ P o'.parser.appName o'.parser.notify

/-- How the calls and `parse()` of object `k` end in a history. -/
def outcomesOf (env : Env W) (k : Nat) : List (ObjectAction W) → Objects W → List Outcome
  | [], _ => []
  | a :: as, s => (if ActsOn k a then [(a.run env s).1] else []) ++ outcomesOf env k as (a.run env s).2

end Sharg.Spec
