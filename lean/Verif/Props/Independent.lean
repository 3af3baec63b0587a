import Verif.Lemmas.Independent
import Verif.Model.VersionCheck

/-!
# Property C87: parsers and the rest of the program
-/

namespace Sharg

open Spec

variable {W : Type}

/-- C87: what a parser does depends on its own registrations and variables only. In a program with any number of parser objects, whatever is done with
the others (set-up calls, `parse()`, construction, moves, destruction) in between: all calls on object `k` end as if the others did not exist, the
object is the same, its variables have the same values and the world looks the same to it. The others must not use its variables, and what
their validators, version checks and pages do must not be visible to it (`R`). -/
theorem C87_parsers_do_not_interfere (V : VarId → Prop) (R : W → W → Prop) (P : Str → Bool → Prop) (env : Env W) (k : Nat) (o : Object W)
    (s : Objects W) (hs : Separated V R P k o s) (hsee : SeesOnly V R env o.parser.appName o.parser.notify) (hun : Unseen R env P)
    (hrefl : R s.world s.world) (as : List (ObjectAction W)) (hl : ∀ a ∈ as, Leaves k a) (hsep : ∀ a ∈ as, Separate V R P k a) :
    outcomesOf env k as s = outcomesOf env k (as.filter (ActsOn k)) s ∧
    (runObjects env as s).slots[k]? = (runObjects env (as.filter (ActsOn k)) s).slots[k]? ∧
    AgreeOn V (runObjects env (as.filter (ActsOn k)) s).store (runObjects env as s).store ∧
    R (runObjects env (as.filter (ActsOn k)) s).world (runObjects env as s).world := by
  obtain ⟨h1, o', h2⟩ := together_history env hun k as hl hsep o s s hsee ⟨hs, hs.here, fun _ _ => rfl, hrefl⟩
  exact ⟨h1, h2.sep.here.trans h2.here.symm, h2.store, h2.world⟩

/-- C87: the same for parsers whose validators look at the value only, in an environment whose version check never fails and whose pages show
registered variables only: the others may do with the world what they want. -/
theorem C87_value_validators (V : VarId → Prop) (env : Env W) (k : Nat) (o : Object W) (s : Objects W)
    (hs : Separated V (fun _ _ => True) (fun _ _ => True) k o s) (hcheck : ∀ app notify user w, (env.versionCheck app notify user w).1 = none)
    (hpage : ∀ f (p : Parser W) st st' w w', (∀ e ∈ p.operations, ∀ x, variableOf e = some x → V x) → AgreeOn V st st' →
      (env.printPage f p st w).1 = (env.printPage f p st' w').1)
    (as : List (ObjectAction W)) (hl : ∀ a ∈ as, Leaves k a)
    (hown : ∀ c e, .call k c ∈ as → entryOf c = some e → (∀ x, variableOf e = some x → V x) ∧
      ∀ v, validatorOf e = some v → ∀ x w w', (v x w).1 = (v x w').1)
    (hoth : ∀ j c e, j ≠ k → .call j c ∈ as → entryOf c = some e → ∀ x, variableOf e = some x → ¬ V x) :
    outcomesOf env k as s = outcomesOf env k (as.filter (ActsOn k)) s ∧
    (runObjects env as s).slots[k]? = (runObjects env (as.filter (ActsOn k)) s).slots[k]? ∧
    AgreeOn V (runObjects env (as.filter (ActsOn k)) s).store (runObjects env as s).store := by
  have h := C87_parsers_do_not_interfere V (fun _ _ => True) (fun _ _ => True) env k o s hs
    ⟨fun user w w' _ => ⟨by rw [hcheck, hcheck], trivial⟩, fun f p st st' w w' h1 h2 _ => ⟨hpage f p st st' w w' h1 h2, trivial⟩⟩
    ⟨fun _ _ _ _ _ _ _ => trivial, fun _ _ _ _ _ _ => trivial⟩ trivial as hl (by
      intro a ha
      cases a with
      | call j c =>
        intro e he
        split
        · rename_i hj
          subst hj
          obtain ⟨h1, h2⟩ := hown c e ha he
          exact ⟨h1, fun v hv x w w' _ => ⟨h2 v hv x w w', trivial⟩⟩
        · rename_i hj
          exact ⟨hoth j c e hj ha he, fun _ _ _ _ _ _ => trivial⟩
      | construct i => trivial
      | _ => trivial)
  exact ⟨h.1, h.2.1, h.2.2.1⟩

/-- C87: variables that are not registered are not changed, however `parse()` ends, also by pages and the version check. -/
theorem C87_other_variables_untouched (env : Env W) (g : Prog W) (x : VarId) (h : ∀ e ∈ g.parser.operations, variableOf e ≠ some x) :
    (parse env g).2.store x = g.store x :=
  parse_keeps env g x h

/-- C87: variables that are not registered are not looked at, on a real system with all pages and the version check: if the registered variables
have the same values, then `parse()` ends in the same way, with the same effects on the system (output, files), the same parser and the same values of
the registered variables. -/
theorem C87_other_variables_unread (r : Surroundings) (p : Parser System) (st st' : Store) (w : System)
    (h : ∀ e ∈ p.operations, ∀ x, variableOf e = some x → st x = st' x) :
    (parse r.env ⟨p, st, w⟩).1 = (parse r.env ⟨p, st', w⟩).1 ∧
    (parse r.env ⟨p, st, w⟩).2.parser = (parse r.env ⟨p, st', w⟩).2.parser ∧
    (parse r.env ⟨p, st, w⟩).2.world = (parse r.env ⟨p, st', w⟩).2.world ∧
    ∀ e ∈ p.operations, ∀ x, variableOf e = some x → (parse r.env ⟨p, st, w⟩).2.store x = (parse r.env ⟨p, st', w⟩).2.store x := by
  have hl := looks_parse (V := fun x => ∃ e ∈ p.operations, variableOf e = some x) (R := Eq) r.env p
    ⟨fun user w w' hw => by subst hw; exact ⟨rfl, rfl⟩, fun f q s s' w w' hq hs hw => by
      subst hw
      simp only [Surroundings.env]
      rw [pageOf_agree r.pages f q hq hs]
      exact ⟨rfl, rfl⟩⟩
    (fun e he => ⟨fun x hx => ⟨e, he, hx⟩, fun v _ x w w' hw => by subst hw; exact ⟨rfl, rfl⟩⟩) st st' w w
    (fun x ⟨e, he, hx⟩ => h e he x hx) rfl
  exact ⟨hl.1, hl.2.1, hl.2.2.2, fun e he x hx => hl.2.2.1 x ⟨e, he, hx⟩⟩

/-- C87: on a real system the pages of the other parsers are not visible to a parser that does not look at standard output, and its own pages look at
nothing but its variables. -/
theorem C87_pages_on_a_real_system (V : VarId → Prop) (r : Surroundings) (f : Format) (p : Parser System) (st st' : Store) (w w' : System)
    (hp : ∀ e ∈ p.operations, ∀ x, variableOf e = some x → V x) (hst : AgreeOn V st st') (hw : ∃ out, w' = { w with stdout := out }) :
    (r.env.printPage f p st w).1 = (r.env.printPage f p st' w').1 ∧
    (∃ out, (r.env.printPage f p st' w').2 = { (r.env.printPage f p st w).2 with stdout := out }) ∧
    ∃ out, (r.env.printPage f p st' w').2 = { w with stdout := out } := by
  obtain ⟨out, rfl⟩ := hw
  simp only [Surroundings.env]
  rw [pageOf_agree r.pages f p hp hst]
  exact ⟨rfl, ⟨_, rfl⟩, _, rfl⟩

/-! ### Examples -/

/-- A list option on variable `x` whose validator counts its calls in the world. -/
def exCountedList (c : Char) (s : String) (x : VarId) : Call Nat :=
  .addOption { short := c, long := s.toList } x true (.integer (-128) 127) (fun _ w => (true, w + 1))

/-- No version check; pages write a number. -/
def exCountEnv : Env Nat where
  ndebug := false
  versionCheck := fun _ _ _ w => (none, w + 10)
  printPage := fun _ _ _ w => (none, w + 100)

/-- Two parsers, object 0 is set up. -/
def exTwo : Objects Nat :=
  runObjects exCountEnv [.construct { exInit with arguments := ["app", "-a", "3", "-a", "4"].map String.toList },
    .construct { exInit with appName := "other".toList, arguments := ["other", "-b", "5", "-x"].map String.toList }]
    ⟨[], fun _ => .many [.int 0], 0⟩

/-- The two are set up and run in turns; the second one fails, is moved and destroyed. -/
def exTurns : List (ObjectAction Nat) :=
  [.call 1 (exCountedList 'b' "beta" 7), .call 0 (exCountedList 'a' "alpha" 3), .parse 1, .call 1 (exCountedList 'c' "gamma" 8), .move 1, .parse 0, .destroy 2,
    .parse 0]

/-- The hypotheses of the general theorem are met (variable 3 belongs to object 0; it looks at nothing in the world), and this is what is seen. -/
example : outcomesOf exCountEnv 0 exTurns exTwo = [.returned, .returned, .threw .designError] ∧
    outcomesOf exCountEnv 0 (exTurns.filter (ActsOn 0)) exTwo = [.returned, .returned, .threw .designError] ∧
    (runObjects exCountEnv exTurns exTwo).store 3 = .many [.int 3, .int 4] ∧
    (runObjects exCountEnv exTurns exTwo).store 7 = .many [.int 5] ∧
    (runObjects exCountEnv (exTurns.filter (ActsOn 0)) exTwo).store 7 = .many [.int 0] ∧
    (runObjects exCountEnv exTurns exTwo).world = 22 := by decide +kernel

example : outcomesOf exCountEnv 0 exTurns exTwo = outcomesOf exCountEnv 0 (exTurns.filter (ActsOn 0)) exTwo := by
  refine (C87_value_validators (fun x => x = 3) exCountEnv 0 ⟨mkParser { exInit with arguments := ["app", "-a", "3", "-a", "4"].map String.toList }, []⟩
    exTwo ⟨rfl, (fun j hj => by cases hj), (fun e he => by cases he), ?_⟩ (fun _ _ _ _ => rfl) (fun _ _ _ _ _ _ _ _ => rfl) exTurns ?_ ?_ ?_).1
  · intro j o' hj ho'
    have h : exTwo.slots[j]? = some (.object o') → o'.parser.operations = [] := by
      intro h
      match j, h with
      | 0, h => cases h; rfl
      | 1, h => cases h; rfl
      | n + 2, h => cases h
    rw [h ho']
    exact ⟨fun e he => (by cases he), trivial⟩
  · intro a ha
    simp only [exTurns, List.mem_cons, List.not_mem_nil, or_false] at ha
    rcases ha with rfl | rfl | rfl | rfl | rfl | rfl | rfl | rfl <;> simp [Leaves]
  · intro c e hc he
    simp only [exTurns, List.mem_cons, List.not_mem_nil, or_false, ObjectAction.call.injEq, reduceCtorEq, false_or] at hc
    rcases hc with ⟨h, -⟩ | ⟨-, rfl⟩ | ⟨h, -⟩
    · cases h
    · cases he
      exact ⟨(fun x hx => by cases hx; rfl), (fun v hv x w w' => by cases hv; rfl)⟩
    · cases h
  · intro j c e hj hc he x hx
    simp only [exTurns, List.mem_cons, List.not_mem_nil, or_false, ObjectAction.call.injEq, reduceCtorEq, false_or] at hc
    rcases hc with ⟨-, rfl⟩ | ⟨h, -⟩ | ⟨-, rfl⟩
    · cases he; cases hx; decide
    · exact absurd h hj
    · cases he; cases hx; decide

/-- With a common variable the second parser changes what the program reads after the first `parse()`. -/
example : (runObjects exCountEnv [.call 0 (exCountedList 'a' "alpha" 3), .call 1 (exCountedList 'b' "beta" 3), .parse 0, .parse 1] exTwo).store 3 =
    .many [.int 5] := by decide +kernel

end Sharg
