import Verif.Model.Moved
import Verif.Props.Requests

/-!
# Property C62: parser objects that are moved
-/

namespace Sharg

open Spec

variable {W : Type}

/-! ### Lemmas -/

/-- The parser after some set-up calls. -/
def afterCalls (env : Env W) (cs : List (Call W)) (p : Parser W) (st : Store) (w : W) : Parser W :=
  (runActions env (cs.map .call) ⟨p, st, w⟩).parser

/-- What the accepted ones among the calls register. -/
def registered (env : Env W) (cs : List (Call W)) (p : Parser W) (st : Store) (w : W) : List (Entry W) :=
  (accepted env (cs.map .call) ⟨p, st, w⟩).filterMap Call.entry?

theorem afterCalls_operations (env : Env W) (cs : List (Call W)) (p : Parser W) (st : Store) (w : W) :
    (afterCalls env cs p st w).operations = p.operations ++ registered env cs p st w :=
  operations_history env (cs.map .call) ⟨p, st, w⟩

theorem call_state (env : Env W) (c : Call W) (p : Parser W) (st : Store) (w : W) :
    ((Action.call c).run env ⟨p, st, w⟩).2 = ⟨(c.run p).state, st, w⟩ := by
  simp only [Action.run]
  cases c.run p <;> rfl

theorem afterCalls_cons (env : Env W) (c : Call W) (cs : List (Call W)) (p : Parser W) (st : Store) (w : W) :
    afterCalls env (c :: cs) p st w = afterCalls env cs (c.run p).state st w := by
  unfold afterCalls
  rw [List.map_cons, runActions, call_state]

theorem afterCalls_append (env : Env W) (cs ds : List (Call W)) (p : Parser W) (st : Store) (w : W) :
    afterCalls env (cs ++ ds) p st w = afterCalls env ds (afterCalls env cs p st w) st w := by
  induction cs generalizing p with
  | nil => rfl
  | cons c cs ih => rw [List.cons_append, afterCalls_cons, ih, ← afterCalls_cons]

theorem call_run_state (env : Env W) (c : Call W) (s : Objects W) (k : Nat) (o : Object W) (h : s.slots[k]? = some (.object o)) :
    ((ObjectAction.call k c).run env s).2 = { s with slots := s.slots.set k (.object (o.afterCall k (c.run o.parser).state)) } := by
  simp only [ObjectAction.run, h]
  cases c.run o.parser <;> rfl

theorem lt_of_some {α : Type} {l : List α} {k : Nat} {a : α} (h : l[k]? = some a) : k < l.length := by
  rcases Nat.lt_or_ge k l.length with hk | hk
  · exact hk
  · rw [List.getElem?_eq_none hk] at h
    cases h

theorem set_same {α : Type} {l : List α} {k : Nat} {a : α} (h : l[k]? = some a) : l.set k a = l := by
  apply List.ext_getElem?
  intro n
  by_cases hn : k = n
  · subst hn
    rw [List.getElem?_set_self (lt_of_some h), h]
  · rw [List.getElem?_set_ne hn]

/-- Set-up calls on one object. -/
theorem calls_run (env : Env W) (k : Nat) (cs : List (Call W)) : ∀ (s : Objects W) (o : Object W), s.slots[k]? = some (.object o) →
    runObjects env (cs.map (.call k)) s = { s with slots := s.slots.set k (.object
      ⟨afterCalls env cs o.parser s.store s.world,
       o.owners ++ List.replicate (registered env cs o.parser s.store s.world).length k⟩) } := by
  induction cs with
  | nil =>
    intro s o h
    have e : s.slots.set k (.object o) = s.slots := set_same h
    show s = _
    simp [afterCalls, runActions, registered, accepted, e]
  | cons c cs ih =>
    intro s o h
    rw [List.map_cons, runObjects, call_run_state env c s k o h]
    have hk := lt_of_some h
    rw [ih _ (o.afterCall k (c.run o.parser).state) (by simp [List.getElem?_set_self hk])]
    have hl : (registered env (c :: cs) o.parser s.store s.world).length =
        ((c.run o.parser).state.operations.length - o.parser.operations.length) +
          (registered env cs (c.run o.parser).state s.store s.world).length := by
      have h1 := congrArg List.length (afterCalls_operations env (c :: cs) o.parser s.store s.world)
      have h2 := congrArg List.length (afterCalls_operations env cs (c.run o.parser).state s.store s.world)
      have h3 := congrArg List.length (afterCalls_operations env [c] o.parser s.store s.world)
      rw [afterCalls_cons] at h1 h3
      have h4 : afterCalls env [] (c.run o.parser).state s.store s.world = (c.run o.parser).state := rfl
      rw [h4] at h3
      simp only [List.length_append] at h1 h2 h3
      omega
    simp only [List.set_set, Object.afterCall, List.append_assoc, ← afterCalls_cons, List.replicate_append_replicate, hl]

theorem runObjects_append (env : Env W) (as bs : List (ObjectAction W)) (s : Objects W) :
    runObjects env (as ++ bs) s = runObjects env bs (runObjects env as s) := by
  induction as generalizing s with
  | nil => rfl
  | cons a as ih => exact ih _

theorem zip_owners {α : Type} {k : Nat} (l : List α) (own : Nat → Bool) :
    ((List.replicate l.length k).zip l).filterMap (fun e => if own e.1 then some e.2 else none) = if own k then l else [] := by
  induction l with
  | nil => simp
  | cons a l ih =>
    rw [List.length_cons, List.replicate_succ, List.zip_cons_cons, List.filterMap_cons, ih]
    cases own k <;> simp

/-- The own operations after some were registered on another object. -/
theorem ownOperations_append (p : Parser W) (j k : Nat) (a b : List (Entry W)) (h : p.operations = a ++ b) :
    Object.ownOperations k ⟨p, List.replicate a.length j ++ List.replicate b.length k⟩ = if j = k then a ++ b else b := by
  unfold Object.ownOperations
  rw [h, List.zip_append (by simp), List.filterMap_append]
  have h1 := zip_owners (k := j) a (fun n => decide (n = k))
  have h2 := zip_owners (k := k) b (fun n => decide (n = k))
  simp only [decide_eq_true_eq] at h1 h2
  rw [h1, h2]
  by_cases hj : j = k <;> simp [hj]

/-- `parse()` does not look at the operations before it runs them. -/
theorem verifyNames_operations (p : Parser W) (ops : List (Entry W)) : verifyAppAndSubcommandNames { p with operations := ops } =
    match verifyAppAndSubcommandNames p with
    | .ok u q => .ok u { q with operations := ops }
    | .err e q => .err e { q with operations := ops } := by
  unfold verifyAppAndSubcommandNames
  dsimp only
  by_cases h : matchesNameRegex p.appName = true <;> by_cases h2 : (p.subcommands.any fun s => !matchesNameRegex s) = true <;> simp [h, h2]

theorem determine_operations (nd : Bool) (p : Parser W) (ops : List (Entry W)) : determineFormatAndSubcommand nd { p with operations := ops } =
    match determineFormatAndSubcommand nd p with
    | .ok u q => .ok u { q with operations := ops }
    | .err e q => .err e { q with operations := ops } := by
  obtain ⟨p1, p2, p3, p4, p5, p6, p7, p8, p9, args, p11, p12, p13⟩ := p
  cases args with
  | nil => rfl
  | cons exe args =>
    unfold determineFormatAndSubcommand
    dsimp only
    cases scanLoop p12 p7 args scanInit <;> rfl

/-- The object after `parse()`, with all its operations. -/
def withOperations (ops : List (Entry W)) (r : Outcome × Prog W) : Outcome × Prog W :=
  (r.1, { r.2 with parser := { r.2.parser with operations := ops } })

/-- `parse()` of an object without dangling operations. -/
theorem object_parse_eq (env : Env W) (slots : List (Slot W)) (k : Nat) (o : Object W) (st : Store) (w : W) (h : o.dangling slots = false) :
    o.parse env slots k st w = withOperations o.parser.operations
      (parse env ⟨{ o.parser with operations := o.ownOperations k }, st, w⟩) := by
  unfold Object.parse Sharg.parse withOperations
  dsimp only
  by_cases hp : o.parser.parseWasCalled = true
  · rw [if_pos hp, if_pos hp]
  · simp only [hp, Bool.false_eq_true, if_false]
    have h1 := verifyNames_operations { o.parser with parseWasCalled := true } (o.ownOperations k)
    dsimp only at h1
    rw [h1]
    have hs := verifyNames_parser { o.parser with parseWasCalled := true }
    cases hv : verifyAppAndSubcommandNames { o.parser with parseWasCalled := true } with
    | err e p =>
      rw [hv] at hs
      simp only [Res.state] at hs
      subst hs
      rfl
    | ok u p =>
      rw [hv] at hs
      simp only [Res.state] at hs
      subst hs
      dsimp only
      have h2 := determine_operations env.ndebug { o.parser with parseWasCalled := true } (o.ownOperations k)
      dsimp only at h2
      rw [h2]
      have hd := (determine_parser env.ndebug { o.parser with parseWasCalled := true }).1.operations
      cases hdet : determineFormatAndSubcommand env.ndebug { o.parser with parseWasCalled := true } with
      | err e p' =>
        rw [hdet] at hd
        simp only [Res.state] at hd
        dsimp only
        rw [← hd]
      | ok f p' => simp [h]

/-! ### Theorems -/

/-- The history in which object 0 is constructed and set up by `before`, moved to object 1, destroyed or not, and object 1 is set up further by
`after`. -/
def movedHistory (i : Init) (before after : List (Call W)) (destroyed : Bool) : List (ObjectAction W) :=
  .construct i :: (before.map (.call 0) ++ (.move 0 :: (if destroyed then [.destroy 0] else []) ++ after.map (.call 1)))

theorem movedHistory_run (env : Env W) (i : Init) (before after : List (Call W)) (destroyed : Bool) (st : Store) (w : W) :
    runObjects env (movedHistory i before after destroyed) ⟨[], st, w⟩ =
      ⟨[if destroyed then .destroyed else .movedFrom, .object
        ⟨afterCalls env (before ++ after) (mkParser i) st w,
         List.replicate (registered env before (mkParser i) st w).length 0 ++
          List.replicate (registered env after (afterCalls env before (mkParser i) st w) st w).length 1⟩], st, w⟩ := by
  unfold movedHistory
  rw [runObjects, runObjects_append]
  have h0 : ((ObjectAction.construct i).run env (⟨[], st, w⟩ : Objects W)).2 = ⟨[.object ⟨mkParser i, []⟩], st, w⟩ := rfl
  rw [h0, calls_run env 0 before _ ⟨mkParser i, []⟩ rfl]
  simp only [List.set_cons_zero, List.nil_append]
  rw [List.cons_append, runObjects]
  have h1 : ∀ o : Object W, ((ObjectAction.move 0).run env (⟨[.object o], st, w⟩ : Objects W)).2 = ⟨[.movedFrom, .object o], st, w⟩ := fun _ => rfl
  rw [h1, runObjects_append]
  have h2 : ∀ o : Object W, runObjects env (if destroyed then [.destroy 0] else []) (⟨[.movedFrom, .object o], st, w⟩ : Objects W) =
      ⟨[if destroyed then .destroyed else .movedFrom, .object o], st, w⟩ := by
    intro o
    cases destroyed <;> rfl
  rw [h2, calls_run env 1 after _ _ rfl]
  simp [afterCalls_append]

/-- How `parse()` of an object ends, and what the program sees of it. -/
def seen (r : Outcome × Prog W) : Outcome × Store × W := (r.1, r.2.store, r.2.world)

/-- The same for an object among others. -/
def seenAt (env : Env W) (k : Nat) (s : Objects W) : Outcome × Store × W :=
  let r := (ObjectAction.parse k).run env s
  (r.1, r.2.store, r.2.world)

theorem seenAt_object (env : Env W) (k : Nat) (s : Objects W) (o : Object W) (h : s.slots[k]? = some (.object o))
    (hd : o.dangling s.slots = false) :
    seenAt env k s = seen (parse env ⟨{ o.parser with operations := o.ownOperations k }, s.store, s.world⟩) := by
  unfold seenAt ObjectAction.run
  simp only [h, object_parse_eq env s.slots k o s.store s.world hd]
  rfl

/-- C62 does not hold: whatever is registered before the move is not known to `parse()` afterwards. As long as the old object exists, `parse()`
of the new object does what it would do with only the registrations made after the move (the identifiers remain known to the scan). -/
theorem C62_registrations_are_lost (env : Env W) (i : Init) (before after : List (Call W)) (st : Store) (w : W) :
    seenAt env 1 (runObjects env (movedHistory i before after false) ⟨[], st, w⟩) =
      seen (parse env ⟨{ afterCalls env (before ++ after) (mkParser i) st w with
        operations := registered env after (afterCalls env before (mkParser i) st w) st w }, st, w⟩) := by
  rw [movedHistory_run]
  rw [seenAt_object env 1 _ _ rfl]
  · rw [ownOperations_append _ 0 1 _ _ (by rw [afterCalls_append, afterCalls_operations, afterCalls_operations]; rfl)]
    rfl
  · unfold Object.dangling
    rw [List.any_append, Bool.or_eq_false_iff]
    constructor <;>
    · rw [List.any_eq_false]
      intro k hk
      rw [List.eq_of_mem_replicate hk]
      simp

/-- C62 does not hold: if something was registered before the move and the old object is destroyed, then `parse()` of the new object runs into
undefined behaviour, unless it throws before that because of the names or the arguments. -/
theorem C62_destroyed_is_undefined (env : Env W) (i : Init) (before after : List (Call W)) (st : Store) (w : W)
    (hreg : registered env before (mkParser i) st w ≠ []) (p : Parser W) (hp : p = afterCalls env (before ++ after) (mkParser i) st w)
    (hr : Ready p) (exe : Str) (args : List Str) (ha : p.arguments = exe :: args) (toks : List Tok) (stop : Stop)
    (hread : Reading p.options p.subcommands args toks stop) (hok : stop.exn? = none) :
    (seenAt env 1 (runObjects env (movedHistory i before after true) ⟨[], st, w⟩)) = (.threw .undefinedBehaviour, st, w) := by
  rw [movedHistory_run, ← hp]
  unfold seenAt ObjectAction.run
  simp only [List.getElem?_cons_succ, List.getElem?_cons_zero, if_true]
  unfold Object.parse
  dsimp only
  rw [if_neg (by simp [hr.notParsed]), verifyNames_clean { p with parseWasCalled := true } hr.app hr.subs]
  dsimp only
  rw [determine_reading env.ndebug { p with parseWasCalled := true } exe args rfl ha toks stop hread, hok]
  dsimp only
  rw [if_pos]
  unfold Object.dangling
  rw [List.any_append, Bool.or_eq_true]
  left
  rw [List.any_eq_true]
  exact ⟨0, List.mem_replicate.2 ⟨by simpa using hreg, rfl⟩, rfl⟩

/-- C62, the part that holds (partial): a parser that is moved before anything is registered (subcommands do not count) works as if it was not
moved, whether the old object is destroyed or not. Missing: objects moved after a registration, see the two theorems above. -/
theorem C62_moved_before_registrations_partial (env : Env W) (i : Init) (before after : List (Call W)) (destroyed : Bool) (st : Store) (w : W)
    (hreg : registered env before (mkParser i) st w = []) :
    seenAt env 1 (runObjects env (movedHistory i before after destroyed) ⟨[], st, w⟩) =
      seen (parse env (runActions env ((before ++ after).map .call) (start i st w))) := by
  rw [movedHistory_run, hreg]
  have hw : ∀ (cs : List (Call W)) (p : Parser W), runActions env (cs.map .call) ⟨p, st, w⟩ = ⟨afterCalls env cs p st w, st, w⟩ := by
    intro cs
    induction cs with
    | nil => intro p; rfl
    | cons c cs ih => intro p; rw [List.map_cons, runActions, call_state, ih, afterCalls_cons]
  have ho : (afterCalls env (before ++ after) (mkParser i) st w).operations =
      [] ++ registered env after (afterCalls env before (mkParser i) st w) st w := by
    rw [afterCalls_append, afterCalls_operations, afterCalls_operations, hreg]
    rfl
  rw [seenAt_object env 1 _ _ rfl, show start i st w = ⟨mkParser i, st, w⟩ from rfl, hw]
  · have h := ownOperations_append (afterCalls env (before ++ after) (mkParser i) st w) 0 1 [] _ ho
    rw [if_neg (by decide)] at h
    dsimp only at h ⊢
    rw [h]
    congr 2
    have ho' := ho
    rw [List.nil_append] at ho'
    rw [← ho']
  · unfold Object.dangling
    rw [List.any_append, Bool.or_eq_false_iff]
    constructor
    · rfl
    · rw [List.any_eq_false]
      intro k hk
      rw [List.eq_of_mem_replicate hk]
      simp

/-- C62: a move after `parse()` keeps what can be asked. -/
theorem C62_moved_after_parse_partial (env : Env W) (s : Objects W) (k : Nat) (o : Object W) (h : s.slots[k]? = some (.object o)) :
    ∃ o', ((ObjectAction.move k).run env s).2.slots[s.slots.length]? = some (.object o') ∧
      (∀ id, isOptionSet o'.parser id = isOptionSet o.parser id) ∧ getSubParser o'.parser = getSubParser o.parser := by
  refine ⟨o, ?_, fun _ => rfl, rfl⟩
  simp [ObjectAction.run, h]

/-- What an assignment does. -/
theorem assign_run (env : Env W) (s : Objects W) (k l : Nat) (o : Object W) (hk : s.slots[k]? = some (.object o)) (t : Slot W)
    (hl : s.slots[l]? = some t) (ht : t ≠ .destroyed) (hne : k ≠ l) :
    ((ObjectAction.assign k l).run env s).2 = ⟨(s.slots.set k .movedFrom).set l (.object o), s.store, s.world⟩ := by
  cases t with
  | destroyed => exact absurd rfl ht
  | movedFrom => simp only [ObjectAction.run, hk, hl, if_neg hne]
  | object o' => simp only [ObjectAction.run, hk, hl, if_neg hne]

/-- C62 does not hold for assignments either: if an object on which everything was registered is assigned to another one, then `parse()` of the other
object knows only what is registered on it afterwards; what had been registered on the other object before is gone as well. -/
theorem C62_assigned_registrations_are_lost (env : Env W) (s : Objects W) (k l : Nat) (o : Object W) (hk : s.slots[k]? = some (.object o))
    (hown : o.owners = List.replicate o.parser.operations.length k) (t : Slot W) (hl : s.slots[l]? = some t) (ht : t ≠ .destroyed) (hne : k ≠ l)
    (after : List (Call W)) :
    seenAt env l (runObjects env (.assign k l :: after.map (.call l)) s) =
      seen (parse env ⟨{ afterCalls env after o.parser s.store s.world with
        operations := registered env after o.parser s.store s.world }, s.store, s.world⟩) := by
  have hlt : l < (s.slots.set k .movedFrom).length := by rw [List.length_set]; exact lt_of_some hl
  rw [runObjects, assign_run env s k l o hk t hl ht hne, calls_run env l after _ o (by simp [lt_of_some hl])]
  rw [seenAt_object env l _ ⟨afterCalls env after o.parser s.store s.world, o.owners ++
    List.replicate (registered env after o.parser s.store s.world).length l⟩ (by simp [lt_of_some hl])]
  · rw [hown, ownOperations_append _ k l o.parser.operations _ (afterCalls_operations env after o.parser s.store s.world), if_neg hne]
  · unfold Object.dangling
    rw [hown, List.any_append, Bool.or_eq_false_iff]
    constructor
    · rw [List.any_eq_false]
      intro j hj
      rw [List.eq_of_mem_replicate hj]
      dsimp only
      rw [List.getElem?_set_ne (Ne.symm hne), List.getElem?_set_ne (Ne.symm hne), List.getElem?_set_self (lt_of_some hk)]
      simp
    · rw [List.any_eq_false]
      intro j hj
      rw [List.eq_of_mem_replicate hj]
      dsimp only
      rw [List.getElem?_set_self (by simp [lt_of_some hl])]
      simp

/-- C62, partial: an object that is moved away and back again is as before. -/
theorem C62_moved_back_partial (env : Env W) (s : Objects W) (k : Nat) (o : Object W) (hk : s.slots[k]? = some (.object o)) :
    runObjects env [.move k, .assign s.slots.length k] s = ⟨s.slots ++ [.movedFrom], s.store, s.world⟩ ∧
    seenAt env k (runObjects env [.move k, .assign s.slots.length k] s) = seenAt env k s := by
  have hlt := lt_of_some hk
  have h1 : ((ObjectAction.move k).run env s).2 = ⟨s.slots.set k .movedFrom ++ [.object o], s.store, s.world⟩ := by
    simp only [ObjectAction.run, hk]
  have e : runObjects env [.move k, .assign s.slots.length k] s = ⟨s.slots ++ [.movedFrom], s.store, s.world⟩ := by
    rw [runObjects, runObjects, runObjects, h1, assign_run env _ s.slots.length k o (by simp) .movedFrom
      (by rw [List.getElem?_append_left (by simpa using hlt), List.getElem?_set_self hlt]) (by simp) (by omega)]
    congr 1
    rw [List.set_append_right _ _ (by simp), List.length_set, Nat.sub_self, List.set_cons_zero, List.set_append_left _ _ (by simpa using hlt),
      List.set_set, set_same hk]
  refine ⟨e, ?_⟩
  rw [e]
  have hk' : (s.slots ++ [.movedFrom])[k]? = some (.object o) := by rw [List.getElem?_append_left hlt, hk]
  have hd : o.dangling (s.slots ++ [.movedFrom]) = o.dangling s.slots := by
    unfold Object.dangling
    congr 1
    funext j
    by_cases hj : j < s.slots.length
    · rw [List.getElem?_append_left hj]
    · rw [List.getElem?_append_right (by omega), List.getElem?_eq_none (by omega : s.slots.length ≤ j)]
      cases hj' : j - s.slots.length with
      | zero => rfl
      | succ m => rfl
  have hp : o.parse env (s.slots ++ [.movedFrom]) k s.store s.world = o.parse env s.slots k s.store s.world := by
    unfold Object.parse
    rw [hd]
  unfold seenAt
  simp only [ObjectAction.run, hk, hk', hp]

/-! ### Examples -/

/-- `-a` is registered on object 0, which is assigned to object 1; then `-b` is registered on object 1: `-a` is unknown. -/
example : (seenAt exEnv 1 (runObjects exEnv
    [.construct { exInit with arguments := ["app", "-a", "3"].map String.toList }, .construct exInit, .call 0 (exOption 'a' "alpha"), .assign 0 1,
      .call 1 (exOption 'b' "beta")] ⟨[], fun _ => .one (.int 0), ()⟩)).1 = .threw .unknownOption := by decide +kernel

/-- Moved away and back again: `-a` is known. -/
example : (seenAt exEnv 0 (runObjects exEnv
    [.construct { exInit with arguments := ["app", "-a", "3"].map String.toList }, .call 0 (exOption 'a' "alpha"), .move 0, .assign 1 0]
      ⟨[], fun _ => .one (.int 0), ()⟩)).1 = .returned := by decide +kernel

/-- `app -a 3 -b 4` where `-a` is registered before the move and `-b` after it. -/
def exMoved (destroyed : Bool) : Objects Unit :=
  runObjects exEnv (movedHistory { exInit with arguments := ["app", "-a", "3", "-b", "4"].map String.toList } [exOption 'a' "alpha"]
    [exOption 'b' "beta"] destroyed) ⟨[], fun _ => .one (.int 0), ()⟩

/-- Without the move the line is fine, after it `-a` is unknown, and without the old object the behaviour is undefined. -/
example : (parse exEnv (exScanLine ["app", "-a", "3", "-b", "4"] [exOption 'a' "alpha", exOption 'b' "beta"])).1 = .returned ∧
    (seenAt exEnv 1 (exMoved false)).1 = .threw .unknownOption ∧ (seenAt exEnv 1 (exMoved true)).1 = .threw .undefinedBehaviour := by
  decide +kernel

/-- Something is registered before that move; nothing is registered by `add_subcommands`. -/
example : (registered exEnv [exOption 'a' "alpha"] (mkParser exInit) (fun _ => .one (.int 0)) ()).length = 1 ∧
    (registered exEnv [.addSubcommands ["sub".toList]] (mkParser exInit) (fun _ => .one (.int 0)) ()).length = 0 := by decide

/-- An object that was moved twice, the second time after `parse()`, is asked for `-b`. -/
example : (match ((runObjects exEnv [.parse 1, .move 1] (exMoved false)).slots[2]?) with
    | some (Slot.object o) => (isOptionSet o.parser (.short 'b')).toOption
    | _ => none) = some true := by decide +kernel

end Sharg
