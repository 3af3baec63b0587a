import Verif.Lemmas.Loosen
import Verif.Props.Upgrade
import Verif.Props.Lists
import Mathlib.Data.Rat.Cast.Order

/-!
# C99: a release that demands less accepts what was accepted before
-/

namespace Sharg

open Spec

variable {W : Type}

/-- C99: the set-up calls of the looser release are all accepted if those of the old one are. -/
theorem C99_setup_accepted (env : Env W) (cs cs' : List (Call W)) (h : Loosened env.ndebug cs cs') (i : Init) (st : Store) (w : W)
    (ha : AllAccepted env cs (start i st w)) : AllAccepted env cs' (start i st w) :=
  (setup_looser env h (beneath_refl _ _ rfl) rfl ha).1

/-- C99 (partial): every command line on which `parse()` returned in the old release is one on which it returns in the looser release,
with the same variables, the same world, and the same parser (arguments, decision about version checks, sub-parser) up to the
declarations. Missing for the English property: lists of a wider type in release builds, see `C99_widened_list_changes_in_release`. -/
theorem C99_accepts_more_partial (env : Env W) (cs cs' : List (Call W)) (h : Loosened env.ndebug cs cs') (i : Init) (st : Store) (w : W)
    (ha : AllAccepted env cs (start i st w)) (g : Prog W) (hret : parse env (released env cs i st w) = (.returned, g)) :
    ∃ g', parse env (released env cs' i st w) = (.returned, g') ∧ g'.store = g.store ∧ g'.world = g.world ∧
      g'.parser = { g.parser with operations := g'.parser.operations } := by
  obtain ⟨g', h1, h2, h3, h4⟩ := parse_looser env (setup_looser env h (beneath_refl _ _ rfl) rfl ha).2 hret
  exact ⟨g', h1, h2, h3, by rw [h4]⟩

/-- C99: a line that prints a page in the old release comes to a page of the same kind in the looser one. -/
theorem C99_same_pages (env : Env W) (cs cs' : List (Call W)) (h : Loosened env.ndebug cs cs') (i : Init) (st : Store) (w : W)
    (ha : AllAccepted env cs (start i st w)) (f : Format) (hex : (parse env (released env cs i st w)).1 = .exited f) :
    SamePage env (parse env (released env cs i st w)) (parse env (released env cs' i st w)) :=
  parse_looser_page env (setup_looser env h (beneath_refl _ _ rfl) rfl ha).2 hex

/-- C99: the other direction. A line that the looser release rejects was not accepted before. -/
theorem C99_rejects_less_partial (env : Env W) (cs cs' : List (Call W)) (h : Loosened env.ndebug cs cs') (i : Init) (st : Store) (w : W)
    (ha : AllAccepted env cs (start i st w)) (e : Exn) (hret : (parse env (released env cs' i st w)).1 = .threw e) :
    (parse env (released env cs i st w)).1 ≠ .returned := by
  intro hr
  obtain ⟨g', h1, -⟩ := C99_accepts_more_partial env cs cs' h i st w ha _ (returned_pair hr)
  rw [h1] at hret
  cases hret

/-! ## Which validators are looser -/

/-- A validator that accepts more, for the elements of a list as for single values. -/
theorem C99_loosens_onIntegers {v v' : Validator W Num} (h : ∀ x w w', v.run x w = .ok () w' → v'.run x w = .ok () w') :
    Loosens v.onIntegers v'.onIntegers := by
  have key : ∀ (l : List Num) (w w' : W), v.each.run l w = .ok () w' → v'.each.run l w = .ok () w' := by
    intro l
    induction l with
    | nil => exact fun _ _ h => h
    | cons x l ih =>
      intro w w' hw
      obtain ⟨a, w₁, h1, h2⟩ := (M.bind_eq_ok _ _ _ _ _).1 hw
      exact (M.bind_eq_ok _ _ _ _ _).2 ⟨a, w₁, h _ _ _ h1, ih _ _ h2⟩
  have single : ∀ {α : Type} (u u' : Validator W α) (x : α) (w w' : W), (u.run x w = .ok () w' → u'.run x w = .ok () w') →
      u.inParser x w = (true, w') → u'.inParser x w = (true, w') := by
    intro α u u' x w w' hh hp
    unfold Validator.inParser at hp ⊢
    cases hu : u.run x w with
    | err e w₁ => rw [hu] at hp; cases hp
    | ok a w₁ =>
      rw [hu] at hp
      obtain rfl : w₁ = w' := (Prod.mk.inj hp).2
      rw [hh hu]
  intro x w w' hx
  unfold Validator.onIntegers at hx ⊢
  split at hx
  · exact single _ _ _ _ _ (h _ _ _) hx
  · exact single _ _ _ _ _ (key _ _ _) hx
  · exact hx

theorem Num.le_trans' {a b c : Num} (h1 : a.le b = true) (h2 : b.le c = true) : a.le c = true := by
  have key : ∀ a b : Num, a.le b = true ↔ (match a with | .int i => (i : Rat) | .real q => q) ≤ (match b with | .int i => (i : Rat) | .real q => q) := by
    intro a b
    cases a <;> cases b <;> simp [Num.le]
  rw [key] at h1 h2 ⊢
  exact _root_.le_trans h1 h2

/-- C99: a wider interval. -/
theorem C99_loosens_arithmetic_range (ty : NumTy) (sh sh' : Num → Str) {lo hi lo' hi' : Num} (h1 : lo'.le lo = true) (h2 : hi.le hi' = true) :
    Loosens (arithmeticRange (W := W) ty sh lo hi).onIntegers (arithmeticRange ty sh' lo' hi').onIntegers := by
  refine C99_loosens_onIntegers fun x w w' h => ?_
  unfold arithmeticRange at h ⊢
  dsimp only at h ⊢
  cases hc : convertNum ty x with
  | error e => rw [hc] at h; cases h
  | ok c =>
    rw [hc] at h
    dsimp only at h ⊢
    by_cases hb : (c.le hi && lo.le c) = true
    · rw [hb] at h
      rw [Bool.and_eq_true] at hb
      rw [Num.le_trans' hb.1 h2, Num.le_trans' h1 hb.2]
      exact h
    · rw [Bool.eq_false_of_not_eq_true hb] at h; cases h

/-- C99: more values in the list. -/
theorem C99_loosens_value_list {α β : Type} [DecidableEq α] (conv : β → α) (help help' : Str) {values values' : List α}
    (h : ∀ v ∈ values, v ∈ values') (x : β) (w w' : W) (hx : (valueList (W := W) conv help values).run x w = .ok () w') :
    (valueList (W := W) conv help' values').run x w = .ok () w' := by
  unfold valueList at hx ⊢
  dsimp only at hx ⊢
  by_cases hm : conv x ∈ values
  · rw [if_pos hm] at hx; rw [if_pos (h _ hm)]; exact hx
  · rw [if_neg hm] at hx; cases hx

/-- C99: a chained validator was dropped, behind or in front, that does not change the world. -/
theorem C99_loosens_chain {α : Type} (v v₁ : Validator W α) (hw : ∀ x w w', v₁.run x w = .ok () w' → w' = w) (x : α) (w w' : W) :
    ((v.chain v₁).run x w = .ok () w' → v.run x w = .ok () w') ∧ ((v₁.chain v).run x w = .ok () w' → v.run x w = .ok () w') := by
  refine ⟨fun h => ?_, fun h => ?_⟩
  · obtain ⟨a, w₁, h1, h2⟩ := (M.bind_eq_ok _ _ _ _ _).1 h
    rw [hw _ _ _ h2]
    exact h1
  · obtain ⟨a, w₁, h1, h2⟩ := (M.bind_eq_ok _ _ _ _ _).1 h
    rw [← hw _ _ _ h1]
    exact h2

/-- C99: no validator at all instead of one that does not change the world. -/
theorem C99_loosens_none (v : Val → W → Bool × W) (hw : ∀ x w w', v x w = (true, w') → w' = w) : Loosens v (fun _ w => (true, w)) := by
  intro x w w' h
  rw [hw _ _ _ h]

/-! ## The hypotheses are met by a concrete program, and cannot be dropped -/

/-- The old release: a required number from 1 to 10 of type `int8_t`, a flag, a mode and files. -/
def exTight : List (Call Unit) :=
  [.addOption { short := 'n', long := "number".toList, required := true } 0 false (.integer (-128) 127)
     (arithmeticRange .real (fun _ => []) (.int 1) (.int 10)).onIntegers,
   .addSection "Old texts".toList false,
   .addFlag { short := 'v' } 1 false,
   .addOption { short := 'm', long := "mode".toList } 2 false (.enumeration [("fast".toList, 0), ("exact".toList, 1)]) (fun _ w => (true, w)),
   .addPositionalOption {} 3 true .string (fun _ w => (true, w))]

/-- The new one: the number is of type `int`, optional, and up to 100; there is one more mode, and the texts changed. -/
def exLoose : List (Call Unit) :=
  [.addOption { short := 'n', long := "number".toList, description := "A number.".toList, defaultMessage := "1".toList } 0 false
     (.integer (-2147483648) 2147483647) (arithmeticRange .real (fun _ => []) (.int 1) (.int 100)).onIntegers,
   .addFlag { short := 'v', description := "Be verbose.".toList } 1 false,
   .addLine "New texts".toList false false,
   .addOption { short := 'm', long := "mode".toList } 2 false
     (.enumeration [("fast".toList, 0), ("exact".toList, 1), ("careful".toList, 2)]) (fun _ w => (true, w)),
   .addPositionalOption { description := "The files.".toList } 3 true .string (fun _ w => (true, w))]

theorem exLoosened (nd : Bool) : Loosened nd exTight exLoose := by
  refine .option rfl rfl (fun h => by cases h) ⟨.integers (by decide) (by decide), fun _ h => by cases h⟩
    (C99_loosens_arithmetic_range .real _ _ (by decide +kernel) (by decide +kernel)) (.textBefore trivial ?_)
  refine .flag rfl rfl rfl (.textAfter trivial (.option rfl rfl (fun h => by cases h) ⟨.names ?_, fun _ h => by cases h⟩ (fun _ _ _ h => h) ?_))
  · intro s tag h
    simp only [List.lookup_cons] at h ⊢
    cases h1 : s == "fast".toList with
    | true => rw [h1] at h; exact h
    | false =>
      rw [h1] at h
      dsimp only at h ⊢
      cases h2 : s == "exact".toList with
      | true => rw [h2] at h; exact h
      | false => rw [h2] at h; cases h
  · exact .positional rfl ⟨.same _, fun _ _ => rfl⟩ (fun _ _ _ h => h) .nil

def exTightInit : Init := exLineInit ["-n7", "--mode", "exact", "a", "-v"]

/-- `-n7 --mode exact a -v` was accepted before; the theorem gives that it is accepted now ... -/
example : AllAccepted exEnv exTight (start exTightInit exStore ()) ∧
    (parse exEnv (released exEnv exTight exTightInit exStore ())).1 = .returned ∧
    (parse exEnv (released exEnv exLoose exTightInit exStore ())).1 = .returned ∧
    (parse exEnv (released exEnv exLoose exTightInit exStore ())).2.store 0 = .one (.int 7) := by
  decide +kernel

/-- ... while `-n 70 a`, `--mode careful -n1 a` and `a` are accepted only now. -/
example : ∀ args ∈ [["-n", "70", "a"], ["--mode", "careful", "-n1", "a"], ["a"]],
    (parse exEnv (released exEnv exTight (exLineInit args) exStore ())).1 ≠ .returned ∧
    (parse exEnv (released exEnv exLoose (exLineInit args) exStore ())).1 = .returned := by
  decide +kernel

/-- A line that prints the help page. -/
example : (parse exEnv (released exEnv exTight (exLineInit ["-h"]) exStore ())).1 = .exited (.help false) := by decide +kernel

/-- A list of numbers of type `int8_t`, later of type `int`. -/
def exNarrowList : List (Call Unit) := [.addOption { short := 'n' } 0 true (.integer (-128) 127) (fun _ w => (true, w))]

def exWideList : List (Call Unit) := [.addOption { short := 'n' } 0 true (.integer (-2147483648) 2147483647) (fun _ w => (true, w))]

/-- C99 fails for widened lists in release builds: the element 300 was dropped silently before; now it is kept, so the same line gives other
values. With a validator, or a positional list, it can also be rejected (`C99_widened_list_rejects_in_release`). -/
theorem C99_widened_list_changes_in_release :
    let i := exLineInit ["-n", "300", "-n", "1"]
    WiderType (.integer (-128) 127) (.integer (-2147483648) 2147483647) ∧
    (parse exRelease (released exRelease exNarrowList i exStore ())).1 = .returned ∧
    (parse exRelease (released exRelease exNarrowList i exStore ())).2.store 0 = .many [.int 1] ∧
    (parse exRelease (released exRelease exWideList i exStore ())).1 = .returned ∧
    (parse exRelease (released exRelease exWideList i exStore ())).2.store 0 = .many [.int 300, .int 1] :=
  ⟨.integers (by decide) (by decide), by decide +kernel, by decide +kernel, by decide +kernel, by decide +kernel⟩

/-- The same lists with a range from 0 to 100. -/
def exNarrowChecked : List (Call Unit) :=
  [.addOption { short := 'n' } 0 true (.integer (-128) 127) (arithmeticRange .real (fun _ => []) (.int 0) (.int 100)).onIntegers]

def exWideChecked : List (Call Unit) :=
  [.addOption { short := 'n' } 0 true (.integer (-2147483648) 2147483647) (arithmeticRange .real (fun _ => []) (.int 0) (.int 100)).onIntegers]

/-- C99 fails for widened lists in release builds: `-n 300 -n 1` was accepted before and is now rejected by the same validator. -/
theorem C99_widened_list_rejects_in_release :
    let i := exLineInit ["-n", "300", "-n", "1"]
    (parse exRelease (released exRelease exNarrowChecked i exStore ())).1 = .returned ∧
    (parse exRelease (released exRelease exWideChecked i exStore ())).1 = .threw .validationError := by
  decide +kernel

/-- In debug builds neither happens: the old release stops with a failed assertion. -/
example : (parse exEnv (released exEnv exNarrowList (exLineInit ["-n", "300", "-n", "1"]) exStore ())).1 = .threw .assertFailed := by
  decide +kernel

end Sharg
