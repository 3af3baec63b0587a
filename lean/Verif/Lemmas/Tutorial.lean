import Verif.Model.Tutorial
import Verif.Spec.Tutorial
import Verif.Lemmas.PathRegex
import Verif.Lemmas.PathCheck
import Verif.Props.PathCheck
import Verif.Props.PathRegex

/-!
# Lemmas about the program of the tutorial
-/

namespace Sharg

open Spec

theorem hasSeasons_iff (t : Str) : hasSeasons t = true ↔ ∃ a b, t = a ++ "seasons.".toList ++ b ∧ b ≠ [] := by
  induction t with
  | nil =>
    constructor
    · intro h; cases h
    · rintro ⟨a, b, h, hb⟩
      exact absurd (List.append_eq_nil_iff.1 h.symm).2 hb
  | cons c s ih =>
    rw [hasSeasons, Bool.or_eq_true, ih, Bool.and_eq_true, List.isPrefixOf_iff_prefix, decide_eq_true_eq]
    constructor
    · rintro (⟨⟨b, hb⟩, hl⟩ | ⟨a, b, rfl, hb⟩)
      · refine ⟨[], b, hb.symm, ?_⟩
        rintro rfl
        have := congrArg List.length hb
        simp at this
        omega
      · exact ⟨c :: a, b, rfl, hb⟩
    · rintro ⟨a, b, h, hb⟩
      cases a with
      | nil =>
        left
        refine ⟨⟨b, h.symm⟩, ?_⟩
        have := congrArg List.length h
        have hb := List.length_pos_iff.2 hb
        simp at this
        omega
      | cons x a =>
        right
        simp only [List.cons_append, List.cons.injEq] at h
        exact ⟨a, b, h.2, hb⟩

theorem matchesSeasons_iff (t : Str) : matchesSeasons t = true ↔ SeasonsText t := by
  unfold matchesSeasons SeasonsText
  rw [Bool.and_eq_true, hasSeasons_iff, and_comm]
  simp only [List.all_eq_true, Bool.and_eq_true, decide_eq_true_eq, ne_eq]
  constructor
  · rintro ⟨h1, h2⟩
    exact ⟨h1, fun h => (h2 _ h).1 rfl, fun h => (h2 _ h).2 rfl⟩
  · rintro ⟨h1, h2, h3⟩
    exact ⟨h1, fun c hc => ⟨fun e => h2 (e ▸ hc), fun e => h3 (e ▸ hc)⟩⟩

/-! ### The validators -/

theorem regex_parts_run (p : Str) (f : Str → Bool) (t : Str) (s : System) : ((regexValidator p f).onParts.run t s).state = s := by
  show ((regexValidator p f).each.run (pathParts t) s).state = s
  rw [(C65_pattern_accepts p f s).2.1]
  split <;> rfl

theorem seasonsFile_state (t : Str) (s : System) : (seasonsFile.run t s).state = s := by
  show (M.bind ((regexValidator tutorialPattern matchesSeasons).onParts.run t) _ s).state = s
  rw [M.bind_run]
  have h := regex_parts_run tutorialPattern matchesSeasons t s
  cases hr : (regexValidator tutorialPattern matchesSeasons).onParts.run t s with
  | ok u s' =>
    rw [hr] at h
    have h : s' = s := h
    subst h
    exact still_onSystem (still_inputFile _ _) t s'
  | err e s' => rw [hr] at h; exact h

theorem seasonsFile_ok {t : Str} {s s' : System} (h : seasonsFile.run t s = .ok () s') :
    (∀ q, PartOf t q → SeasonsText q) ∧ (inputFile ["tsv".toList] (inputFileMessage ["tsv".toList])).run (pathArg s.cwd t) s.disk = .ok () s.disk := by
  change M.bind ((regexValidator tutorialPattern matchesSeasons).onParts.run t) _ s = _ at h
  rw [M.bind_run] at h
  have hst := regex_parts_run tutorialPattern matchesSeasons t s
  cases hr : (regexValidator tutorialPattern matchesSeasons).onParts.run t s with
  | err e s' => rw [hr] at h; cases h
  | ok u s₁ =>
    rw [hr] at h hst
    have hst : s₁ = s := hst
    subst hst
    refine ⟨fun q hq => (matchesSeasons_iff q).1 ((C90_every_part_matches_partial _ _ _ _).1.1 hr q hq), ?_⟩
    refine still_each_ok (still_inputFile _ _) [t] s₁ s' ?_ t (.head _)
    show M.forEach (inputFile _ _).onSystem.run [t] s₁ = _
    rw [M.forEach_cons, M.bind_run]
    rw [show (inputFile ["tsv".toList] (inputFileMessage ["tsv".toList])).onSystem.run t s₁ = .ok () s' from h]
    rfl

theorem seasonsFile_of {t : Str} {s : System} (h : ∀ q, PartOf t q → SeasonsText q)
    (hf : (inputFile ["tsv".toList] (inputFileMessage ["tsv".toList])).run (pathArg s.cwd t) s.disk = .ok () s.disk) :
    seasonsFile.run t s = .ok () s := by
  show M.bind ((regexValidator tutorialPattern matchesSeasons).onParts.run t) _ s = _
  rw [M.bind_run, (C90_every_part_matches_partial _ _ _ _).1.2 fun q hq => (matchesSeasons_iff q).2 (h q hq)]
  show (inputFile _ _).onSystem.run t s = _
  rw [onSystem_run, hf]

theorem each_state {α : Type} {v : Validator W α} (h : ∀ t s, (v.run t s).state = s) (ts : List α) (s : W) : (v.each.run ts s).state = s := by
  show (M.forEach v.run ts s).state = s
  induction ts with
  | nil => rfl
  | cons t ts ih =>
    rw [M.forEach_cons, M.bind_run]
    have := h t s
    cases hr : v.run t s with
    | ok u d => rw [hr] at this; cases this; exact ih
    | err e d => rw [hr] at this; exact this

theorem seasonsRange_run (i : Int) (h : 0 ≤ i ∧ i ≤ 255) (s : System) :
    seasonsRange.run (.int i) s = if 1 ≤ i ∧ i ≤ 7 then .ok () s else .err .validationError s := by
  obtain ⟨h1, h2⟩ := C36_accepts_closed_interval (W := System) (.integer (-2147483648) 2147483647) toStringNum (.int 1) (.int 7) (.int i)
    ⟨by decide, by decide⟩ ⟨by decide, by decide⟩ ⟨by omega, by omega⟩ s
  have : (numVal (.int 1) ≤ numVal (.int i) ∧ numVal (.int i) ≤ numVal (.int 7)) ↔ 1 ≤ i ∧ i ≤ 7 := by
    simp only [numVal]
    norm_cast
  rw [this] at h1 h2
  split
  · exact h1.2 ‹_›
  · exact h2.2 ‹_›

theorem seasonsRange_state (v : Num) (s : System) : (seasonsRange.run v s).state = s := by
  show ((match convertNum (.integer (-2147483648) 2147483647) v with
    | .error e => M.throw e
    | .ok cmp => if !(cmp.le (.int 7) && (Num.int 1).le cmp) then M.throw .validationError else M.pure () : M System Unit) s).state = s
  cases convertNum (.integer (-2147483648) 2147483647) v with
  | error e => rfl
  | ok cmp =>
    simp only []
    split <;> rfl

theorem aggregateValues_run (t : Str) (s : System) :
    aggregateValues.run t s = if t = "median".toList ∨ t = "mean".toList then .ok () s else .err .validationError s := by
  have := C37_accepts_listed_values (W := System) (valueListMessage ["median".toList, "mean".toList]) ["median".toList, "mean".toList] t s
  rw [List.mem_cons, List.mem_singleton] at this
  split
  · exact this.1.2 ‹_›
  · exact this.2.2 ‹_›

theorem leaves_of_same {v : Val → System → Bool × System} (h : ∀ x s, (v x s).2 = s) : LeavesFiles v := fun x s => by rw [h]; exact ⟨rfl, rfl⟩

theorem atPaths_state {a : Validator System Str} {b : Validator System (List Str)} (ha : ∀ t s, (a.run t s).state = s)
    (hb : ∀ t s, (b.run t s).state = s) (x : Val) (s : System) : (atPaths a b x s).2 = s := by
  unfold atPaths
  split
  · split
    · rw [inParser_state, ha]
    · rfl
  · rw [inParser_state, hb]

theorem onIntegers_state {v : Validator System Num} (h : ∀ t s, (v.run t s).state = s) (x : Val) (s : System) : (v.onIntegers x s).2 = s := by
  unfold Validator.onIntegers
  split
  · rw [inParser_state, h]
  · rw [inParser_state, each_state h]
  · rfl

theorem atTexts_state {v : Validator System Str} (h : ∀ t s, (v.run t s).state = s) (x : Val) (s : System) : (v.atTexts x s).2 = s := by
  unfold Validator.atTexts
  split
  · rw [inParser_state, h]
  · rw [inParser_state, each_state h]
  · rfl

theorem aggregateValues_state (t : Str) (s : System) : (aggregateValues.run t s).state = s := by
  rw [aggregateValues_run]
  split <;> rfl

/-! ### The program -/

theorem tutorial_accepted (env : Env System) (args : List Str) (s : System) :
    (accepted env (tutorialCalls.map .call)
      (start { appName := "Game-of-Parsing".toList, arguments := args, notify := true, subcommands := [], executableName := [] }
        tutorialStore s)).length = 4 := rfl

theorem tutorial_reachable (env : Env System) (args : List Str) (s : System) : Reachable env (tutorial env args s) := ⟨_, _, _, _, rfl⟩

/-- The options of the program. -/
def seasonOption : OptDecl System := ⟨'s', "season".toList, 1, true, .integer 0 255, true, seasonsRange.onIntegers⟩

def aggregateOption : OptDecl System := ⟨'a', "aggregate-by".toList, 2, false, .string, false, aggregateValues.atTexts⟩

def headerFlag : FlagDecl := ⟨'H', "header-is-set".toList, 3⟩

def fileOption : PosDecl System := ⟨0, false, pathTy, atPaths seasonsFile seasonsFile.each⟩

def tutorialDecls : Decls System := ⟨[seasonOption, aggregateOption], [headerFlag], [fileOption]⟩

theorem tutorial_decls (env : Env System) (args : List Str) (s : System) : decls (tutorial env args s) = tutorialDecls :=
  (congrArg declsOf (operations_of_length env tutorialCalls _ (tutorial_accepted env args s))).trans rfl

theorem tutorial_distinct : VarsDistinct tutorialDecls := by decide +kernel

theorem tutorial_leaves (env : Env System) (args : List Str) (s : System) : AllLeaveFiles (tutorial env args s) := by
  unfold AllLeaveFiles
  rw [tutorial_decls]
  refine ⟨fun d hd => ?_, fun d hd => ?_⟩
  · rcases List.mem_cons.1 hd with rfl | hd
    · exact leaves_of_same (onIntegers_state seasonsRange_state)
    · rcases List.mem_cons.1 hd with rfl | hd
      · exact leaves_of_same (atTexts_state aggregateValues_state)
      · cases hd
  · rcases List.mem_cons.1 hd with rfl | hd
    · exact leaves_of_same (atPaths_state seasonsFile_state (each_state seasonsFile_state))
    · cases hd

end Sharg
