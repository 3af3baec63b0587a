import Verif.Lemmas.PathRegex
import Verif.Props.PathCheck
import Verif.Props.HelpTexts

/-!
# Patterns for paths (C90)
-/

namespace Sharg

open Spec

variable {W : Type}

/-! ### What the validator does -/

/-- C90, partial (parts instead of the path): a path is accepted exactly if each of its parts matches the pattern. -/
theorem C90_every_part_matches_partial (p : Str) (f : Str → Bool) (t : Str) (w : W) :
    ((regexValidator p f).onParts.run t w = .ok () w ↔ ∀ q, PartOf t q → f q = true) ∧
    ((regexValidator p f).onParts.run t w = .err .validationError w ↔ ∃ q, PartOf t q ∧ f q = false) := by
  have h := (C65_pattern_accepts p f w).2.1 (pathParts t)
  have hall : (∀ s ∈ pathParts t, f s = true) ↔ ∀ q, PartOf t q → f q = true := by
    constructor
    · intro h q hq; exact h q ((mem_pathParts t q).2 hq)
    · intro h q hq; exact h q ((mem_pathParts t q).1 hq)
  rw [show (regexValidator p f).onParts.run t w = (regexValidator p f).each.run (pathParts t) w from rfl, h, ← hall]
  have hex : (∃ q, PartOf t q ∧ f q = false) ↔ ¬ ∀ s ∈ pathParts t, f s = true := by
    constructor
    · rintro ⟨q, hq, hf⟩ h
      rw [h q ((mem_pathParts t q).2 hq)] at hf
      cases hf
    · intro h
      simp only [Classical.not_forall, Bool.not_eq_true] at h
      obtain ⟨q, hq, hf⟩ := h
      exact ⟨q, (mem_pathParts t q).1 hq, hf⟩
  rw [hex]
  by_cases h : ∀ s ∈ pathParts t, f s = true <;> simp [h]

/-- C90, partial (paths without slashes): a plain name is accepted exactly if it matches. -/
theorem C90_plain_names_partial (p : Str) (f : Str → Bool) (t : Str) (ht : t ≠ []) (hs : '/' ∉ t) (w : W) :
    ((regexValidator p f).onParts.run t w = .ok () w ↔ f t = true) ∧
    ((regexValidator p f).onParts.run t w = .err .validationError w ↔ f t = false) := by
  obtain ⟨h1, h2⟩ := C90_every_part_matches_partial p f t w
  rw [h1, h2]
  constructor
  · exact ⟨fun h => h t ((part_plain ht hs).2 rfl), fun h q hq => by rw [(part_plain ht hs).1 hq]; exact h⟩
  · exact ⟨fun ⟨q, hq, h⟩ => by rw [(part_plain ht hs).1 hq] at h; exact h, fun h => ⟨t, (part_plain ht hs).2 rfl, h⟩⟩

/-- C90 is false: unless the pattern matches a single slash, no path that begins with a slash is accepted, whether it matches or not. -/
theorem C90_absolute_paths_rejected (p : Str) (f : Str → Bool) (hf : f ['/'] = false) (t : Str) (w : W) :
    (regexValidator p f).onParts.run ('/' :: t) w = .err .validationError w :=
  (C90_every_part_matches_partial p f _ w).2.2 ⟨['/'], Or.inl ⟨rfl, t, rfl⟩, hf⟩

/-- C90 is false: a pattern for absolute files, like the one in the documentation, accepts no path at all. -/
theorem C90_patterns_for_directories_reject_everything (p : Str) (f : Str → Bool) (hf : ∀ q, f q = true → '/' ∈ q ∧ q ≠ ['/']) (t : Str) (ht : t ≠ [])
    (w : W) : (regexValidator p f).onParts.run t w = .err .validationError w := by
  obtain ⟨q, hq⟩ := exists_part ht
  refine (C90_every_part_matches_partial p f _ w).2.2 ⟨q, hq, ?_⟩
  cases hq' : f q with
  | false => rfl
  | true =>
    obtain ⟨h1, h2⟩ := hf q hq'
    rcases part_slash hq with h | h
    · exact absurd h h2
    · exact absurd h1 h

/-- C90 is false: two names that match are accepted with a slash between them, whether the whole matches or not. -/
theorem C90_unmatched_path_accepted (p : Str) (f : Str → Bool) (a b : Str) (ha : f a = true) (hb : f b = true) (ha' : a ≠ [] ∧ '/' ∉ a)
    (hb' : b ≠ [] ∧ '/' ∉ b) (w : W) : (regexValidator p f).onParts.run (a ++ '/' :: b) w = .ok () w := by
  refine (C90_every_part_matches_partial p f _ w).1.2 ?_
  rintro q (⟨_, c, h⟩ | h | ⟨_, _, c, h⟩)
  · cases a with
    | nil => exact absurd rfl ha'.1
    | cons x a => simp only [List.cons_append, List.cons.injEq] at h; rw [h.1] at ha'; exact absurd (by simp) ha'.2
  · rcases (nameIn_slash ha'.2).1 h with ⟨rfl, _⟩ | h
    · exact ha
    · rw [((nameIn_plain hb'.2).1 h).1]; exact hb
  · exfalso
    have h1 : (a ++ '/' :: b).getLast? = some '/' := by rw [h]; simp
    rw [List.getLast?_append, List.getLast?_cons] at h1
    cases hb2 : b.getLast? with
    | none => exact hb'.1 (List.getLast?_eq_none_iff.1 hb2)
    | some x =>
      rw [hb2] at h1
      simp only [Option.getD_some, Option.some_or, Option.some.injEq] at h1
      rw [h1] at hb2
      exact hb'.2 (List.mem_of_getLast? hb2)

/-! ### At the level of `parse()` -/

theorem each_regex_ok {p : Str} {f : Str → Bool} {l : List Str} {w w' : W} (h : (regexValidator p f).each.inParser l w = (true, w')) :
    ∀ s ∈ l, f s = true := by
  have h := inParser_true h
  rw [(C65_pattern_accepts p f w).2.1] at h
  split at h
  · assumption
  · cases h

/-- C90, partial (parts instead of the path): whatever the arguments are, when `parse()` has returned, every part of a path that was given for a pattern
matches it; in lists of paths, every path matches. -/
theorem C90_parsed_paths_partial (env : Env W) (g g' : Prog W) (hg : Reachable env g) (h : parse env g = (.returned, g'))
    (hv : VarsDistinct (decls g)) (hl : PositionalListsInRange env g) (pat : Str) (f : Str → Bool) (x : VarId)
    (hx : CheckedBy (decls g) g'.parser.formatArguments (regexAtPaths pat f) x) :
    (∀ p, g'.store x = .one (pathElem p) → ∀ q, PartOf p q → f q = true) ∧
    ∀ es p, g'.store x = .many es → pathElem p ∈ es → f p = true := by
  obtain ⟨_, u, u', _, h1, _⟩ := C33_validated_in_the_same_world env g g' hg h hv hl _ x hx
  constructor
  · intro p hp q hq
    rw [hp] at h1
    change (match elemPath (pathElem p) with
      | some t => (regexValidator pat f).onParts.inParser t u
      | none => (true, u)) = _ at h1
    rw [elemPath_path] at h1
    have h2 := inParser_true h1
    change (regexValidator pat f).each.run (pathParts p) u = _ at h2
    rw [(C65_pattern_accepts pat f u).2.1] at h2
    split at h2
    · rename_i hall; exact hall q ((mem_pathParts p q).2 hq)
    · cases h2
  · intro es p hs hp
    rw [hs] at h1
    exact each_regex_ok h1 p (List.mem_filterMap.2 ⟨_, hp, elemPath_path p⟩)

/-- C90 for texts: whatever the arguments are, when `parse()` has returned, every text that was given for a pattern matches it. -/
theorem C90_parsed_texts (env : Env W) (g g' : Prog W) (hg : Reachable env g) (h : parse env g = (.returned, g'))
    (hv : VarsDistinct (decls g)) (hl : PositionalListsInRange env g) (pat : Str) (f : Str → Bool) (x : VarId)
    (hx : CheckedBy (decls g) g'.parser.formatArguments (regexValidator pat f).atTexts x) :
    (∀ t, g'.store x = .one (.str t) → f t = true) ∧ ∀ es t, g'.store x = .many es → .str t ∈ es → f t = true := by
  obtain ⟨_, u, u', _, h1, _⟩ := C33_validated_in_the_same_world env g g' hg h hv hl _ x hx
  constructor
  · intro t ht
    rw [ht] at h1
    have h2 := inParser_true (show (regexValidator pat f).inParser t u = (true, u') from h1)
    rw [(C65_pattern_accepts pat f u).1] at h2
    split at h2
    · assumption
    · cases h2
  · intro es t hs ht
    rw [hs] at h1
    exact each_regex_ok (show (regexValidator pat f).each.inParser _ u = (true, u') from h1) t (List.mem_filterMap.2 ⟨_, ht, rfl⟩)

/-! ### Examples -/

/-- The pattern `[a-z]+`. -/
def exLower (t : Str) : Bool := !t.isEmpty && t.all fun c => decide ('a' ≤ c) && decide (c ≤ 'z')

/-- The pattern `/.+`. -/
def exRooted (t : Str) : Bool := match t with
  | '/' :: _ :: _ => true
  | _ => false

/-- A path, a list of paths and a text for the pattern `[a-z]+`, and a path for the pattern `/.+`. -/
def exPatternCalls : List (Call Unit) :=
  [.addOption { short := 'p', long := "path".toList } 0 false pathTy (regexAtPaths "[a-z]+".toList exLower),
   .addOption { short := 'l', long := "list".toList } 1 true pathTy (regexAtPaths "[a-z]+".toList exLower),
   .addOption { short := 't', long := "text".toList } 2 false .string (regexValidator "[a-z]+".toList exLower).atTexts,
   .addOption { short := 'r', long := "root".toList } 3 false pathTy (regexAtPaths "/.+".toList exRooted)]

def exPatternRun (args : List String) : Prog Unit := exRun exPatternCalls (args.map String.toList)

theorem exPattern_decls (args : List String)
    (h : (accepted exEnv (exPatternCalls.map .call) (start { exInit with arguments := "app".toList :: args.map String.toList } exStore ())).length = 4) :
    decls (exPatternRun args) = declsOf (exPatternCalls.filterMap Call.entry?) := by
  unfold decls exPatternRun exRun
  rw [operations_of_length exEnv exPatternCalls _ h]
  rfl

/-- `app -p a/b -l c -t d`. -/
def exPatternOk : Prog Unit := exPatternRun ["-p", "a/b", "-l", "c", "-t", "d"]

theorem exPatternOk_decls : decls exPatternOk = declsOf (exPatternCalls.filterMap Call.entry?) := exPattern_decls _ (by decide +kernel)

theorem exPatternOk_returned : parse exEnv exPatternOk = (.returned, (parse exEnv exPatternOk).2) := returned_pair (by decide +kernel)

theorem exPatternOk_checked : CheckedBy (decls exPatternOk) (parse exEnv exPatternOk).2.parser.formatArguments (regexAtPaths "[a-z]+".toList exLower) 0 := by
  rw [exPatternOk_decls]
  exact Or.inl ⟨_, .head _, rfl, rfl, "-p".toList, by decide +kernel, by decide +kernel⟩

theorem exPatternOk_text :
    CheckedBy (decls exPatternOk) (parse exEnv exPatternOk).2.parser.formatArguments (regexValidator "[a-z]+".toList exLower).atTexts 2 := by
  rw [exPatternOk_decls]
  exact Or.inl ⟨_, .tail _ (.tail _ (.head _)), rfl, rfl, "-t".toList, by decide +kernel, by decide +kernel⟩

/-- C90 is false at the level of `parse()`: with the pattern `[a-z]+`, the path `a/b` is accepted. -/
theorem C90_not_the_whole_path :
    ¬ ∀ (g g' : Prog Unit) (pat : Str) (f : Str → Bool) (x : VarId) (p : Str), Reachable exEnv g → parse exEnv g = (.returned, g') →
      VarsDistinct (decls g) → CheckedBy (decls g) g'.parser.formatArguments (regexAtPaths pat f) x → g'.store x = .one (pathElem p) →
      f p = true := by
  intro h
  have := h exPatternOk (parse exEnv exPatternOk).2 _ exLower 0 "a/b".toList (exRun_reachable _ _) exPatternOk_returned (by decide +kernel)
    exPatternOk_checked (by decide +kernel)
  revert this
  decide +kernel

example : ∀ q, PartOf "a/b".toList q → exLower q = true :=
  (C90_parsed_paths_partial exEnv exPatternOk (parse exEnv exPatternOk).2 (exRun_reachable _ _) exPatternOk_returned (by decide +kernel) (Or.inl rfl)
    "[a-z]+".toList exLower 0 exPatternOk_checked).1 _ (by decide +kernel)

example : exLower "d".toList = true :=
  (C90_parsed_texts exEnv exPatternOk (parse exEnv exPatternOk).2 (exRun_reachable _ _) exPatternOk_returned (by decide +kernel) (Or.inl rfl)
    "[a-z]+".toList exLower 2 exPatternOk_text).1 _ (by decide +kernel)

/-- The same path in a list is rejected, and so is a path that matches `/.+`, while a text may not contain a slash. -/
example : (parse exEnv (exPatternRun ["-l", "a/b"])).1 = .threw .validationError ∧
    (parse exEnv (exPatternRun ["-r", "/etc/x"])).1 = .threw .validationError ∧ exRooted "/etc/x".toList = true ∧
    (parse exEnv (exPatternRun ["-t", "a/b"])).1 = .threw .validationError := by decide +kernel

example : PartOf "/a//b/".toList "/".toList ∧ PartOf "/a//b/".toList "b".toList ∧ PartOf "/a//b/".toList [] ∧ ¬ PartOf "/a//b".toList [] := by
  simp only [← mem_pathParts]
  decide +kernel

example : (∀ q, exRooted q = true → '/' ∈ q ∧ q ≠ ['/']) ∧ exLower ['/'] = false := by
  refine ⟨fun q h => ?_, by decide +kernel⟩
  unfold exRooted at h
  split at h
  · simp
  · cases h

end Sharg
