import Verif.Lemmas.Blame
import Verif.Props.Git
import Verif.Props.RealSystem

/-!
# Who is to blame (C98)
-/

namespace Sharg

open Spec

variable {W : Type}

/-- C98, partial (`get_sub_parser()` and flags that share their variable are excluded, see below): in two runs of a program with the same set-up
calls, whatever the command lines, the variables, the outside world and the builds are, the same calls throw `design_error`; afterwards
`is_option_set()` throws `design_error` for the same identifiers. -/
theorem C98_same_blame_partial (env₁ env₂ : Env W) (h₁ : Blameless env₁) (h₂ : Blameless env₂) (i₁ i₂ : Init) (hn : i₁.appName = i₂.appName)
    (hs : i₁.subcommands = i₂.subcommands) (st₁ st₂ : Store) (w₁ w₂ : W) (as : List (Action W)) :
    SameBlame (outcomes env₁ as (start i₁ st₁ w₁)) (outcomes env₂ as (start i₂ st₂ w₂)) ∧
    ∀ id, isOptionSet (runActions env₁ as (start i₁ st₁ w₁)).parser id = .error .designError ↔
      isOptionSet (runActions env₂ as (start i₂ st₂ w₂)).parser id = .error .designError := by
  have h0 : SameRules (start i₁ st₁ w₁).parser (start i₂ st₂ w₂).parser :=
    ⟨hn, rfl, rfl, by show addSubcommandsTo [] i₁.subcommands = addSubcommandsTo [] i₂.subcommands; rw [hs], rfl⟩
  have r₁ : Reachable env₁ (start i₁ st₁ w₁) := ⟨i₁, st₁, w₁, [], rfl⟩
  have r₂ : Reachable env₂ (start i₂ st₂ w₂) := ⟨i₂, st₂, w₂, [], rfl⟩
  obtain ⟨k1, k2⟩ := rules_actions h₁ h₂ as r₁ r₂ h0
  refine ⟨k1, fun id => ?_⟩
  rw [isOptionSet_blames_iff, isOptionSet_blames_iff, k2.called, k2.usedIds]

/-- C98: `parse()` throws `design_error` exactly if it was called before, or a name is not clean. -/
theorem C98_parse_blames_iff (env : Env W) (henv : Blameless env) (i : Init) (st : Store) (w : W) (as : List (Action W)) :
    Blamed (parse env (runActions env as (start i st w))).1 ↔
      Action.parse ∈ as ∨ ¬ CleanName i.appName ∨
        ∃ s, ¬ CleanName s ∧ (s ∈ i.subcommands ∨ ∃ ns, Action.call (.addSubcommands ns) ∈ as ∧ s ∈ ns) := by
  rw [parse_blamed_iff henv ⟨i, st, w, as, rfl⟩]
  obtain ⟨-, hsub⟩ := C06_subcommands_sorted_set env i st w as
  have happ : ∀ (as : List (Action W)) (g : Prog W), (runActions env as g).parser.appName = g.parser.appName ∧
      ((runActions env as g).parser.parseWasCalled = false ↔ g.parser.parseWasCalled = false ∧ Action.parse ∉ as) := by
    intro as
    induction as with
    | nil => intro g; exact ⟨rfl, by simp [runActions]⟩
    | cons a as ih =>
      intro g
      obtain ⟨k1, k2⟩ := ih (a.run env g).2
      show (runActions env as (a.run env g).2).parser.appName = _ ∧ ((runActions env as (a.run env g).2).parser.parseWasCalled = false ↔ _)
      rw [k1, k2]
      cases a with
      | parse =>
        obtain ⟨s, c⟩ := parse_parser env g
        refine ⟨s.appName, ?_⟩
        rw [show (Action.run env .parse g).2.parser.parseWasCalled = true from c]
        simp
      | call c =>
        have hc : (Action.run env (.call c) g).2.parser.appName = g.parser.appName ∧
            (Action.run env (.call c) g).2.parser.parseWasCalled = g.parser.parseWasCalled := by
          by_cases ha : Acceptable g.parser.situation c
          · rw [Action.call_run_acceptable env c g ha]; exact ⟨rfl, rfl⟩
          · obtain ⟨l, os, hq, -⟩ := c.run_rejected g.parser ha
            simp only [Action.run]
            rw [hq]
            exact ⟨rfl, rfl⟩
        rw [hc.1, hc.2]
        exact ⟨rfl, by simp⟩
  obtain ⟨ha, hc⟩ := happ as (start i st w)
  have hc : (runActions env as (start i st w)).parser.parseWasCalled = false ↔ Action.parse ∉ as := by
    rw [hc]; exact ⟨fun h => h.2, fun h => ⟨rfl, h⟩⟩
  constructor
  · intro h
    by_cases h1 : Action.parse ∈ as
    · exact Or.inl h1
    · by_cases h2 : CleanName i.appName
      · right; right
        by_cases h3 : ∀ s ∈ (runActions env as (start i st w)).parser.subcommands, CleanName s
        · exact absurd ⟨hc.2 h1, ha ▸ h2, h3⟩ h
        · obtain ⟨s, hs⟩ := Classical.not_forall.1 h3
          obtain ⟨hs, hn⟩ := Classical.not_imp.1 hs
          exact ⟨s, hn, (hsub s).1 hs⟩
      · exact Or.inr (Or.inl h2)
  · rintro (h | h | ⟨s, hn, hs⟩) ⟨r1, r2, r3⟩
    · exact hc.1 r1 h
    · rw [ha] at r2; exact h r2
    · exact hn (r3 s ((hsub s).2 hs))

/-- C98: a set-up call throws nothing but `design_error`. -/
theorem C98_setup_calls_blame_the_developer (env : Env W) (g : Prog W) (c : Call W) (e : Exn) (h : ((Action.call c).run env g).1 = .threw e) :
    e = .designError := by
  by_cases ha : Acceptable g.parser.situation c
  · rw [Action.call_run_acceptable env c g ha] at h; cases h
  · obtain ⟨l, os, hq, -⟩ := c.run_rejected g.parser ha
    simp only [Action.run] at h
    rw [hq] at h
    cases h
    rfl

/-- C98: the other parser exceptions of `parse()` are errors of the user: the first `parse()` of a parser with clean names throws no parser
exceptions but these. -/
theorem C98_user_errors (env : Env W) (henv : Blameless env) (i : Init) (st : Store) (w : W) (as : List (Action W)) (e : Exn)
    (he : e.isParserError = true) (h : (parse env (runActions env as (start i st w))).1 = .threw e)
    (hp : Action.parse ∉ as) (hn : CleanName i.appName)
    (hs : ∀ s, (s ∈ i.subcommands ∨ ∃ ns, Action.call (.addSubcommands ns) ∈ as ∧ s ∈ ns) → CleanName s) : e ∈ UserErrors := by
  have hb : ¬ Blamed (parse env (runActions env as (start i st w))).1 := by
    rw [C98_parse_blames_iff env henv]
    rintro (k | k | ⟨s, k1, k2⟩)
    · exact hp k
    · exact k hn
    · exact k1 (hs s k2)
  have hne : e ≠ .designError := by
    rintro rfl
    exact hb h
  cases e <;> first | exact absurd rfl hne | (cases he; done) | decide

/-- C98: an application whose names are clean is never blamed by `parse()`, at no level, on no line. -/
theorem C98_applications (env : Env W) (henv : Blameless env) (app : App W) (i : Init) (hc : CleanNames app i) (st st' : Store) (w w' : W)
    (o : Outcome) (vs : List Visit) (h : AppRuns env app i st w o st' w' vs) : ¬ Blamed o := by
  have ready : ∀ i st w, CleanNames app i → Ready (app.level env i st w).parser := by
    intro i st w hc
    have hb := C98_parse_blames_iff env henv i st w ((app i st w).map .call)
    rw [parse_blamed_iff henv ⟨i, st, w, _, rfl⟩] at hb
    by_cases hr : Ready (app.level env i st w).parser
    · exact hr
    · rcases hb.1 hr with k | k | ⟨s, k1, k2 | ⟨ns, k2, k3⟩⟩
      · simp at k
      · exact absurd hc.name k
      · exact absurd (hc.subs s k2) k1
      · simp only [List.mem_map, Action.call.injEq, exists_eq_right] at k2
        exact absurd (hc.added i st w ns k2 s k3) k1
  induction h with
  | @last i st w o g' hp ho =>
    intro hb
    have := ready_not_blamed henv (level_reachable app env i st w) (ready i st w hc)
    rw [hp] at this
    exact this hb
  | @sub i j st st' w w' o g' vs hp hj hr ih =>
    apply ih
    obtain ⟨k1, k2, -, k4, -, -⟩ := level_keeps app env i st w
    have hj' : (parse env (app.level env i st w)).2.parser.subParser = some j := by rw [hp]; exact hj
    obtain ⟨hrd, exe, args, toks, s, rest, e1, e2, e3⟩ := parse_subParser env _ k4 j hj'
    rw [e3]
    refine ⟨?_, by simp [subInit], hc.added⟩
    have h1 := hrd.app
    have h2 := hrd.subs s e2.stopOk.2
    refine ⟨by simp [subInit], fun c hc => ?_⟩
    simp [subInit] at hc
    rcases hc with hc | rfl | hc
    · exact h1.2 c hc
    · simp
    · exact h2.2 c hc

/-- C98: the version check and the pages of a real system never throw `design_error`, so that the theorems above hold there. -/
theorem C98_real_system (r : Surroundings) : Blameless r.env where
  check app notify user s hn h := by
    rcases run_throws (r.check app) notify user s .designError hn h with ⟨h, -⟩ | ⟨h, -⟩ | ⟨h, -⟩ <;> cases h
  page f p st w h := by
    have h : (pageOf r.pages f p st).1 = some .designError := h
    have h2 := C46_no_other_failures r.pages f p st
    rw [h] at h2
    simp only [List.mem_cons, List.not_mem_nil, or_false, reduceCtorEq, false_or, Option.some.injEq] at h2
    unfold endReached at h2
    split at h2 <;> cases h2

/-! ## Where the user's line blames the developer -/

/-- C98 fails for `get_sub_parser()`: with the set-up of the how-to it throws `design_error` on one line and not on another, although `parse()`
has returned on both. -/
theorem C98_get_sub_parser_blames_the_developer : ∃ (i₁ i₂ : Init) (cs : List (Call Unit)) (g₁ g₂ : Prog Unit) (j : Init),
    i₁.appName = i₂.appName ∧ i₁.subcommands = i₂.subcommands ∧
    parse exEnv (runActions exEnv (cs.map .call) (start i₁ gitStore ())) = (.returned, g₁) ∧ getSubParser g₁.parser = .ok j ∧
    parse exEnv (runActions exEnv (cs.map .call) (start i₂ gitStore ())) = (.returned, g₂) ∧ getSubParser g₂.parser = .error .designError := by
  refine ⟨gitInit (["mygit", "-f", "pull", "a", "b"].map String.toList), gitInit (["mygit", "-f"].map String.toList), gitTopCalls, _, _, _, rfl, rfl,
    returned_pair (by decide +kernel), rfl, returned_pair (by decide +kernel), rfl⟩

/-- An application whose top-level parser and whose subcommand both have a flag `-v` for the same variable. -/
def exSharedFlag : App Unit := fun i st _ =>
  (if i.appName = "app".toList then [.addSubcommands ["run".toList]] else []) ++
    [.addFlag { short := 'v' } 0 (decide (st 0 = .one (.bool true)))]

/-- The outcomes of the set-up calls and of `parse()` on the two levels of a line. -/
def exSharedFlagRun (args : List String) : List Outcome :=
  let i : Init := { exInit with arguments := args.map String.toList }
  let st : Store := fun _ => .one (.bool false)
  let g := (parse exEnv (exSharedFlag.level exEnv i st ())).2
  outcomes exEnv ((exSharedFlag i st ()).map .call ++ [.parse]) (start i st ()) ++
    match g.parser.subParser with
    | none => []
    | some j => outcomes exEnv ((exSharedFlag j g.store g.world).map .call ++ [.parse]) (start j g.store g.world)

/-- C98 fails for flags that share their variable between a parser and its sub-parser: if the user sets the flag in front of the subcommand, adding
it to the sub-parser throws `design_error`; without the flag there, nothing is thrown. -/
theorem C98_shared_flag_blames_the_developer :
    exSharedFlagRun ["app", "run", "-v"] = [.returned, .returned, .returned, .returned, .returned] ∧
    exSharedFlagRun ["app", "-v", "run", "-v"] = [.returned, .returned, .returned, .threw .designError, .threw .unknownOption] := by
  decide +kernel

/-! ## Examples -/

/-- The hypotheses of the theorems. -/
example : Blameless exEnv := ⟨fun _ _ _ _ _ => nofun, fun _ _ _ _ => nofun⟩

example : CleanNames exSharedFlag exInit := by
  refine ⟨by decide, by simp [exInit], ?_⟩
  intro j st w ns h s hs
  simp only [exSharedFlag] at h
  split at h
  · simp at h; subst h; simp at hs; subst hs; decide
  · simp at h

/-- A program in which two calls are rejected, on two lines. -/
def exBlamed : List (Action Unit) := [.call (exFlag 'f' ""), .call (exFlag 'f' ""), .parse, .parse]

example : outcomes exEnv exBlamed (start { exInit with arguments := ["app".toList, "-f".toList] } (fun _ => .one (.bool false)) ()) =
      [.returned, .threw .designError, .returned, .threw .designError] ∧
    outcomes exEnv exBlamed (start { exInit with arguments := ["app".toList, "-g".toList] } (fun _ => .one (.bool false)) ()) =
      [.returned, .threw .designError, .threw .unknownOption, .threw .designError] := by decide +kernel

end Sharg
