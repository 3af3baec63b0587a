import Verif.Lemmas.SetupFacts

/-!
# Properties C01 - C07: setting up a parser

Histories are arbitrary lists of `add_*` calls and `parse()`; exceptions are caught by the program.
-/

namespace Sharg

open Spec

variable {W : Type}

/-- A small environment for examples. -/
def exEnv : Env Unit where
  ndebug := false
  versionCheck := fun _ _ _ w => (none, w)
  printPage := fun _ _ _ w => (none, w)

def exInit : Init :=
  { appName := "app".toList, arguments := ["app".toList], notify := false, subcommands := [], executableName := [] }

def exStart : Prog Unit := start exInit (fun _ => .one (.int 0)) ()

def exOption (c : Char) (s : String) : Call Unit :=
  .addOption { short := c, long := s.toList } 0 false (.integer (-128) 127) (fun _ w => (true, w))

def exFlag (c : Char) (s : String) : Call Unit := .addFlag { short := c, long := s.toList } 1 false

def exPositional (isList : Bool) : Call Unit := .addPositionalOption {} 2 isList .string (fun _ w => (true, w))

/-! ## C01 -/

/-- C01: after any history, the identifiers of all accepted options and flags are pairwise different, not
predefined, and well-formed, and each option and flag has at least one. -/
theorem C01_identifiers_unique_and_well_formed (env : Env W) (i : Init) (st : Store) (w : W) (as : List (Action W)) :
    (allIds (accepted env as (start i st w))).Nodup ∧
    (∀ s ∈ allIds (accepted env as (start i st w)), s ∉ predefined) ∧
    ∀ cfg ∈ (accepted env as (start i st w)).filterMap idConfig,
      (cfg.short ≠ '\x00' ∨ cfg.long ≠ []) ∧ (cfg.short ≠ '\x00' → IsShortChar cfg.short) ∧
      (cfg.long ≠ [] → IsLongId cfg.long) := by
  have h := inv_history env as (start i st w) (inv_start i)
  have ho := operations_history env as (start i st w)
  rw [show (start i st w).parser.operations = ([] : List (Entry W)) from rfl, List.nil_append] at ho
  rw [allIds_eq, ← ho]
  refine ⟨h.nodup, fun s hs => (h.used s hs).2, fun cfg hc => ?_⟩
  apply h.cfgs
  rw [ho, List.mem_filterMap]
  obtain ⟨c, hm, hc⟩ := List.mem_filterMap.1 hc
  rw [idConfig_eq] at hc
  obtain ⟨e, he, hc⟩ := Option.bind_eq_some_iff.1 hc
  exact ⟨e, List.mem_filterMap.2 ⟨c, hm, he⟩, hc⟩

/-- A history with four accepted entries, a rejected one and a `parse()`. -/
example : allIds (accepted exEnv
    [.call (exOption 'a' "alpha"), .call (exFlag 'b' ""), .call (exFlag 'a' "other"), .call (exOption '\x00' "gamma"),
      .parse] exStart) = ["a".toList, "alpha".toList, "b".toList, "gamma".toList] := by decide

/-! ## C02 -/

/-- C02: on a parser constructed from `i`, after any calls `cs` that were all accepted and without `parse()`, the
next call is accepted exactly if the documented rules allow it, and throws `design_error` otherwise. -/
theorem C02_set_up_rules (env : Env W) (i : Init) (st : Store) (w : W) (cs : List (Call W)) (c : Call W)
    (hcs : accepted env (cs.map .call) (start i st w) = cs) :
    (Acceptable (situation i false cs) c →
      ((Action.call c).run env (runActions env (cs.map .call) (start i st w))).1 = .returned) ∧
    (¬ Acceptable (situation i false cs) c →
      ((Action.call c).run env (runActions env (cs.map .call) (start i st w))).1 = .threw .designError) := by
  obtain ⟨h1, h2, h3⟩ := all_accepted env cs (start i st w) hcs
  have h4 := (subcommands_history env (cs.map .call) (start i st w)).1
  rw [hcs] at h4
  have hA : Acceptable (runActions env (cs.map .call) (start i st w)).parser.situation c ↔
      Acceptable (situation i false cs) c := by
    apply acceptable_congr
    · exact h2
    · intro s
      refine (h1 s).trans ?_
      simp [situation, start, mkParser, builtinIds_eq]
    · simp only [Parser.situation, situation, decide_eq_decide]
      simp only [ne_eq, List.eq_nil_iff_forall_not_mem, h4, List.mem_append]
      simp [start, mkParser, mem_addSubcommandsTo]
    · simp only [Parser.situation, situation, h3]
      simp [start, mkParser]
  constructor
  · intro h; rw [Action.call_run_acceptable env c _ (hA.2 h)]
  · intro h
    obtain ⟨p, _, hr⟩ := Action.call_run_rejected env c _ (fun hh => h (hA.1 hh))
    rw [hr]

/-- Two accepted calls, then an acceptable and an unacceptable one. -/
example : (accepted exEnv ([exOption 'a' "alpha", exFlag 'b' ""].map .call) exStart).length = 2 := by decide
example : Acceptable (situation exInit false [exOption 'a' "alpha", exFlag 'b' ""]) (exOption 'c' "gamma") := by
  refine ⟨rfl, ?_, ?_⟩ <;> decide
example : ¬ Acceptable (situation exInit false [exOption 'a' "alpha", exFlag 'b' ""]) (exFlag 'b' "gamma") := by
  intro h
  have : ¬ IdsAcceptable (situation exInit false [exOption 'a' "alpha", exFlag 'b' ""]).taken
      { short := 'b', long := "gamma".toList } := by decide
  exact this h.2.1

/-! ## C03 -/

/-- C03 does not hold: a rejected `add_option` (long identifier of length one) makes a later, correct call fail,
which would succeed without the rejected call. -/
theorem C03_rejected_call_leaves_a_trace :
    ¬ ∀ (c : Call Unit) (as : List (Action Unit)),
      ((Action.call c).run exEnv exStart).1 = .threw .designError →
        observe exEnv as ((Action.call c).run exEnv exStart).2 = observe exEnv as exStart := by
  intro h
  have h1 := h (exOption 'a' "x") [.call (exOption 'a' "alpha")] (by decide)
  have h2 := congrArg (fun r => r.1) h1
  revert h2
  decide

/-- C03, part 1 (partial): a rejected call has no effect at all, unless it is an `add_option` or `add_flag` call
whose short identifier is acceptable and which also has a long identifier or violates a rule that is checked after
the identifiers. Missing: those calls, which mark identifiers as used (see part 2 and the counterexample). -/
theorem C03_no_trace_partial (env : Env W) (g : Prog W) (c : Call W)
    (hr : ((Action.call c).run env g).1 = .threw .designError)
    (h : ∀ cfg, idConfig c = some cfg → g.parser.parseWasCalled = true ∨
      ¬ IdsAcceptable g.parser.usedIds cfg ∧
        (cfg.short = '\x00' ∨ ¬ IsShortChar cfg.short ∨ [cfg.short] ∈ g.parser.usedIds)) :
    ((Action.call c).run env g).2 = g := by
  have hc : ¬ Acceptable g.parser.situation c := by
    intro hc; rw [Action.call_run_acceptable env c g hc] at hr; cases hr
  obtain ⟨l, os, hq, a1, a2, a3, a4⟩ := c.run_rejected g.parser hc
  have hl : l = [] := by
    by_cases hl : l = []
    · exact hl
    · obtain ⟨hp, cfg, hcfg, h1⟩ := a4 hl
      rcases h cfg hcfg with h2 | ⟨h2, h3⟩
      · rw [hp] at h2; cases h2
      · rcases h1 with h1 | ⟨b1, b2, b3, _⟩
        · exact absurd h1 h2
        · rcases h3 with h3 | h3 | h3
          · exact absurd h3 b1
          · exact absurd b2 h3
          · exact absurd h3 b3
  have hos : os = [] := by
    by_cases hos : os = []
    · exact hos
    · obtain ⟨_, _, hp, cfg, hcfg, h1, _⟩ := a3 hos
      rcases h cfg hcfg with h2 | ⟨h2, h3⟩
      · rw [hp] at h2; cases h2
      · exact absurd h1 h2
  subst hl hos
  simp [Action.run, hq]

/-- C03, part 2 (partial): after a rejected call, the program behaves as if the call had not been made as long as
it does not use the identifiers of that call again. Missing: re-use of these identifiers, and `add_option` calls
rejected only for being required with a default message. -/
theorem C03_no_trace_unless_reused_partial (env : Env W) (henv : PagesIgnoreUsedIds env) (g : Prog W) (c : Call W)
    (hr : ((Action.call c).run env g).1 = .threw .designError)
    (hreq : ∀ cfg, idConfig c = some cfg → ¬ (cfg.required = true ∧ cfg.defaultMessage ≠ []))
    (as : List (Action W)) (has : ∀ a ∈ as, Avoids (allIds [c]) a) :
    observe env as ((Action.call c).run env g).2 = observe env as g := by
  have hc : ¬ Acceptable g.parser.situation c := by
    intro hc; rw [Action.call_run_acceptable env c g hc] at hr; cases hr
  obtain ⟨l, os, hq, a1, a2, a3, a4⟩ := c.run_rejected g.parser hc
  have hos : os = [] := by
    by_cases hos : os = []
    · exact hos
    · obtain ⟨_, _, hp, cfg, hcfg, h1, h2, h3⟩ := a3 hos
      exact absurd ⟨h2, h3⟩ (hreq cfg hcfg)
  subst hos
  simp only [Action.run, hq]
  obtain ⟨p, st, w⟩ := g
  apply sim_observe (allIds [c]) env henv as has
  refine ⟨l ++ p.usedIds, rfl, fun s hs => ?_⟩
  rw [List.mem_append]
  constructor
  · exact Or.inr
  · rintro (hl | hl)
    · obtain ⟨cfg, hcfg, hs', _⟩ := a1 s hl
      exfalso; apply hs
      simp [allIds, hcfg, hs']
    · exact hl

/-- A rejected call and a continuation that avoids its identifiers. -/
example : ((Action.call (exOption 'a' "x")).run exEnv exStart).1 = .threw .designError := by decide
example : ∀ a ∈ ([.call (exOption 'b' "beta"), .parse] : List (Action Unit)), Avoids (allIds [exOption 'a' "x"]) a := by
  intro a ha
  simp at ha
  rcases ha with rfl | rfl
  · intro cfg h; cases h; decide
  · trivial
/-- A rejected call without any effect. -/
example : ((Action.call (exFlag 'h' "xyz")).run exEnv exStart).1 = .threw .designError := by decide

/-! ## C04 -/

/-- C04: once `parse()` was called, with whatever result, every further `parse()` and every set-up call except
`add_subcommands` throws `design_error` and changes neither parser nor variables nor world. -/
theorem C04_parse_freezes (env : Env W) (as₁ as₂ : List (Action W)) (g₀ : Prog W) (a : Action W)
    (ha : ∀ ns, a ≠ .call (.addSubcommands ns)) :
    a.run env (runActions env (as₁ ++ .parse :: as₂) g₀) =
      (.threw .designError, runActions env (as₁ ++ .parse :: as₂) g₀) := by
  have hp : (runActions env (as₁ ++ .parse :: as₂) g₀).parser.parseWasCalled = true := by
    rw [runActions_append]
    exact parsed_keep env as₂ _ (parse_parser env (runActions env as₁ g₀)).2
  generalize runActions env (as₁ ++ .parse :: as₂) g₀ = g at hp
  cases a with
  | parse => simp [Action.run, parse, hp]
  | call c =>
    have hc : ¬ Acceptable g.parser.situation c := by
      cases c with
      | addSubcommands ns => exact absurd rfl (ha ns)
      | addOption => intro h; cases hp.symm.trans (show g.parser.parseWasCalled = false from h.1)
      | addFlag => intro h; cases hp.symm.trans (show g.parser.parseWasCalled = false from h.1)
      | addPositionalOption => intro h; cases hp.symm.trans (show g.parser.parseWasCalled = false from h.1)
      | _ => intro h; cases hp.symm.trans (show g.parser.parseWasCalled = false from h)
    obtain ⟨l, os, hq, a1, a2, a3, a4⟩ := c.run_rejected g.parser hc
    have hl : l = [] := by
      by_cases hl : l = []
      · exact hl
      · have := (a4 hl).1; rw [hp] at this; cases this
    have hos : os = [] := by
      by_cases hos : os = []
      · exact hos
      · have := (a3 hos).2.2.1; rw [hp] at this; cases this
    subst hl hos
    simp [Action.run, hq]

/-- The first `parse()` of a small program returns, the second throws. -/
example : (observe exEnv [.call (exPositional false), .parse, .parse, .call (exFlag 'f' "")]
    { exStart with parser := { exStart.parser with arguments := ["app".toList, "x".toList] } }).1 =
    [.returned, .returned, .threw .designError, .threw .designError] := by decide

/-! ## C05 -/

/-- C05, the part that holds (partial): in any history, the accepted positional options have no identifier, are
neither advanced nor hidden and have no default message; a list positional option is the last one; and when a
positional option is accepted, the parser has no subcommand at that time. Missing: subcommands added later by
`add_subcommands`, see the counterexample. -/
theorem C05_positional_rules_partial (env : Env W) (i : Init) (st : Store) (w : W) (as : List (Action W))
    (a b : List (Call W)) (c : Call W) (h : accepted env as (start i st w) = a ++ c :: b)
    (hc : isPositional c = true) :
    (∀ cfg x l ty v, c = .addPositionalOption cfg x l ty v →
      cfg.short = '\x00' ∧ cfg.long = [] ∧ cfg.advanced = false ∧ cfg.hidden = false ∧ cfg.defaultMessage = []) ∧
    a.any isPositionalList = false ∧ i.subcommands = [] ∧ a.flatMap namesOf = [] := by
  obtain ⟨p, h1, h2, h3⟩ := accepted_split env as (start i st w) a b c h
  cases c with
  | addPositionalOption cfg x l ty v =>
    obtain ⟨k1, k2, k3, k4, k5, k6, k7⟩ := h1
    refine ⟨?_, ?_, ?_⟩
    · intro cfg' x' l' ty' v' he
      cases he
      have ha : cfg.short = '\x00' := by
        by_cases hs : cfg.short = '\x00'
        · exact hs
        · simp [idsOf, hs] at k2
      have hb : cfg.long = [] := by
        by_cases hs : cfg.long = []
        · exact hs
        · simp [idsOf, hs] at k2
      exact ⟨ha, hb, k3, k4, k7⟩
    · have : p.hasPositionalListOption = false := k6
      rw [h3] at this
      simpa [start, mkParser] using this
    · have k5 : p.subcommands = [] := by simpa [Parser.situation] using k5
      rw [k5] at h2
      constructor
      · rw [List.eq_nil_iff_forall_not_mem]
        intro s hs
        have := (h2 s).2 (Or.inl (by simp [start, mkParser, mem_addSubcommandsTo, hs]))
        simp at this
      · rw [List.eq_nil_iff_forall_not_mem]
        intro s hs
        have := (h2 s).2 (Or.inr hs)
        simp at this
  | _ => simp [isPositional] at hc

/-- C05, corollary (partial): if no `add_subcommands` call with names follows a positional option, the parser never
has both. -/
theorem C05_never_mixed_partial (env : Env W) (i : Init) (st : Store) (w : W) (as : List (Action W))
    (horder : ∀ a b c, accepted env as (start i st w) = a ++ c :: b → isPositional c = true → b.flatMap namesOf = [])
    (hpos : (accepted env as (start i st w)).any isPositional = true) :
    (runActions env as (start i st w)).parser.subcommands = [] := by
  obtain ⟨c, hm, hc⟩ := List.any_eq_true.1 hpos
  obtain ⟨a, b, hab⟩ := List.append_of_mem hm
  obtain ⟨_, _, h1, h2⟩ := C05_positional_rules_partial env i st w as a b c hab hc
  have h3 := horder a b c hab hc
  have hn : namesOf c = [] := by cases c <;> simp_all [isPositional, namesOf]
  rw [List.eq_nil_iff_forall_not_mem]
  intro s hs
  rw [(subcommands_history env as (start i st w)).1 s, hab] at hs
  simp [start, mkParser, mem_addSubcommandsTo, h1, h2, h3, hn] at hs

/-- C05 does not hold: positional option first, `add_subcommands` second. -/
theorem C05_mixing_is_possible :
    ¬ ∀ as : List (Action Unit), (accepted exEnv as exStart).any isPositional = true →
      (runActions exEnv as exStart).parser.subcommands = [] := by
  intro h
  have := h [.call (exPositional false), .call (.addSubcommands ["sub".toList])] (by decide)
  revert this
  decide

/-- Two positional options are accepted, a third one behind a list is not. -/
example : (observe exEnv [.call (exPositional false), .call (exPositional true), .call (exPositional false)] exStart).1 =
    [.returned, .returned, .threw .designError] := by decide

/-! ## C06 -/

/-- C06: after any history the list of subcommands is strictly ascending and contains exactly the names given to
the constructor and to `add_subcommands` calls. -/
theorem C06_subcommands_sorted_set (env : Env W) (i : Init) (st : Store) (w : W) (as : List (Action W)) :
    (runActions env as (start i st w)).parser.subcommands.Pairwise StrBefore ∧
    ∀ s, s ∈ (runActions env as (start i st w)).parser.subcommands ↔
      s ∈ i.subcommands ∨ ∃ ns, Action.call (.addSubcommands ns) ∈ as ∧ s ∈ ns := by
  obtain ⟨h1, h2⟩ := subcommands_history env as (start i st w)
  refine ⟨h2 (ascending_addSubcommandsTo _ _), fun s => ?_⟩
  rw [h1 s]
  have hacc : ∀ (as : List (Action W)) (g : Prog W),
      s ∈ (accepted env as g).flatMap namesOf ↔ ∃ ns, Action.call (.addSubcommands ns) ∈ as ∧ s ∈ ns := by
    intro as
    induction as with
    | nil => intro g; simp [accepted]
    | cons a as ih =>
      intro g
      cases a with
      | parse => simp only [accepted]; rw [ih]; simp
      | call c =>
        simp only [accepted]
        by_cases hc : Acceptable g.parser.situation c
        · rw [Action.call_run_acceptable env c g hc]
          simp only [List.flatMap_cons, List.mem_append, ih]
          cases c <;> simp [namesOf]
        · obtain ⟨p, hp, hr⟩ := Action.call_run_rejected env c g hc
          rw [hr]
          dsimp only
          rw [ih]
          cases c with
          | addSubcommands ns => exact absurd trivial hc
          | _ => simp
  rw [hacc]
  simp [start, mkParser, mem_addSubcommandsTo]

/-- C06: the list is determined by the set of names; order, splitting and repetition are irrelevant. -/
theorem C06_order_irrelevant (env : Env W) (i i' : Init) (st st' : Store) (w w' : W) (as as' : List (Action W))
    (h : ∀ s, (s ∈ i.subcommands ∨ ∃ ns, Action.call (.addSubcommands ns) ∈ as ∧ s ∈ ns) ↔
      (s ∈ i'.subcommands ∨ ∃ ns, Action.call (.addSubcommands ns) ∈ as' ∧ s ∈ ns)) :
    (runActions env as (start i st w)).parser.subcommands = (runActions env as' (start i' st' w')).parser.subcommands := by
  obtain ⟨a1, a2⟩ := C06_subcommands_sorted_set env i st w as
  obtain ⟨b1, b2⟩ := C06_subcommands_sorted_set env i' st' w' as'
  exact ascending_unique a1 b1 fun s => by rw [a2, b2, h s]

example : (runActions exEnv [.call (.addSubcommands ["push".toList, "add".toList]), .call (.addSubcommands ["add".toList])]
    (start { exInit with subcommands := ["log".toList] } (fun _ => .one (.int 0)) ())).parser.subcommands =
    ["add".toList, "log".toList, "push".toList] := by decide

/-! ## C07 -/

/-- C07: with a bad application or subcommand name `parse()` throws `design_error` and touches neither variables nor
the outside world. -/
theorem C07_bad_names_stop_parse (env : Env W) (g : Prog W)
    (h : ¬ CleanName g.parser.appName ∨ ∃ s ∈ g.parser.subcommands, ¬ CleanName s) :
    (parse env g).1 = .threw .designError ∧ (parse env g).2.store = g.store ∧ (parse env g).2.world = g.world := by
  unfold parse
  by_cases hp : g.parser.parseWasCalled = true
  · simp [hp]
  · simp only [if_neg hp]
    have : verifyAppAndSubcommandNames { g.parser with parseWasCalled := true } =
        .err .designError { g.parser with parseWasCalled := true } := by
      unfold verifyAppAndSubcommandNames
      dsimp only
      by_cases ha : matchesNameRegex g.parser.appName = false
      · rw [if_pos ha]
      · rw [if_neg ha]
        rw [if_pos]
        rcases h with h | ⟨s, hs, h⟩
        · rw [← matchesNameRegex_iff] at h; simp at h; exact absurd h ha
        · rw [List.any_eq_true]
          rw [← matchesNameRegex_iff] at h
          exact ⟨s, hs, by simpa using h⟩
    rw [this]
    exact ⟨rfl, rfl, rfl⟩


end Sharg
