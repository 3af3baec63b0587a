import Verif.Lemmas.SetupFacts

/-! Lemmas on `parse()` as a whole: what it does for a given reading of the arguments. -/

set_option linter.unusedSimpArgs false

namespace Sharg

open Spec

variable {W : Type}

theorem Spec.Requests.special {f : Format} {args : List Str} (h : Requests f args) :
    f ≠ .shortHelp ∧ f ≠ .parse ∧ args ≠ [] := by
  cases h <;> simp

/-- The format chosen for a reading. -/
def decided (toks : List Tok) (stop : Stop) : Format :=
  match lastRequest toks with
  | some f => f
  | none => if kept toks ++ stop.kept ≠ [] ∨ stop.sub? ≠ none then .parse else .shortHelp

theorem lastRequest_special (options subs : List Str) (toks : List Tok) (h : ∀ t ∈ toks, t.Ok options subs) (f : Format)
    (hf : lastRequest toks = some f) : f ≠ .shortHelp ∧ f ≠ .parse := by
  have := List.mem_of_getLast? hf
  obtain ⟨t, ht, htf⟩ := List.mem_filterMap.1 this
  have hk := h t ht
  cases t <;> simp [Tok.request?] at htf
  subst htf
  obtain ⟨a, b, _⟩ := hk.1.special
  exact ⟨a, b⟩

theorem finalFormat_reading (options subs args : List Str) (toks : List Tok) (stop : Stop)
    (h : Reading options subs args toks stop) : finalFormat (scanResult toks stop scanInit) = decided toks stop := by
  unfold finalFormat decided scanResult scanInit
  cases hl : lastRequest toks with
  | none => simp
  | some f => simp [(lastRequest_special options subs toks h.toksOk f hl).1]

/-- The parser after scanning. -/
def scannedParser (p : Parser W) (exe : Str) (toks : List Tok) (stop : Stop) : Parser W :=
  { p with
    parseWasCalled := true
    executableName := p.executableName ++ [exe]
    formatArguments := kept toks ++ stop.kept
    userDecision := lastCheck toks
    subParser := stop.sub?.map (subInit p.appName (p.executableName ++ [exe])) }

/-- Names are clean and `parse()` was not called. -/
structure Ready (p : Parser W) : Prop where
  notParsed : p.parseWasCalled = false
  app : CleanName p.appName
  subs : ∀ s ∈ p.subcommands, CleanName s

theorem verifyNames_clean (p : Parser W) (h1 : CleanName p.appName) (h2 : ∀ s ∈ p.subcommands, CleanName s) :
    verifyAppAndSubcommandNames p = .ok () p := by
  unfold verifyAppAndSubcommandNames
  rw [← matchesNameRegex_iff] at h1
  rw [if_neg (by simp [h1]), if_neg]
  simp only [List.any_eq_true, not_exists, not_and]
  intro s hs
  simp [(matchesNameRegex_iff s).2 (h2 s hs)]

theorem determine_reading (nd : Bool) (p : Parser W) (exe : Str) (args : List Str) (hp : p.parseWasCalled = true)
    (ha : p.arguments = exe :: args) (toks : List Tok) (stop : Stop)
    (hr : Reading p.options p.subcommands args toks stop) :
    determineFormatAndSubcommand nd p =
      match stop.exn? with
      | some e => .err e (scannedParser p exe toks stop)
      | none => .ok (decided toks stop) (scannedParser p exe toks stop) := by
  unfold determineFormatAndSubcommand
  obtain ⟨a1, a2, a3, a4, a5, a6, a7, a8, a9, a10, a11, a12, a13⟩ := p
  simp only at hp ha hr
  subst hp ha
  simp only [scan_reading _ _ _ _ _ hr]
  cases hs : stop.exn? with
  | none =>
    simp only [finalFormat_reading _ _ _ _ _ hr]
    simp [scannedParser, scanResult, scanInit]
  | some e =>
    simp [scannedParser, scanResult, scanInit]

/-- What `parse()` does for a reading. -/
theorem parse_reading (env : Env W) (g : Prog W) (hp : Ready g.parser) (exe : Str) (args : List Str)
    (ha : g.parser.arguments = exe :: args) (toks : List Tok) (stop : Stop)
    (hr : Reading g.parser.options g.parser.subcommands args toks stop) :
    parse env g =
      match stop.exn? with
      | some e => (.threw e, { g with parser := scannedParser g.parser exe toks stop })
      | none => checkAndParse env (decided toks stop) { g with parser := scannedParser g.parser exe toks stop } := by
  unfold parse
  rw [if_neg (by simp [hp.notParsed]), verifyNames_clean { g.parser with parseWasCalled := true } hp.app hp.subs]
  dsimp only
  rw [determine_reading env.ndebug { g.parser with parseWasCalled := true } exe args rfl ha toks stop hr]
  cases stop.exn? <;> rfl

/-- If the parser is not ready, or was called without arguments, `parse()` throws. -/
theorem parse_not_ready (env : Env W) (g : Prog W) (h : ¬ Ready g.parser) :
    parse env g = (.threw .designError, { g with parser := { g.parser with parseWasCalled := true } }) := by
  unfold parse
  by_cases hp : g.parser.parseWasCalled = true
  · rw [if_pos hp]
    obtain ⟨p, st, w⟩ := g
    obtain ⟨a1, a2, a3, a4, a5, a6, a7, a8, a9, a10, a11, a12, a13⟩ := p
    simp only at hp
    subst hp; rfl
  · rw [if_neg hp]
    have : verifyAppAndSubcommandNames { g.parser with parseWasCalled := true } =
        .err .designError { g.parser with parseWasCalled := true } := by
      unfold verifyAppAndSubcommandNames
      dsimp only
      by_cases ha : matchesNameRegex g.parser.appName = false
      · rw [if_pos ha]
      · rw [if_neg ha, if_pos]
        rw [List.any_eq_true]
        have hx : ¬ ∀ s ∈ g.parser.subcommands, CleanName s := fun hs =>
          h ⟨by simpa using hp, (matchesNameRegex_iff _).1 (by simpa using ha), hs⟩
        simp only [Classical.not_forall] at hx
        obtain ⟨s, hs, hc⟩ := hx
        rw [← matchesNameRegex_iff] at hc
        exact ⟨s, hs, by simpa using hc⟩
    rw [this]

theorem parse_no_arguments (env : Env W) (g : Prog W) (hp : Ready g.parser) (ha : g.parser.arguments = []) :
    parse env g = (.threw (if env.ndebug then .undefinedBehaviour else .assertFailed),
      { g with parser := { g.parser with parseWasCalled := true } }) := by
  unfold parse
  rw [if_neg (by simp [hp.notParsed]), verifyNames_clean { g.parser with parseWasCalled := true } hp.app hp.subs]
  simp only [determineFormatAndSubcommand, ha]

theorem parseFormat_page (env : Env W) (f : Format) (hf : f ≠ .parse) (g : Prog W) :
    parseFormat env f g =
      match env.printPage f g.parser g.store g.world with
      | (some e, w) => (.threw e, { g with world := w })
      | (none, w) => (.exited f, { g with world := w }) := by
  cases f <;> first | rfl | exact absurd rfl hf

/-- A page request never runs the program. -/
theorem checkAndParse_page (env : Env W) (f : Format) (hf : f ≠ .parse) (g : Prog W) :
    (checkAndParse env f g).1 ≠ .returned ∧ (checkAndParse env f g).2.store = g.store ∧
      ((checkAndParse env f g).1 = .exited f ∨ ∃ e, (checkAndParse env f g).1 = .threw e) := by
  unfold checkAndParse
  split
  · simp
  · unfold parseFormat
    split
    · simp at hf
    · split <;> simp

theorem checkAndParse_parse (env : Env W) (g : Prog W) (pg : Format) :
    (checkAndParse env .parse g).1 ≠ .exited pg := by
  unfold checkAndParse
  split
  · simp
  · unfold parseFormat
    simp only
    split <;> simp

/-- Set-up calls keep these members. -/
theorem call_keeps (env : Env W) (c : Call W) (g : Prog W) :
    ((Action.call c).run env g).2.parser.appName = g.parser.appName ∧
    ((Action.call c).run env g).2.parser.arguments = g.parser.arguments ∧
    ((Action.call c).run env g).2.parser.executableName = g.parser.executableName ∧
    ((Action.call c).run env g).2.parser.subParser = g.parser.subParser ∧
    ((Action.call c).run env g).2.parser.parseWasCalled = g.parser.parseWasCalled ∧
    ((Action.call c).run env g).2.parser.notify = g.parser.notify ∧
    ((Action.call c).run env g).2.parser.formatArguments = g.parser.formatArguments ∧
    ((Action.call c).run env g).2.store = g.store ∧ ((Action.call c).run env g).2.world = g.world := by
  by_cases hc : Acceptable g.parser.situation c
  · rw [Action.call_run_acceptable env c g hc]; exact ⟨rfl, rfl, rfl, rfl, rfl, rfl, rfl, rfl, rfl⟩
  · obtain ⟨p, hp, hr⟩ := Action.call_run_rejected env c g hc
    obtain ⟨l, os, hq, _⟩ := c.run_rejected g.parser hc
    rw [hp] at hq
    injection hq with _ hq
    subst hq
    rw [hr]
    exact ⟨rfl, rfl, rfl, rfl, rfl, rfl, rfl, rfl, rfl⟩

/-- The sub-parser after `parse()`. -/
theorem parse_subParser (env : Env W) (g : Prog W) (hs : g.parser.subParser = none) (j : Init)
    (h : (parse env g).2.parser.subParser = some j) :
    Ready g.parser ∧ ∃ exe args toks s rest, g.parser.arguments = exe :: args ∧
      Reading g.parser.options g.parser.subcommands args toks (.subcommand s rest) ∧
      j = subInit g.parser.appName (g.parser.executableName ++ [exe]) (s :: rest) := by
  by_cases hp : Ready g.parser
  · refine ⟨hp, ?_⟩
    cases ha : g.parser.arguments with
    | nil => rw [parse_no_arguments env g hp ha] at h; simp [hs] at h
    | cons exe args =>
      obtain ⟨toks, stop, hr⟩ := reading_exists g.parser.options g.parser.subcommands args
      have hsp : (parse env g).2.parser.subParser = (scannedParser g.parser exe toks stop).subParser := by
        rw [parse_reading env g hp exe args ha toks stop hr]
        cases stop.exn? with
        | some e => rfl
        | none => simp only [checkAndParse_parser]
      rw [hsp] at h
      refine ⟨exe, args, toks, ?_⟩
      cases stop <;> simp [scannedParser, Stop.sub?] at h
      exact ⟨_, _, rfl, hr, h.symm⟩
  · rw [parse_not_ready env g hp] at h
    simp [hs] at h

/-- The sub-parser after a history was made by the first `parse()` in it. -/
theorem subParser_history (env : Env W) (as : List (Action W)) (g : Prog W) (hs : g.parser.subParser = none) (j : Init)
    (h : (runActions env as g).parser.subParser = some j) :
    ∃ (cs : List (Call W)) (as₂ : List (Action W)), as = cs.map Action.call ++ .parse :: as₂ ∧
      (parse env (runActions env (cs.map .call) g)).2.parser.subParser = some j ∧
      (runActions env (cs.map .call) g).parser.subParser = none ∧
      (runActions env (cs.map .call) g).parser.appName = g.parser.appName ∧
      (runActions env (cs.map .call) g).parser.arguments = g.parser.arguments ∧
      (runActions env (cs.map .call) g).parser.executableName = g.parser.executableName := by
  have stays : ∀ (as : List (Action W)) (g : Prog W), g.parser.parseWasCalled = true →
      (runActions env as g).parser.subParser = g.parser.subParser := by
    intro as
    induction as with
    | nil => intros; rfl
    | cons a as ih =>
      intro g hg
      simp only [runActions]
      cases a with
      | call c =>
        obtain ⟨_, _, _, h4, h5, _⟩ := call_keeps env c g
        rw [ih _ (h5.trans hg), h4]
      | parse =>
        have : Action.parse.run env g = (.threw .designError, g) := by simp [Action.run, parse, hg]
        rw [this, ih _ hg]
  induction as generalizing g with
  | nil => simp [runActions, hs] at h
  | cons a as ih =>
    cases a with
    | call c =>
      obtain ⟨h1, h2, h3, h4, _⟩ := call_keeps env c g
      obtain ⟨cs, as₂, e1, e2, e3, e4, e5, e6⟩ := ih _ (h4.trans hs) h
      refine ⟨c :: cs, as₂, by simp [e1], e2, e3, e4.trans h1, e5.trans h2, e6.trans h3⟩
    | parse =>
      refine ⟨[], as, rfl, ?_, hs, rfl, rfl, rfl⟩
      exact (stays as _ (parse_parser env g).2).symm.trans h

end Sharg
