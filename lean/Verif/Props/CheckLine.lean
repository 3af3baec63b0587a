import Verif.Props.Output
import Verif.Props.Apps

/-!
# Property C50: who decides about the version check, seen from the command line
-/

namespace Sharg

open Spec

/-- The validators of the set-up start no program. -/
def StartNothing (p : Parser System) : Prop :=
  (∀ d ∈ (declsOf p.operations).options, ∀ x w, (d.validator x w).2.commands = w.commands) ∧
  (∀ d ∈ (declsOf p.operations).positionals, ∀ x w, (d.validator x w).2.commands = w.commands)

theorem parseFormat_commands (r : Surroundings) (f : Format) (g : Prog System) (h : StartNothing g.parser) :
    (parseFormat r.env f g).2.world.commands = g.world.commands :=
  guards_parseFormat (P := fun x : System => x.commands = g.world.commands) r.env f g
    (fun _ _ _ _ hy => hy) (fun d hd x y hy => (h.1 d hd x y).trans hy) (fun d hd x y hy => (h.2 d hd x y).trans hy) rfl

theorem checkAndParse_commands (r : Surroundings) (f : Format) (g : Prog System) (h : StartNothing g.parser) :
    (checkAndParse r.env f g).2.world.commands =
      (runVersionCheck (r.check g.parser.appName) g.parser.notify g.parser.userDecision g.world).state.commands := by
  have hc : (runVersionCheck (r.check g.parser.appName) g.parser.notify g.parser.userDecision g.world).state =
    (r.env.versionCheck g.parser.appName g.parser.notify g.parser.userDecision g.world).2 := rfl
  rw [hc]
  unfold checkAndParse
  generalize r.env.versionCheck g.parser.appName g.parser.notify g.parser.userDecision g.world = c
  obtain ⟨o, w⟩ := c
  cases o with
  | some e => rfl
  | none => exact parseFormat_commands r f { g with world := w } h

theorem check_failed (i : CheckInput) (notify : Bool) (user : Option Bool) (s s₁ : System) (e : Exn) (h : makeChecker i s = .err e s₁) :
    (runVersionCheck i notify user s).state.commands = s.commands := by
  have h1 : (runVersionCheck i notify user s).state = s₁ := by
    unfold runVersionCheck
    rw [M.bind_run, h]
    rfl
  have h2 := quiet_makeChecker (o := System.commands) (fun _ _ => rfl) i s
  rw [h] at h2
  rw [h1]
  exact h2

/-- C50 for a whole `parse()`: the developer, the environment, the last `--version-check` among the arguments, the cookie
and the answer of the user decide, in this order, whether a program is started to ask the server; none is started if
the arguments are refused before, or if the files of the version check cannot be prepared. -/
theorem C50_line_decides (r : Surroundings) (g : Prog System) (hp : Ready g.parser) (hv : StartNothing g.parser)
    (exe : Str) (args : List Str) (ha : g.parser.arguments = exe :: args) (toks : List Tok) (stop : Stop)
    (hr : Reading g.parser.options g.parser.subcommands args toks stop) :
    (stop.exn? ≠ none → (parse r.env g).2.world.commands = g.world.commands) ∧
    (∀ e s, makeChecker (r.check g.parser.appName) g.world = .err e s → (parse r.env g).2.world.commands = g.world.commands) ∧
    ∀ ck s₁, stop.exn? = none → makeChecker (r.check g.parser.appName) g.world = .ok ck s₁ →
      ∃ cookie b, CookieSeen s₁ ck.cookiePath ck.timestampFile cookie ∧
        Decides g.parser.notify g.world.noCheckVar (lastCheck toks) cookie (answer g.world) b ∧
        (parse r.env g).2.world.commands.length =
          g.world.commands.length + (if b = true ∧ (g.world.wget = true ∨ g.world.curl = true) then 1 else 0) := by
  have hrun := parse_reading r.env g hp exe args ha toks stop hr
  have hcheck : stop.exn? = none → (parse r.env g).2.world.commands =
      (runVersionCheck (r.check g.parser.appName) g.parser.notify (lastCheck toks) g.world).state.commands := by
    intro hn
    rw [hrun, hn]
    exact checkAndParse_commands r _ { g with parser := scannedParser g.parser exe toks stop } hv
  refine ⟨fun h => ?_, fun e s hm => ?_, fun ck s₁ hn hm => ?_⟩
  · rw [hrun]
    cases hs : stop.exn? with
    | none => exact absurd hs h
    | some e => rfl
  · cases hn : stop.exn? with
    | some e => rw [hrun, hn]
    | none => rw [hcheck hn, check_failed _ _ _ _ _ _ hm]
  · obtain ⟨cookie, b, s', h1, h2, h3, h4, -⟩ := C50_who_decides (r.check g.parser.appName) g.parser.notify (lastCheck toks) g.world s₁ ck hm
    refine ⟨cookie, b, h1, h2, ?_⟩
    rw [hcheck hn, h3]
    exact h4

/-! ### Applications with subcommands -/

theorem check_at_most_once (i : CheckInput) (notify : Bool) (user : Option Bool) (s : System) :
    (runVersionCheck i notify user s).state.commands.length ≤ s.commands.length + 1 ∧
    (notify = false → (runVersionCheck i notify user s).state.commands = s.commands) := by
  constructor
  · cases hm : makeChecker i s with
    | err e s₁ => rw [check_failed _ _ _ _ _ _ hm]; omega
    | ok ck s₁ =>
      obtain ⟨-, b, s', -, -, h3, h4, -⟩ := C50_who_decides i notify user s s₁ ck hm
      rw [h3]
      show s'.commands.length ≤ _
      rw [h4]
      split <;> omega
  · rintro rfl
    rw [(C55_switched_off_partial i user s).1]

theorem parse_at_most_once (r : Surroundings) (g : Prog System) (hv : StartNothing g.parser) :
    (parse r.env g).2.world.commands.length ≤ g.world.commands.length + 1 ∧
    (g.parser.notify = false → (parse r.env g).2.world.commands = g.world.commands) := by
  rcases parse_steps r.env g with ⟨e, p, h⟩ | ⟨-, -, f, p, hs, h⟩
  · rw [h]
    exact ⟨Nat.le_succ _, fun _ => rfl⟩
  · have hv' : StartNothing p := by
      unfold StartNothing
      rw [hs.operations]
      exact hv
    rw [h, checkAndParse_commands r f { g with parser := p } hv']
    obtain ⟨h1, h2⟩ := check_at_most_once (r.check p.appName) p.notify p.userDecision g.world
    exact ⟨h1, fun hn => h2 (hs.notify.trans hn)⟩

theorem level_notify (app : App W) (env : Env W) (i : Init) (st : Store) (w : W) : (app.level env i st w).parser.notify = i.notify := by
  have key : ∀ (cs : List (Call W)) (g : Prog W), (runActions env (cs.map .call) g).parser.notify = g.parser.notify := by
    intro cs
    induction cs with
    | nil => intro g; rfl
    | cons c cs ih =>
      intro g
      obtain ⟨-, -, -, -, -, h, -⟩ := call_keeps env c g
      exact (ih ((Action.call c).run env g).2).trans h
  exact key _ _

/-- The validator of a set-up call, if any, starts no program. -/
def ModestCall : Call System → Prop
  | .addOption _ _ _ _ v => ∀ x w, (v x w).2.commands = w.commands
  | .addPositionalOption _ _ _ _ v => ∀ x w, (v x w).2.commands = w.commands
  | _ => True

theorem accepted_mem (env : Env W) (cs : List (Call W)) (g : Prog W) : ∀ c ∈ accepted env (cs.map .call) g, c ∈ cs := by
  induction cs generalizing g with
  | nil => intro c hc; cases hc
  | cons c' cs ih =>
    intro c hc
    simp only [List.map_cons, accepted] at hc
    split at hc
    · rcases List.mem_cons.1 hc with rfl | hc
      · exact List.mem_cons_self
      · exact List.mem_cons_of_mem _ (ih _ c hc)
    · exact List.mem_cons_of_mem _ (ih _ c hc)

theorem level_startNothing (app : App System) (env : Env System) (i : Init) (st : Store) (w : System) (h : ∀ c ∈ app i st w, ModestCall c) :
    StartNothing (app.level env i st w).parser := by
  have hmem : ∀ e ∈ (app.level env i st w).parser.operations, ∃ c, ModestCall c ∧ c.entry? = some e := by
    intro e he
    unfold App.level at he
    rw [operations_history] at he
    rcases List.mem_append.1 he with he | he
    · cases he
    · obtain ⟨c, hc, he⟩ := List.mem_filterMap.1 he
      exact ⟨c, h c (accepted_mem _ _ _ c hc), he⟩
  constructor
  · intro d hd
    obtain ⟨e, he, hde⟩ := List.mem_filterMap.1 hd
    obtain ⟨c, hc, hce⟩ := hmem e he
    cases c with
    | addOption cfg y l ty v => cases hce; cases hde; exact hc
    | _ => cases hce <;> cases hde
  · intro d hd
    obtain ⟨e, he, hde⟩ := List.mem_filterMap.1 hd
    obtain ⟨c, hc, hce⟩ := hmem e he
    cases c with
    | addPositionalOption cfg y l ty v => cases hce; cases hde; exact hc
    | _ => cases hce <;> cases hde

/-- C50, C55 for applications with subcommands: however many levels there are, at most one program is started to ask the
server, and none if the developer switched the notifications off, even though every level calls `parse()`. -/
theorem C50_C55_application_asks_once (r : Surroundings) (app : App System)
    (hcalls : ∀ i st w, ∀ c ∈ app i st w, ModestCall c) (i : Init) (st : Store) (w : System) (o : Outcome)
    (st' : Store) (w' : System) (vs : List Visit) (h : AppRuns r.env app i st w o st' w' vs) :
    w'.commands.length ≤ w.commands.length + 1 ∧ (i.notify = false → w'.commands = w.commands) := by
  have happ : ∀ i st w, StartNothing (app.level r.env i st w).parser := fun i st w => level_startNothing app r.env i st w (hcalls i st w)
  induction h with
  | @last i st w o g' hp hs =>
    have := parse_at_most_once r _ (happ i st w)
    rw [hp, (level_keeps app r.env i st w).2.2.2.2.2, level_notify] at this
    exact this
  | @sub i j st st' w w' o g' vs hp hs hr ih =>
    have h1 := parse_at_most_once r _ (happ i st w)
    obtain ⟨-, -, -, k4, -, k6⟩ := level_keeps app r.env i st w
    rw [hp, k6, level_notify] at h1
    have hj' : (parse r.env (app.level r.env i st w)).2.parser.subParser = some j := by rw [hp]; exact hs
    obtain ⟨-, exe, args, toks, s, rest, -, -, e3⟩ := parse_subParser r.env _ k4 j hj'
    have hn : j.notify = false := by rw [e3]; rfl
    rw [ih.2 hn]
    exact h1

/-! ### Examples -/

/-- `app --version-check 0 -a 1`: the terminal would be asked, but the line decides. -/
def exCheckLine (v : String) : Prog System := exProgram (exSystem [] 1000000 "y\n") ["app", "--version-check", v, "-a", "1"]

theorem exCheckLine_reading (b : Bool) (v : String) (hb : CheckValue b v.toList) :
    Reading (exCheckLine v).parser.options (exCheckLine v).parser.subcommands
      (["--version-check".toList, v.toList, "-a".toList, "1".toList]) [.check b v.toList, .option "-a".toList "1".toList] .atEnd := by
  have ho : (exCheckLine v).parser.options = ["-a".toList, "--alpha".toList] := rfl
  have hsub : (exCheckLine v).parser.subcommands = [] := rfl
  rw [ho, hsub]
  refine ⟨rfl, fun t ht => ?_, trivial⟩
  simp only [List.mem_cons, List.not_mem_nil, or_false] at ht
  rcases ht with rfl | rfl
  · exact ⟨hb, by decide, by decide⟩
  · show _ ∈ _
    decide

theorem exCheckLine_quiet (v : String) : StartNothing (exCheckLine v).parser := by
  have h : (exCheckLine v).parser.operations =
    [.option { short := 'a', long := "alpha".toList } 0 false (.integer (-128) 127) (fun _ w => (true, w))] := rfl
  constructor
  · intro d hd
    rw [h] at hd
    cases hd with
    | head => intro x w; rfl
    | tail _ hd => cases hd
  · intro d hd
    rw [h] at hd
    cases hd

theorem exCheckLine_ready (v : String) : Ready (exCheckLine v).parser :=
  ⟨rfl, (by decide : CleanName "app".toList), fun s hs => by cases hs⟩

/-- `--version-check 1`: a program is started, whatever the user would answer; `--version-check 0`: none is started. -/
example : ∃ ck s₁ cookie, makeChecker ((exSurroundings {}).check "app".toList) (exSystem [] 1000000 "y\n") = .ok ck s₁ ∧
    CookieSeen s₁ ck.cookiePath ck.timestampFile cookie ∧
    (parse (exSurroundings {}).env (exCheckLine "1")).2.world.commands.length = 1 ∧
    (parse (exSurroundings {}).env (exCheckLine "0")).2.world.commands.length = 0 := by
  obtain ⟨d, h1, -, -⟩ := makeChecker_usable ((exSurroundings {}).check "app".toList) _ _ (ex_usable 1000000 "y\n") (by decide)
  obtain ⟨-, -, k1⟩ := C50_line_decides (exSurroundings {}) (exCheckLine "1") (exCheckLine_ready _) (exCheckLine_quiet _)
    "app".toList _ rfl _ _ (exCheckLine_reading true "1" (Or.inl rfl))
  obtain ⟨-, -, k0⟩ := C50_line_decides (exSurroundings {}) (exCheckLine "0") (exCheckLine_ready _) (exCheckLine_quiet _)
    "app".toList _ rfl _ _ (exCheckLine_reading false "0" (Or.inl rfl))
  obtain ⟨cookie, b, hc, hd, hl⟩ := k1 _ _ rfl h1
  obtain ⟨_, b', -, hd', hl'⟩ := k0 _ _ rfl h1
  refine ⟨_, _, cookie, h1, hc, ?_, ?_⟩
  · cases hd with
    | user => exact hl
  · cases hd' with
    | user => exact hl'

/-- An application with a flag at every level. -/
def exFlagApp : App System := fun _ _ _ => [.addFlag { short := 'v', long := "verbose".toList } 3 false]

example (i : Init) (st : Store) (w : System) : ∃ o st' w' vs, AppRuns (exSurroundings {}).env exFlagApp i st w o st' w' vs ∧
    w'.commands.length ≤ w.commands.length + 1 := by
  obtain ⟨o, st', w', vs, h, -⟩ := C82_runs_end (exSurroundings {}).env exFlagApp i st w
  refine ⟨o, st', w', vs, h, (C50_C55_application_asks_once _ _ (fun i st w c hc => ?_) _ _ _ _ _ _ _ h).1⟩
  rw [List.mem_singleton.1 hc]
  trivial

end Sharg
