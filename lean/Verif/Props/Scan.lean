import Verif.Lemmas.ParseRun
import Verif.Props.Setup

/-!
# Properties C07 (nesting) and C08 - C16: requests, subcommands, what remains for the option parser

`Reading options subs args toks stop` (see `Verif.Spec.Scan`) says how the arguments behind the program name are to be
read. `reading_exists` (in `Verif.Lemmas.Scan`) shows that every argument list has a reading, so no theorem below is
restricted by mentioning one.
-/

namespace Sharg

open Spec

variable {W : Type}

/-! ## C07, nesting, and C13 for chains -/

theorem sub_of_start (env : Env W) (j k : Init) (as : List (Action W)) (st : Store) (w : W)
    (h : getSubParser (runActions env as (start j st w)).parser = .ok k) :
    CleanName j.appName ∧ ∃ exe args s rest, j.arguments = exe :: args ∧ CleanName s ∧
      k = subInit j.appName (j.executableName ++ [exe]) (s :: rest) ∧ ∃ pre, args = pre ++ s :: rest := by
  have hs : (runActions env as (start j st w)).parser.subParser = some k := by
    unfold getSubParser at h
    split at h
    · cases h
    · rename_i i hi; rw [hi]; cases h; rfl
  obtain ⟨cs, as₂, _, h2, h3, h4, h5, h6⟩ := subParser_history env as (start j st w) rfl k hs
  obtain ⟨hr, exe, args, toks, s, rest, e1, e2, e3⟩ := parse_subParser env _ h3 k h2
  have e4 : j.arguments = exe :: args := h5.symm.trans e1
  have e5 : j.appName = (runActions env (cs.map .call) (start j st w)).parser.appName := h4.symm
  have e6 : j.executableName = (runActions env (cs.map .call) (start j st w)).parser.executableName := h6.symm
  refine ⟨e5 ▸ hr.app, exe, args, s, rest, e4, hr.subs s e2.stopOk.2, ?_, ?_⟩
  · rw [e5, e6]; exact e3
  · exact ⟨_, e2.eq⟩

theorem chain_nil {env : Env W} {i k : Init} {ns : List Str} (h : SubChain env i ns k) (hn : ns = []) : k = i := by
  cases h with
  | refl => rfl
  | step => simp at hn

/-- C07: the name of every sub-parser, at every nesting depth, is clean, and so are all names above it. -/
theorem C07_nested_names_clean (env : Env W) (i k : Init) (ns : List Str) (h : SubChain env i ns k) (hn : ns ≠ []) :
    CleanName i.appName ∧ CleanName k.appName ∧ ∀ s ∈ ns, CleanName s := by
  induction h with
  | refl => exact absurd rfl hn
  | @step j k ns s rest as st w hc hg hk ih =>
    obtain ⟨h1, exe, args, s', rest', h2, h3, h4, _⟩ := sub_of_start env j k as st w hg
    subst h4
    simp [subInit] at hk
    obtain ⟨rfl, rfl⟩ := hk
    have hk : CleanName (j.appName ++ '-' :: s') := by
      refine ⟨by simp, fun c hc => ?_⟩
      simp at hc
      rcases hc with hc | rfl | hc
      · exact h1.2 c hc
      · simp
      · exact h3.2 c hc
    by_cases hns : ns = []
    · subst hns
      have := chain_nil hc rfl
      subst this
      exact ⟨h1, hk, by simpa using h3⟩
    · obtain ⟨a, _, c⟩ := ih hns
      refine ⟨a, hk, fun x hx => ?_⟩
      simp at hx
      rcases hx with hx | rfl
      · exact c x hx
      · exact h3

/-- C13, for chains: the name of a nested sub-parser is the root's name with all subcommands appended, its first
argument is its subcommand, it inherits the chain of executable names, and update notifications are off. -/
theorem C13_nested_sub_parsers (env : Env W) (i k : Init) (ns : List Str) (h : SubChain env i ns k) (hn : ns ≠ []) :
    k.appName = i.appName ++ ns.flatMap (fun s => '-' :: s) ∧
    k.executableName = i.executableName ++ (i.arguments.take 1 ++ ns).dropLast ∧
    k.notify = false ∧ k.subcommands = [] ∧ k.arguments.head? = ns.getLast? ∧ k.arguments <:+ i.arguments := by
  induction h with
  | refl => exact absurd rfl hn
  | @step j k ns s rest as st w hc hg hk ih =>
    obtain ⟨h1, exe, args, s', rest', h2, h3, h4, pre, h5⟩ := sub_of_start env j k as st w hg
    subst h4
    simp [subInit] at hk
    obtain ⟨rfl, rfl⟩ := hk
    by_cases hns : ns = []
    · subst hns
      have := chain_nil hc rfl
      subst this
      subst h5
      refine ⟨by simp [subInit], by simp [subInit, h2], rfl, rfl, by simp [subInit], ?_⟩
      exact ⟨exe :: pre, by simp [subInit, h2]⟩
    · obtain ⟨a, b, _, _, d, e⟩ := ih hns
      refine ⟨by simp [subInit, a], ?_, rfl, rfl, by simp [subInit], ?_⟩
      · have hx : exe = ns.getLast hns := by
          rw [h2, List.head?_cons, List.getLast?_eq_some_getLast hns] at d
          exact Option.some.inj d
        simp only [subInit, b]
        rw [List.dropLast_append_of_ne_nil hns, ← List.append_assoc _ ns,
          List.dropLast_concat, List.append_assoc, List.append_assoc]
        congr 2
        rw [hx]
        exact List.dropLast_concat_getLast hns
      · refine List.IsSuffix.trans ?_ e
        exact ⟨exe :: pre, by simp [subInit, h2, h5]⟩

/-- A chain of length two. -/
def exGit : Init :=
  { appName := "git".toList, arguments := ["git", "remote", "add", "x"].map String.toList, notify := true,
    subcommands := ["remote".toList], executableName := [] }

example : SubChain exEnv exGit (["remote", "add"].map String.toList)
    (subInit "git-remote".toList (["git", "remote"].map String.toList) (["add", "x"].map String.toList)) := by
  have h1 : SubChain exEnv exGit ([] ++ ["remote".toList])
      (subInit "git".toList ["git".toList] (["remote", "add", "x"].map String.toList)) :=
    .step "remote".toList (["add", "x"].map String.toList) [.parse] (fun _ => .one (.int 0)) () (.refl _) (by rfl) (by rfl)
  exact .step "add".toList ["x".toList] [.call (.addSubcommands ["add".toList]), .parse] (fun _ => .one (.int 0)) () h1
    (by rfl) (by rfl)

/-! ## C08 -/

theorem request_tok_ok (env : Env W) (i : Init) (st : Store) (w : W) (as : List (Action W))
    (p : Parser W) (hp : p = (runActions env as (start i st w)).parser) :
    (∀ f req, Requests f req → (∀ a ∈ req.head?, a ∉ p.subcommands) → (Tok.request f req).Ok p.options p.subcommands) ∧
    (∀ b v, CheckValue b v → "version-check".toList ∉ p.usedIds → "--version-check".toList ∉ p.subcommands →
      (Tok.check b v).Ok p.options p.subcommands) := by
  have hinv : Inv p := hp ▸ inv_history env as (start i st w) (inv_start i)
  have hd : ∀ s ∈ p.usedIds, dash s = "--version-check".toList → s = "version-check".toList := by
    intro s hs h
    have h2 : "--version-check".toList = dash "version-check".toList := by decide
    rw [h2] at h
    exact dash_inj (hinv.wf s hs) (Or.inr (by decide)) h
  constructor
  · intro f req hf hn
    refine ⟨hf, fun a rest ha => ⟨fun ho => ?_, hn a (by simp [ha])⟩⟩
    obtain ⟨s, hs, rfl, hnp⟩ := hinv.opts a ho
    have key : ∀ t ∈ predefined, dash s = dash t → False := by
      intro t ht h
      have := dash_inj (hinv.wf s hs) (predefined_wf t ht) h
      exact hnp (this ▸ ht)
    have shape : ∀ {t : Str}, dash s = t → (∀ c ∈ t, IsShortChar c ∨ c = '-') ∧
        (t.length = 2 ∨ ∃ r, t = '-' :: '-' :: r) := by
      rintro t rfl
      rcases hinv.wf s hs with ⟨c, rfl, hc⟩ | hl
      · exact ⟨by simp [dash, hc], Or.inl rfl⟩
      · rw [dash_long hl]
        exact ⟨by simpa using hl.2.1, Or.inr ⟨_, rfl⟩⟩
    cases hf with
    | help => simp at ha; exact key "h".toList (by decide) (ha.1.symm.trans (by decide))
    | helpLong => simp at ha; exact key "help".toList (by decide) (ha.1.symm.trans (by decide))
    | advanced =>
      simp at ha
      rcases (shape ha.1.symm).2 with h | ⟨r, h⟩
      · revert h; decide
      · simp at h
    | advancedLong => simp at ha; exact key "advanced-help".toList (by decide) (ha.1.symm.trans (by decide))
    | version => simp at ha; exact key "version".toList (by decide) (ha.1.symm.trans (by decide))
    | copyright => simp at ha; exact key "copyright".toList (by decide) (ha.1.symm.trans (by decide))
    | html => simp at ha; exact key "export-help".toList (by decide) (ha.1.symm.trans (by decide))
    | man => simp at ha; exact key "export-help".toList (by decide) (ha.1.symm.trans (by decide))
    | ctd => simp at ha; exact key "export-help".toList (by decide) (ha.1.symm.trans (by decide))
    | cwl => simp at ha; exact key "export-help".toList (by decide) (ha.1.symm.trans (by decide))
    | htmlEq => simp at ha; have := (shape ha.1.symm).1; revert this; decide
    | manEq => simp at ha; have := (shape ha.1.symm).1; revert this; decide
    | ctdEq => simp at ha; have := (shape ha.1.symm).1; revert this; decide
    | cwlEq => simp at ha; have := (shape ha.1.symm).1; revert this; decide
  · intro b v hb hv hn
    refine ⟨hb, fun ho => ?_, hn⟩
    obtain ⟨s, hs, h, _⟩ := hinv.opts _ ho
    exact hv (hd s hs h.symm ▸ hs)

theorem reading_extend {options subs : List Str} {toks : List Tok} (t : Tok) (rest : List Str)
    (ht : ∀ t ∈ toks, t.Ok options subs) (h : t.Ok options subs) :
    ∃ toks' stop, Reading options subs (renderToks toks ++ t.render ++ rest) (toks ++ t :: toks') stop := by
  obtain ⟨toks', stop, hr⟩ := reading_exists options subs rest
  refine ⟨toks', stop, ⟨by rw [hr.eq]; simp [renderToks], fun x hx => ?_, hr.stopOk⟩⟩
  simp at hx
  rcases hx with hx | rfl | hx
  · exact ht x hx
  · exact h
  · exact hr.toksOk x hx

/-- C08, the part that holds (partial): whatever was registered in whatever history, a predefined request `req` in a
place where it stands on its own (behind well-read arguments `toks`, i.e. not as value of an option and not behind a
subcommand) is read as that request, provided no subcommand is called like it; and so is `--version-check`, provided
the identifier `version-check` was never given to an option or flag. Missing: these two cases, see the
counterexamples. -/
theorem C08_predefined_requests_keep_meaning_partial (env : Env W) (i : Init) (st : Store) (w : W) (as : List (Action W))
    (p : Parser W) (hp : p = (runActions env as (start i st w)).parser) (toks : List Tok)
    (ht : ∀ t ∈ toks, t.Ok p.options p.subcommands) (rest : List Str) :
    (∀ f req, Requests f req → (∀ a ∈ req.head?, a ∉ p.subcommands) →
      ∃ toks' stop, Reading p.options p.subcommands (renderToks toks ++ req ++ rest)
        (toks ++ .request f req :: toks') stop) ∧
    (∀ b v, CheckValue b v → "version-check".toList ∉ p.usedIds → "--version-check".toList ∉ p.subcommands →
      ∃ toks' stop, Reading p.options p.subcommands (renderToks toks ++ ["--version-check".toList, v] ++ rest)
        (toks ++ .check b v :: toks') stop) := by
  obtain ⟨h1, h2⟩ := request_tok_ok env i st w as p hp
  exact ⟨fun f req hf hn => reading_extend (.request f req) rest ht (h1 f req hf hn),
    fun b v hb hv hn => reading_extend (.check b v) rest ht (h2 b v hb hv hn)⟩

/-- An instance with an option, a flag and a value before the request. -/
example : (runActions exEnv [.call (exOption 'a' "alpha"), .call (exFlag 'b' "")] exStart).parser.options =
    ["-a".toList, "--alpha".toList] := by decide

def exVersionCheckOption : Prog Unit :=
  runActions exEnv [.call (.addOption { long := "version-check".toList } 0 false .string (fun _ w => (true, w)))]
    (start { exInit with arguments := ["app", "--version-check", "0"].map String.toList } (fun _ => .one (.int 0)) ())

/-- C08 does not hold for `--version-check`: a developer can register an option of that name, and the user's decision
against version checks is then taken as its value. -/
theorem C08_version_check_can_be_taken_over :
    (parse exEnv exVersionCheckOption).1 = .returned ∧
    (parse exEnv exVersionCheckOption).2.parser.userDecision = none ∧
    (parse exEnv exVersionCheckOption).2.store 0 = .one (.str "0".toList) := by decide

def exDashSubcommand : Prog Unit :=
  start { exInit with subcommands := ["-h".toList], arguments := ["app", "-h"].map String.toList }
    (fun _ => .one (.int 0)) ()

/-- C08 does not hold if a subcommand is called like a request: `-h` then is the subcommand. -/
theorem C08_subcommand_can_take_over :
    (parse exEnv exDashSubcommand).1 = .returned ∧
    (parse exEnv exDashSubcommand).2.parser.subParser.isSome = true := by decide

/-! ## C09 -/

/-- C09: with a page request among the arguments (before any subcommand, not as value of an option), `parse()` does
not return normally and changes no variable. -/
theorem C09_request_never_runs_program (env : Env W) (g : Prog W) (exe : Str) (args : List Str)
    (ha : g.parser.arguments = exe :: args) (toks : List Tok) (stop : Stop)
    (hr : Reading g.parser.options g.parser.subcommands args toks stop)
    (f : Format) (req : List Str) (hreq : Tok.request f req ∈ toks) :
    (parse env g).1 ≠ .returned ∧ (parse env g).2.store = g.store := by
  by_cases hp : Ready g.parser
  · rw [parse_reading env g hp exe args ha toks stop hr]
    cases stop.exn? with
    | some e => simp
    | none =>
      have hl : lastRequest toks ≠ none := by
        unfold lastRequest
        rw [ne_eq, List.getLast?_eq_none_iff, List.eq_nil_iff_forall_not_mem]
        intro h
        exact h f (List.mem_filterMap.2 ⟨_, hreq, rfl⟩)
      obtain ⟨f', hf'⟩ := Option.ne_none_iff_exists'.1 hl
      have hd : decided toks stop = f' := by simp [decided, hf']
      have := checkAndParse_page env (decided toks stop)
        (hd ▸ (lastRequest_special _ _ toks hr.toksOk f' hf').2) { g with parser := scannedParser g.parser exe toks stop }
      exact ⟨this.1, this.2.1⟩
  · rw [parse_not_ready env g hp]; simp

def exScanLine (line : List String) (cs : List (Call Unit)) (subs : List String := []) : Prog Unit :=
  runActions exEnv (cs.map .call)
    (start { exInit with arguments := line.map String.toList, subcommands := subs.map String.toList }
      (fun _ => .one (.int 0)) ())

/-- `app -a 3 --help -x`: help although `-x` is unknown. -/
example : (parse exEnv (exScanLine ["app", "-a", "3", "--help", "-x"] [exOption 'a' "alpha"])).1 = .exited (.help false) ∧
    (exScanLine ["app", "-a", "3", "--help", "-x"] [exOption 'a' "alpha"]).parser.options = ["-a".toList, "--alpha".toList] := by
  decide
example : Reading ["-a".toList] [] (["-a", "3", "--help", "-x"].map String.toList)
    [.option "-a".toList "3".toList, .request (.help false) ["--help".toList], .plain "-x".toList] .atEnd := by
  refine ⟨rfl, ?_, trivial⟩
  intro t ht
  simp at ht
  rcases ht with rfl | rfl | rfl
  · show _ ∈ _
    decide
  · refine ⟨.helpLong, ?_⟩
    intro a rest h; cases h; decide
  · refine ⟨by decide, by decide, ?_, by simp⟩
    rw [not_reserved_iff]; decide

/-! ## C10 -/

/-- C10: if reading the arguments does not fail, the last page request decides: `parse()` ends by printing that page
and exiting, unless the version check or the printing itself throws; what is written is that page. -/
theorem C10_last_request_decides (env : Env W) (g : Prog W) (hp : Ready g.parser) (exe : Str) (args : List Str)
    (ha : g.parser.arguments = exe :: args) (toks₁ toks₂ : List Tok) (f : Format) (req : List Str) (stop : Stop)
    (hr : Reading g.parser.options g.parser.subcommands args (toks₁ ++ .request f req :: toks₂) stop)
    (hlast : ∀ f' req', Tok.request f' req' ∉ toks₂) (hok : stop.exn? = none) :
    let p' := (parse env g).2.parser
    let c := env.versionCheck p'.appName p'.notify p'.userDecision g.world
    parse env g =
      match c.1, (env.printPage f p' g.store c.2).1 with
      | some e, _ => (.threw e, { g with parser := p', world := c.2 })
      | none, some e => (.threw e, { g with parser := p', world := (env.printPage f p' g.store c.2).2 })
      | none, none => (.exited f, { g with parser := p', world := (env.printPage f p' g.store c.2).2 }) := by
  have hl : lastRequest (toks₁ ++ .request f req :: toks₂) = some f := by
    have : toks₂.filterMap Tok.request? = [] := by
      rw [List.filterMap_eq_nil_iff]
      intro t ht
      cases t with
      | request f' r' => exact absurd ht (hlast f' r')
      | _ => rfl
    unfold lastRequest
    rw [List.filterMap_append, List.filterMap_cons]
    simp [Tok.request?, this]
  have hf := (lastRequest_special _ _ _ hr.toksOk f hl).2
  have hd : decided (toks₁ ++ .request f req :: toks₂) stop = f := by simp [decided, hl]
  have h := parse_reading env g hp exe args ha _ stop hr
  rw [hok] at h
  simp only [hd] at h
  have hpar : (parse env g).2.parser = scannedParser g.parser exe (toks₁ ++ .request f req :: toks₂) stop := by
    rw [h, checkAndParse_parser]
  intro p' c
  have hp' : p' = scannedParser g.parser exe (toks₁ ++ .request f req :: toks₂) stop := hpar
  clear_value p'
  subst hp'
  rw [h]
  unfold checkAndParse
  simp only
  have hc : c = env.versionCheck (scannedParser g.parser exe (toks₁ ++ .request f req :: toks₂) stop).appName
    (scannedParser g.parser exe (toks₁ ++ .request f req :: toks₂) stop).notify
    (scannedParser g.parser exe (toks₁ ++ .request f req :: toks₂) stop).userDecision g.world := rfl
  rw [← hc]
  clear_value c
  obtain ⟨c1, c2⟩ := c
  cases c1 with
  | some e => rfl
  | none =>
    simp only [parseFormat_page env f hf]
    cases env.printPage f (scannedParser g.parser exe (toks₁ ++ .request f req :: toks₂) stop) g.store c2 with
    | mk a b => cases a <;> rfl

/-- `app --version -h --copyright x`. -/
example : (parse exEnv (exScanLine ["app", "--version", "-h", "--copyright", "x"] [])).1 = .exited .copyright := by decide

/-! ## C11 -/

/-- C11: short help is printed exactly if no argument remains: the reading succeeds and consists of version check
requests only. (Version check and printing do not throw.) -/
theorem C11_short_help_iff (env : Env W) (hv : ∀ a n u w, (env.versionCheck a n u w).1 = none)
    (hpr : ∀ f p st w, (env.printPage f p st w).1 = none) (g : Prog W) (hp : Ready g.parser) (exe : Str) (args : List Str)
    (ha : g.parser.arguments = exe :: args) :
    (parse env g).1 = .exited .shortHelp ↔
      ∃ toks, Reading g.parser.options g.parser.subcommands args toks .atEnd ∧ ∀ t ∈ toks, ∃ b v, t = .check b v := by
  have ex : ∀ f p, f ≠ .parse → (checkAndParse env f p).1 = .exited f := by
    intro f p hf
    unfold checkAndParse
    have := hv p.parser.appName p.parser.notify p.parser.userDecision p.world
    split
    · rename_i e w' h; rw [h] at this; simp at this
    · unfold parseFormat
      split
      · exact absurd rfl hf
      · split
        · rename_i e w2 h
          have := congrArg Prod.fst h
          rw [hpr] at this
          cases this
        · rfl
  constructor
  · intro h
    obtain ⟨toks, stop, hr⟩ := reading_exists g.parser.options g.parser.subcommands args
    rw [parse_reading env g hp exe args ha toks stop hr] at h
    cases hs : stop.exn? with
    | some e => rw [hs] at h; simp at h
    | none =>
      rw [hs] at h
      simp only at h
      have hd : decided toks stop = .shortHelp := by
        by_cases hd : decided toks stop = .parse
        · rw [hd] at h; exact absurd h (checkAndParse_parse env _ _)
        · rw [ex _ _ hd] at h; simpa using h
      unfold decided at hd
      cases hl : lastRequest toks with
      | some f =>
        rw [hl] at hd
        exact absurd hd (lastRequest_special _ _ toks hr.toksOk f hl).1
      | none =>
        rw [hl] at hd
        simp only at hd
        split at hd
        · simp at hd
        · rename_i hn
          simp only [not_or, ne_eq, Classical.not_not, List.append_eq_nil_iff] at hn
          obtain ⟨⟨h1, h2⟩, h3⟩ := hn
          have hst : stop = .atEnd := by
            cases stop <;> simp_all [Stop.exn?, Stop.kept, Stop.sub?]
          subst hst
          refine ⟨toks, hr, fun t ht => ?_⟩
          cases t with
          | check b v => exact ⟨b, v, rfl⟩
          | option o v =>
            have := List.flatMap_eq_nil_iff.1 h1 _ ht
            simp [Tok.kept] at this
          | plain a =>
            have := List.flatMap_eq_nil_iff.1 h1 _ ht
            simp [Tok.kept] at this
          | request f r =>
            rw [lastRequest, List.getLast?_eq_none_iff, List.filterMap_eq_nil_iff] at hl
            have := hl _ ht
            simp [Tok.request?] at this
  · rintro ⟨toks, hr, hall⟩
    rw [parse_reading env g hp exe args ha toks .atEnd hr]
    have hd : decided toks .atEnd = .shortHelp := by
      have h1 : lastRequest toks = none := by
        rw [lastRequest, List.getLast?_eq_none_iff, List.filterMap_eq_nil_iff]
        intro t ht
        obtain ⟨b, v, rfl⟩ := hall t ht
        rfl
      have h2 : kept toks = [] := by
        rw [kept, List.flatMap_eq_nil_iff]
        intro t ht
        obtain ⟨b, v, rfl⟩ := hall t ht
        rfl
      simp [decided, h1, h2, Stop.kept, Stop.sub?]
    simp only [Stop.exn?, hd]
    exact ex _ _ (by simp)

example : (parse exEnv (exScanLine ["app", "--version-check", "0"] [exOption 'a' "alpha"])).1 = .exited .shortHelp := by decide
example : (parse exEnv (exScanLine ["app"] [exOption 'a' "alpha"])).1 = .exited .shortHelp := by decide
/-- An empty argument counts as an argument. -/
example : (parse exEnv (exScanLine ["app", ""] [exOption 'a' "alpha"])).1 = .returned := by decide

/-! ## C12 (scanning), C13, C14, C16 -/

/-- C16, C13: for every reading, the arguments that remain for the option parser are exactly those of the options, with
their values, and of the other plain arguments, in order; and the sub-parser, if a subcommand was read, is named
`<app>-<sub>`, gets exactly the rest of the line, the chain of executable names, and no update notifications. -/
theorem C16_C13_what_remains (env : Env W) (g : Prog W) (hp : Ready g.parser) (exe : Str) (args : List Str)
    (ha : g.parser.arguments = exe :: args) (toks : List Tok) (stop : Stop)
    (hr : Reading g.parser.options g.parser.subcommands args toks stop) :
    (parse env g).2.parser.formatArguments = kept toks ++ stop.kept ∧
    (parse env g).2.parser.userDecision = lastCheck toks ∧
    (parse env g).2.parser.subParser =
      match stop with
      | .subcommand s rest => some
          { appName := g.parser.appName ++ '-' :: s, arguments := s :: rest, notify := false, subcommands := [],
            executableName := g.parser.executableName ++ [exe] }
      | _ => none := by
  have h : (parse env g).2.parser = scannedParser g.parser exe toks stop := by
    rw [parse_reading env g hp exe args ha toks stop hr]
    cases stop.exn? with
    | some e => rfl
    | none => simp only [checkAndParse_parser]
  rw [h]
  refine ⟨rfl, rfl, ?_⟩
  cases stop <;> rfl

/-- C16: what remains is a subsequence of the given arguments. -/
theorem C16_subsequence (env : Env W) (g : Prog W) (hp : Ready g.parser) (exe : Str) (args : List Str)
    (ha : g.parser.arguments = exe :: args) : (parse env g).2.parser.formatArguments.Sublist args := by
  obtain ⟨toks, stop, hr⟩ := reading_exists g.parser.options g.parser.subcommands args
  rw [(C16_C13_what_remains env g hp exe args ha toks stop hr).1, hr.eq]
  apply List.Sublist.append
  · unfold kept renderToks
    induction toks with
    | nil => simp
    | cons t toks ih =>
      simp only [List.flatMap_cons]
      refine List.Sublist.append ?_ ?_
      · cases t <;> simp [Tok.render, Tok.kept]
      · clear ih hr
        induction toks with
        | nil => simp
        | cons t toks ih =>
          simp only [List.flatMap_cons]
          refine List.Sublist.append ?_ ih
          cases t <;> simp [Tok.render, Tok.kept]
  · cases stop <;> simp [Stop.kept, Stop.render]

example : (parse exEnv (exScanLine ["app", "-a", "-h", "--version-check", "1", "sub", "-h", "sub"] [exOption 'a' "alpha"]
    ["sub"])).2.parser.formatArguments = ["-a".toList, "-h".toList] := by decide

/-- C12, scanning: behind a registered option `o` any argument `x` is kept as it is, whatever it spells, and the rest
is read as if `x` was not there. -/
theorem C12_value_is_shielded (env : Env W) (g : Prog W) (hp : Ready g.parser) (exe : Str) (o x : Str)
    (toks₁ toks₂ : List Tok) (stop : Stop) (rest : List Str) (ho : o ∈ g.parser.options)
    (h₁ : ∀ t ∈ toks₁, t.Ok g.parser.options g.parser.subcommands)
    (h₂ : Reading g.parser.options g.parser.subcommands rest toks₂ stop)
    (ha : g.parser.arguments = exe :: (renderToks toks₁ ++ o :: x :: rest)) :
    (parse env g).2.parser.formatArguments = kept toks₁ ++ o :: x :: (kept toks₂ ++ stop.kept) ∧
    (parse env g).2.parser.userDecision = (lastCheck toks₂).or (lastCheck toks₁) ∧
    ((parse env g).2.parser.subParser = none ↔ stop.sub? = none) ∧
    (∀ f, (parse env g).1 = .exited f → f = (lastRequest toks₂).getD ((lastRequest toks₁).getD .parse)) := by
  have hr : Reading g.parser.options g.parser.subcommands (renderToks toks₁ ++ o :: x :: rest)
      (toks₁ ++ .option o x :: toks₂) stop := by
    refine ⟨by rw [h₂.eq]; simp [renderToks, Tok.render], fun t ht => ?_, h₂.stopOk⟩
    simp at ht
    rcases ht with ht | rfl | ht
    · exact h₁ t ht
    · exact ho
    · exact h₂.toksOk t ht
  obtain ⟨e1, e2, e3⟩ := C16_C13_what_remains env g hp exe _ ha _ stop hr
  have hl : lastRequest (toks₁ ++ .option o x :: toks₂) = (lastRequest toks₂).or (lastRequest toks₁) := by
    simp [lastRequest, List.getLast?_append, Tok.request?, List.filterMap_cons]
  have hk : kept (toks₁ ++ .option o x :: toks₂) = kept toks₁ ++ o :: x :: kept toks₂ := by simp [kept, Tok.kept]
  refine ⟨by rw [e1, hk]; simp, ?_, ?_, ?_⟩
  · rw [e2]; simp [lastCheck, List.getLast?_append, Tok.check?, List.filterMap_cons]
  · rw [e3]; cases stop <;> simp [Stop.sub?]
  · intro f hf
    rw [parse_reading env g hp exe _ ha _ stop hr] at hf
    cases hs : stop.exn? with
    | some e => rw [hs] at hf; simp at hf
    | none =>
      rw [hs] at hf
      simp only at hf
      by_cases hd : decided (toks₁ ++ .option o x :: toks₂) stop = .parse
      · rw [hd] at hf; exact absurd hf (checkAndParse_parse env _ _)
      · rcases (checkAndParse_page env _ hd { g with parser := scannedParser g.parser exe (toks₁ ++ .option o x :: toks₂) stop }).2.2 with h | ⟨e, h⟩
        · rw [h] at hf
          injection hf with hf
          rw [← hf]
          unfold decided at hd ⊢
          rw [hl] at hd ⊢
          cases h2 : lastRequest toks₂ with
          | some f => simp
          | none =>
            cases h1 : lastRequest toks₁ with
            | some f => simp
            | none => simp [h1, h2, hk] at hd
        · rw [h] at hf; simp at hf

/-- `app -a --help` with a string option `-a`: the value is `--help`. -/
example : (parse exEnv (exScanLine ["app", "-a", "--help"]
    [.addOption { short := 'a' } 0 false .string (fun _ w => (true, w))])).2.store 0 = .one (.str "--help".toList) := by
  decide

/-- C14: on a parser with subcommands, an argument that is neither an option, a value, a request nor behind a
subcommand, does not start with `-` and is no subcommand, makes `parse()` throw `user_input_error`; no variable
changes and nothing is printed. -/
theorem C14_unknown_subcommand_reported (env : Env W) (g : Prog W) (hp : Ready g.parser) (exe a : Str)
    (toks : List Tok) (rest : List Str) (ht : ∀ t ∈ toks, t.Ok g.parser.options g.parser.subcommands)
    (ha : g.parser.arguments = exe :: (renderToks toks ++ a :: rest)) (hs : g.parser.subcommands ≠ [])
    (h₁ : a ∉ g.parser.options) (h₂ : a ∉ g.parser.subcommands) (h₃ : a.head? ≠ some '-') :
    (parse env g).1 = .threw .userInputError ∧ (parse env g).2.store = g.store ∧ (parse env g).2.world = g.world := by
  have hr : Reading g.parser.options g.parser.subcommands (renderToks toks ++ a :: rest) toks (.unknownSubcommand a rest) :=
    ⟨rfl, ht, h₁, h₂, hs, h₃⟩
  rw [parse_reading env g hp exe _ ha toks _ hr]
  exact ⟨rfl, rfl, rfl⟩

example : (parse exEnv (exScanLine ["app", "-a", "3", "--help", "foo", "sub"] [exOption 'a' "alpha"] ["sub"])).1 =
    .threw .userInputError := by decide

/-- The reading is unique as far as anything can be observed of it. -/
theorem reading_unique (options subs args : List Str) (toks toks' : List Tok) (stop stop' : Stop)
    (h : Reading options subs args toks stop) (h' : Reading options subs args toks' stop') :
    stop.exn? = stop'.exn? ∧ lastCheck toks = lastCheck toks' ∧ stop.sub? = stop'.sub? ∧
      kept toks ++ stop.kept = kept toks' ++ stop'.kept ∧ lastRequest toks = lastRequest toks' := by
  have e := (scan_reading _ _ _ _ _ h scanInit).symm.trans (scan_reading _ _ _ _ _ h' scanInit)
  have hx : stop.exn? = stop'.exn? ∧ scanResult toks stop scanInit = scanResult toks' stop' scanInit := by
    cases h1 : stop.exn? <;> cases h2 : stop'.exn? <;> simp [h1, h2] at e ⊢ <;> exact e
  obtain ⟨h1, h2⟩ := hx
  simp [scanResult, scanInit] at h2
  obtain ⟨a, b, c, d⟩ := h2
  refine ⟨h1, d, c, b, ?_⟩
  cases h3 : lastRequest toks with
  | none =>
    cases h4 : lastRequest toks' with
    | none => rfl
    | some f => rw [h3, h4] at a; exact absurd a.symm (lastRequest_special _ _ _ h'.toksOk f h4).1
  | some f =>
    cases h4 : lastRequest toks' with
    | none => rw [h3, h4] at a; exact absurd a (lastRequest_special _ _ _ h.toksOk f h3).1
    | some f' => rw [h3, h4] at a; exact congrArg some a

end Sharg
