import Verif.Props.Scan

/-!
# Properties C03, C08 and C12 from the registrations to the end of `parse()`

The theorems in `Verif.Props.Scan` speak of the list `options` of a parser object. Here the parser is the result of a history of API
calls, and `options` is compared with the accepted calls of that history.
-/

namespace Sharg

open Spec

variable {W : Type}

theorem written_eq {cfg : Config} (h : CfgOk cfg) : written cfg = (idsOf cfg).map dash := by
  unfold written idsOf
  by_cases h1 : cfg.short = '\x00' <;> by_cases h2 : cfg.long = [] <;> simp [h1, h2, dash]
  · have := dash_long (h.2.2 h2)
    simp [dash] at this
    exact this.symm
  · have := dash_long (h.2.2 h2)
    simp [dash] at this
    exact this.symm

theorem entry_of_accepted (env : Env W) (i : Init) (st : Store) (w : W) (as : List (Action W)) (c : Call W) (e : Entry W)
    (hc : c ∈ accepted env as (start i st w)) (he : c.entry? = some e) :
    e ∈ (runActions env as (start i st w)).parser.operations := by
  rw [operations_history]
  exact List.mem_append.2 (Or.inr (List.mem_filterMap.2 ⟨c, hc, he⟩))

/-- C12: after any history, the scan of the arguments takes what follows an identifier of an accepted `add_option` call for its value, and does
not do so for an accepted flag. -/
theorem C12_options_are_known (env : Env W) (i : Init) (st : Store) (w : W) (as : List (Action W)) :
    (∀ cfg x l ty v, Call.addOption cfg x l ty v ∈ accepted env as (start i st w) →
      ∀ o ∈ written cfg, o ∈ (runActions env as (start i st w)).parser.options) ∧
    ∀ cfg x b, Call.addFlag cfg x b ∈ accepted env as (start i st w) →
      ∀ o ∈ written cfg, o ∉ (runActions env as (start i st w)).parser.options := by
  have hinv := inv_history env as (start i st w) (inv_start i)
  constructor
  · intro cfg x l ty v hc o ho
    have he := entry_of_accepted env i st w as _ _ hc rfl
    rw [written_eq (hinv.cfgs cfg (List.mem_filterMap.2 ⟨_, he, rfl⟩))] at ho
    obtain ⟨s, hs, rfl⟩ := List.mem_map.1 ho
    exact hinv.optsAll cfg x l ty v he s hs
  · intro cfg x b hc o ho
    have he := entry_of_accepted env i st w as _ _ hc rfl
    rw [written_eq (hinv.cfgs cfg (List.mem_filterMap.2 ⟨_, he, rfl⟩))] at ho
    obtain ⟨s, hs, rfl⟩ := List.mem_map.1 ho
    exact hinv.flagsNot cfg x he s hs

/-- C12: behind an identifier of an accepted option any argument `x` is kept as it is, whatever it spells, and the rest is read as if `x` was
not there. -/
theorem C12_registered_value_is_shielded (env : Env W) (i : Init) (st : Store) (w : W) (as : List (Action W)) (g : Prog W)
    (hg : g = runActions env as (start i st w)) (hp : Ready g.parser) (cfg : Config) (v : VarId) (l : Bool) (ty : ElemTy)
    (va : Val → W → Bool × W) (hc : Call.addOption cfg v l ty va ∈ accepted env as (start i st w)) (o : Str) (ho : o ∈ written cfg)
    (exe x : Str) (toks₁ toks₂ : List Tok) (stop : Stop) (rest : List Str)
    (h₁ : ∀ t ∈ toks₁, t.Ok g.parser.options g.parser.subcommands)
    (h₂ : Reading g.parser.options g.parser.subcommands rest toks₂ stop)
    (ha : g.parser.arguments = exe :: (renderToks toks₁ ++ o :: x :: rest)) :
    (parse env g).2.parser.formatArguments = kept toks₁ ++ o :: x :: (kept toks₂ ++ stop.kept) ∧
    (parse env g).2.parser.userDecision = (lastCheck toks₂).or (lastCheck toks₁) ∧
    ((parse env g).2.parser.subParser = none ↔ stop.sub? = none) ∧
    (∀ f, (parse env g).1 = .exited f → f = (lastRequest toks₂).getD ((lastRequest toks₁).getD .parse)) :=
  C12_value_is_shielded env g hp exe o x toks₁ toks₂ stop rest
    (by rw [hg]; exact (C12_options_are_known env i st w as).1 cfg v l ty va hc o ho) h₁ h₂ ha

/-- C08, up to the end of `parse()` (partial): whatever was registered in whatever history, a predefined request `req` for the page `f`, behind
well-read arguments `toks`, keeps the program from being run, and if the rest of the line is read without error, then the page of the last
request in it, or else the page `f`, is printed; `--version-check` with the value `v` behind well-read arguments sets the decision of the user,
unless the rest of the line contains another one. Missing: a subcommand called like the request, and an option called `version-check`. -/
theorem C08_requests_take_effect_partial (env : Env W) (i : Init) (st : Store) (w : W) (as : List (Action W)) (g : Prog W)
    (hg : g = runActions env as (start i st w)) (hp : Ready g.parser) (exe : Str) (toks : List Tok)
    (ht : ∀ t ∈ toks, t.Ok g.parser.options g.parser.subcommands) (rest : List Str) :
    (∀ f req, Requests f req → (∀ a ∈ req.head?, a ∉ g.parser.subcommands) →
      g.parser.arguments = exe :: (renderToks toks ++ req ++ rest) →
      (parse env g).1 ≠ .returned ∧ (parse env g).2.store = g.store ∧
      ∀ toks' stop, Reading g.parser.options g.parser.subcommands rest toks' stop → stop.exn? = none →
        (∀ a n u w, (env.versionCheck a n u w).1 = none) → (∀ f p st w, (env.printPage f p st w).1 = none) →
        (parse env g).1 = .exited ((lastRequest toks').getD f)) ∧
    ∀ b v, CheckValue b v → "version-check".toList ∉ g.parser.usedIds → "--version-check".toList ∉ g.parser.subcommands →
      g.parser.arguments = exe :: (renderToks toks ++ ["--version-check".toList, v] ++ rest) →
      ∀ toks' stop, Reading g.parser.options g.parser.subcommands rest toks' stop →
        (parse env g).2.parser.userDecision = some ((lastCheck toks').getD b) := by
  obtain ⟨h1, h2⟩ := request_tok_ok env i st w as g.parser (by rw [hg])
  have join : ∀ (t : Tok), t.Ok g.parser.options g.parser.subcommands → ∀ toks' stop,
      Reading g.parser.options g.parser.subcommands rest toks' stop →
      Reading g.parser.options g.parser.subcommands (renderToks toks ++ t.render ++ rest) (toks ++ t :: toks') stop := by
    intro t hok toks' stop hr
    refine ⟨by rw [hr.eq]; simp [renderToks], fun x hx => ?_, hr.stopOk⟩
    simp at hx
    rcases hx with hx | rfl | hx
    · exact ht x hx
    · exact hok
    · exact hr.toksOk x hx
  constructor
  · intro f req hreq hn ha
    have hok := h1 f req hreq hn
    have hall : ∀ toks' stop, Reading g.parser.options g.parser.subcommands rest toks' stop →
        Reading g.parser.options g.parser.subcommands (renderToks toks ++ req ++ rest) (toks ++ Tok.request f req :: toks') stop :=
      join _ hok
    obtain ⟨toks₀, stop₀, hr₀⟩ := reading_exists g.parser.options g.parser.subcommands rest
    obtain ⟨a1, a2⟩ := C09_request_never_runs_program env g exe _ ha _ stop₀ (hall _ _ hr₀) f req (by simp)
    refine ⟨a1, a2, fun toks' stop hr he hv hpr => ?_⟩
    have hr' := hall _ _ hr
    have hl : lastRequest (toks ++ Tok.request f req :: toks') = some ((lastRequest toks').getD f) := by
      have e : (toks ++ Tok.request f req :: toks').filterMap Tok.request? = toks.filterMap Tok.request? ++ f :: toks'.filterMap Tok.request? := by
        simp [List.filterMap_append, Tok.request?]
      unfold lastRequest
      rw [e, List.getLast?_append, List.getLast?_cons]
      cases (toks'.filterMap Tok.request?).getLast? <;> simp
    rw [parse_reading env g hp exe _ ha _ stop hr', he]
    have hd : decided (toks ++ Tok.request f req :: toks') stop = (lastRequest toks').getD f := by simp [decided, hl]
    have hf := (lastRequest_special _ _ _ hr'.toksOk _ hl).2
    simp only [hd]
    unfold checkAndParse
    split
    · rename_i e w' h
      have := congrArg Prod.fst h
      rw [hv] at this
      cases this
    · simp only [parseFormat_page env _ hf]
      split
      · rename_i e w' h
        have := congrArg Prod.fst h
        rw [hpr] at this
        cases this
      · rfl
  · intro b v hb hu hs ha toks' stop hr
    have hr' : Reading g.parser.options g.parser.subcommands (renderToks toks ++ ["--version-check".toList, v] ++ rest)
        (toks ++ Tok.check b v :: toks') stop := join _ (h2 b v hb hu hs) _ _ hr
    rw [(C16_C13_what_remains env g hp exe _ ha _ stop hr').2.1]
    have e : (toks ++ Tok.check b v :: toks').filterMap Tok.check? = toks.filterMap Tok.check? ++ b :: toks'.filterMap Tok.check? := by
      simp [List.filterMap_append, Tok.check?]
    unfold lastCheck
    rw [e, List.getLast?_append, List.getLast?_cons]
    cases (toks'.filterMap Tok.check?).getLast? <;> simp

/-- C03 does not hold: after a rejected `add_option` (required with a default message) the scan takes the argument behind `-o` for a value,
so that `app -o --help` does not print the help page, as it would without the rejected call. -/
theorem C03_rejected_option_hides_help :
    let c : Call Unit := .addOption { short := 'o', required := true, defaultMessage := "7".toList } 0 false .string fun _ w => (true, w)
    let g := start { exInit with arguments := ["app", "-o", "--help"].map String.toList } (fun _ => .one (.int 0)) ()
    ((Action.call c).run exEnv g).1 = .threw .designError ∧
    (parse exEnv g).1 = .exited (.help false) ∧
    (parse exEnv ((Action.call c).run exEnv g).2).1 = .threw .unknownOption := by decide

/-! ### Examples -/

/-- `app -a -h -b --help x --version-check 0` with an option `-a` and a flag `-b`. -/
def exRequests : Prog Unit :=
  exScanLine ["app", "-a", "-h", "-b", "--help", "x", "--version-check", "0"] [exOption 'a' "alpha", exFlag 'b' "beta"]

example : ["-a".toList, "--alpha".toList] = written { short := 'a', long := "alpha".toList } ∧
    (parse exEnv exRequests).1 = .exited (.help false) ∧ (parse exEnv exRequests).2.parser.userDecision = some false ∧
    (parse exEnv exRequests).2.parser.formatArguments = ["-a", "-h", "-b", "x"].map String.toList := by decide

/-- The hypotheses of `C08_requests_take_effect_partial` for the request `--help` in that line. -/
example : (∀ t ∈ [Tok.option "-a".toList "-h".toList, Tok.plain "-b".toList], t.Ok exRequests.parser.options exRequests.parser.subcommands) ∧
    exRequests.parser.arguments = "app".toList ::
      (renderToks [Tok.option "-a".toList "-h".toList, Tok.plain "-b".toList] ++ ["--help".toList] ++ ["x", "--version-check", "0"].map String.toList) ∧
    Requests (.help false) ["--help".toList] := by
  refine ⟨fun t ht => ?_, by decide, .helpLong⟩
  simp at ht
  rcases ht with rfl | rfl
  · show _ ∈ _
    decide
  · refine ⟨by decide, by decide, ?_, fun h => absurd (by decide) h⟩
    rw [not_reserved_iff]; decide

end Sharg
