import Verif.Spec.App
import Verif.Props.OnlyLines
import Verif.Props.Scan
import Verif.Props.Equivalence

/-!
# Property C82: applications with subcommands read their line level by level
-/

namespace Sharg

open Spec

variable {W : Type}

/-! ### Levels -/

theorem level_reachable (app : App W) (env : Env W) (i : Init) (st : Store) (w : W) : Reachable env (app.level env i st w) :=
  ⟨_, _, _, _, rfl⟩

theorem calls_keep (env : Env W) (cs : List (Call W)) (g : Prog W) :
    (runActions env (cs.map .call) g).parser.appName = g.parser.appName ∧
    (runActions env (cs.map .call) g).parser.arguments = g.parser.arguments ∧
    (runActions env (cs.map .call) g).parser.executableName = g.parser.executableName ∧
    (runActions env (cs.map .call) g).parser.subParser = g.parser.subParser := by
  induction cs generalizing g with
  | nil => exact ⟨rfl, rfl, rfl, rfl⟩
  | cons c cs ih =>
    obtain ⟨h1, h2, h3, h4, _⟩ := call_keeps env c g
    obtain ⟨e1, e2, e3, e4⟩ := ih ((Action.call c).run env g).2
    exact ⟨e1.trans h1, e2.trans h2, e3.trans h3, e4.trans h4⟩

theorem level_keeps (app : App W) (env : Env W) (i : Init) (st : Store) (w : W) :
    (app.level env i st w).parser.appName = i.appName ∧ (app.level env i st w).parser.arguments = i.arguments ∧
    (app.level env i st w).parser.executableName = i.executableName ∧ (app.level env i st w).parser.subParser = none ∧
    (app.level env i st w).store = st ∧ (app.level env i st w).world = w := by
  obtain ⟨h1, h2, h3, h4⟩ := calls_keep env (app i st w) (start i st w)
  obtain ⟨h5, h6⟩ := runActions_calls env (app i st w) (start i st w)
  exact ⟨h1, h2, h3, h4, h5, h6⟩

/-! ### Reading a line with a subcommand -/

/-- The arguments of an option or a flag for scanning: an option with the argument behind it, or an argument with a dash. -/
theorem item_scanned {p : Parser W} (h : Inv p) {it : Item} (hit : it.Ok (declsOf p.operations))
    (hv : it ≠ .longFlag "version-check".toList) (hw : ∀ w, it ≠ .word w) :
    (∃ o v, it.render = [o, v] ∧ o ∈ p.options) ∨
    (∃ a, it.render = [a] ∧ a ∉ p.options ∧ ¬ Reserved a ∧ a.head? = some '-') := by
  have hlong : ∀ {c : Char} {t : Str}, c ≠ '-' → t ≠ [] → '-' :: c :: t ∉ p.options := by
    intro c t hc ht ho
    rcases opt_shape h ho with ⟨c', h1, _⟩ | ⟨s, h1, _⟩
    · simp at h1; exact ht h1.2
    · simp at h1; exact hc h1.1
  have hpre : "h".toList ∈ predefined := by decide
  cases it with
  | short c form v =>
    obtain ⟨hc, ⟨d, hd, rfl⟩, hform⟩ := hit
    obtain ⟨ho, hp⟩ := option_short h hd hc
    have hcd : d.short ≠ '-' := ((idsOk_of_inv h).shortChars _ (mem_shortIds_option hd hc)).2
    have hch : d.short ≠ 'h' := fun e => hp (by rw [e]; exact hpre)
    cases form with
    | attached => exact Or.inr ⟨_, rfl, hlong hcd hform.1, fun hres => hch (reserved_short hcd hres), rfl⟩
    | equals => exact Or.inr ⟨_, rfl, hlong hcd (by simp), fun hres => hch (reserved_short hcd hres), rfl⟩
    | separate => exact Or.inl ⟨_, _, rfl, ho⟩
  | long s sep v =>
    obtain ⟨hs, ⟨d, hd, rfl⟩, hsep⟩ := hit
    obtain ⟨ho, hp, hl⟩ := option_long h hd hs
    cases sep with
    | true => exact Or.inl ⟨_, _, rfl, ho⟩
    | false =>
      refine Or.inr ⟨_, rfl, ?_, fun hres => hp ?_, rfl⟩
      · intro ho
        rcases opt_shape h ho with ⟨c', h1, _⟩ | ⟨s, h1, h2⟩
        · simp at h1
        · simp at h1
          exact longId_no_eq h2 (by rw [← h1]; simp)
      · rw [reserved_long_eq (longId_no_eq hl) hres]; decide
  | flags cs =>
    obtain ⟨hne, hcs⟩ := hit
    cases cs with
    | nil => exact absurd rfl hne
    | cons c t =>
      obtain ⟨hc, f, hf, rfl⟩ := hcs c (by simp)
      obtain ⟨ho, hp⟩ := flag_short h hf hc
      have hcd : f.short ≠ '-' := ((idsOk_of_inv h).shortChars _ (mem_shortIds_flag hf hc)).2
      have hch : f.short ≠ 'h' := fun e => hp (by rw [e]; exact hpre)
      refine Or.inr ⟨_, rfl, ?_, fun hres => hch (reserved_short hcd hres), rfl⟩
      cases t with
      | nil => exact ho
      | cons c' t => exact hlong hcd (by simp)
  | longFlag s =>
    obtain ⟨hs, f, hf, rfl⟩ := hit
    obtain ⟨ho, hp, hl⟩ := flag_long h hf hs
    refine Or.inr ⟨_, rfl, ho, fun hres => ?_, rfl⟩
    have := reserved_long (longId_no_eq hl) hres
    simp only [List.mem_cons, List.not_mem_nil, or_false] at this
    rcases this with e | e | e | e | e | e <;> first | (exact hp (by rw [e]; decide)) | exact hv (by rw [e])
  | word w => exact absurd rfl (hw w)

/-- The arguments contain no request and reach the option parser unchanged; then comes the subcommand. -/
def SubRequested (options subs args : List Str) (s : Str) (rest : List Str) : Prop :=
  ∃ toks, Reading options subs (args ++ s :: rest) toks (.subcommand s rest) ∧ lastRequest toks = none ∧ lastCheck toks = none ∧
    kept toks = args

theorem SubRequested.option {options subs args : List Str} {s : Str} {rest : List Str} {o : Str} (v : Str) (ho : o ∈ options)
    (h : SubRequested options subs args s rest) : SubRequested options subs (o :: v :: args) s rest := by
  obtain ⟨toks, ⟨h1, h2, h3⟩, h4, h5, h6⟩ := h
  refine ⟨.option o v :: toks, ⟨?_, ?_, h3⟩, ?_, ?_, ?_⟩
  · rw [List.cons_append, List.cons_append, h1]; rfl
  · intro t ht
    rcases List.mem_cons.1 ht with rfl | ht
    · exact ho
    · exact h2 t ht
  · simpa [lastRequest, Tok.request?] using h4
  · simpa [lastCheck, Tok.check?] using h5
  · rw [← h6]; rfl

theorem SubRequested.plain {options subs args : List Str} {s : Str} {rest : List Str} {a : Str} (ha : a ∉ options) (hs : a ∉ subs)
    (hr : ¬ Reserved a) (hd : a.head? = some '-') (h : SubRequested options subs args s rest) :
    SubRequested options subs (a :: args) s rest := by
  obtain ⟨toks, ⟨h1, h2, h3⟩, h4, h5, h6⟩ := h
  refine ⟨.plain a :: toks, ⟨?_, ?_, h3⟩, ?_, ?_, ?_⟩
  · rw [List.cons_append, h1]; rfl
  · intro t ht
    rcases List.mem_cons.1 ht with rfl | ht
    · exact ⟨ha, hs, hr, fun _ => hd⟩
    · exact h2 t ht
  · simpa [lastRequest, Tok.request?] using h4
  · simpa [lastCheck, Tok.check?] using h5
  · rw [← h6]; rfl

theorem endMarker_not_option {p : Parser W} (h : Inv p) : ['-', '-'] ∉ p.options := by
  intro ho
  rcases opt_shape h ho with ⟨c, h1, h2⟩ | ⟨s, h1, h2⟩
  · simp at h1
    subst h1
    revert h2; decide
  · simp at h1
    subst h1
    exact absurd h2.1 (by decide)

theorem subRequested_line {g : Prog W} (h : Inv g.parser) {items : List Item} {tail : Option (List Str)} {s : Str} {rest : List Str}
    (hl : LevelGiven g items tail s rest) (hit : ∀ it ∈ items, it.Ok (declsOf g.parser.operations)) :
    SubRequested g.parser.options g.parser.subcommands (renderLine items tail) s rest := by
  have hdash : ∀ {a : Str}, a.head? = some '-' → a ∉ g.parser.subcommands := fun ha hs => hl.noDash _ hs ha
  have hstop : s ∉ g.parser.options := by
    intro ho
    refine hl.noDash s hl.known ?_
    rcases opt_shape h ho with ⟨c, rfl, _⟩ | ⟨t, rfl, _⟩ <;> rfl
  have hend : SubRequested g.parser.options g.parser.subcommands [] s rest :=
    ⟨[], ⟨rfl, by simp, ⟨hstop, hl.known⟩⟩, rfl, rfl, rfl⟩
  have hw := hl.noWords
  have hn := hl.notRequest
  have ht := hl.noTail
  unfold renderLine
  clear hl
  induction items with
  | nil =>
    obtain h' | h' := ht
    · subst h'; exact hend
    · subst h'
      refine SubRequested.plain (endMarker_not_option h) (hdash rfl) ?_ rfl hend
      intro hres
      have := reserved_long (s := []) (by simp) hres
      revert this; decide
  | cons it items ih =>
    rw [List.flatMap_cons, List.append_assoc]
    have ih := ih (fun i hi => hit i (by simp [hi])) (fun w hm => hw w (List.mem_cons_of_mem _ hm))
      (fun hm => hn (List.mem_cons_of_mem _ hm))
    rcases item_scanned h (hit it List.mem_cons_self) (fun e => hn (e ▸ List.mem_cons_self))
      (fun w e => hw w (e ▸ List.mem_cons_self)) with ⟨o, v, e, ho⟩ | ⟨a, e, h1, h2, h3⟩
    · rw [e]; exact .option v ho ih
    · rw [e]; exact .plain h1 (hdash h3) h2 h3 ih

/-- `parse()` at a level with subcommand: the options of this level are parsed, and the rest goes to the sub-parser. -/
theorem level_means (env : Env W) (g : Prog W) (hg : Reachable env g) (items : List Item) (tail : Option (List Str)) (s : Str)
    (rest : List Str) (hl : LevelGiven g items tail s rest) (hok : LineOk (decls g) items tail) (w₁ : W)
    (hv : CheckPasses env g w₁) (st' : Store) (w' : W) (hm : LineMeans (decls g) items tail g.store w₁ st' w') :
    ∃ g', parse env g = (.returned, g') ∧ g'.store = st' ∧ g'.world = w' ∧
      g'.parser.formatArguments = renderLine items tail ∧
      g'.parser.subParser = some (subInit g.parser.appName (g.parser.executableName ++ g.parser.arguments.take 1) (s :: rest)) := by
  obtain ⟨exe, ha⟩ := hl.arguments
  obtain ⟨toks, hr, h1, h2, h3⟩ := subRequested_line (inv_reachable hg) hl hok.itemsOk
  obtain ⟨s', hs, h4, h5⟩ := formatParse_of_means env.ndebug (idsOk_reachable hg) items tail hok g.store w₁ st' w' hm
  have hp := parse_reading env g ⟨hl.notParsed, hl.cleanName, hl.cleanSubs⟩ exe _ ha toks _ hr
  have hd : decided toks (.subcommand s rest) = .parse := by
    unfold decided; rw [h1]; simp [Stop.sub?]
  simp only [Stop.exn?] at hp
  rw [hd] at hp
  have hf : (scannedParser g.parser exe toks (.subcommand s rest)).formatArguments = renderLine items tail := by
    show kept toks ++ [] = _
    rw [h3, List.append_nil]
  unfold checkAndParse at hp
  dsimp only at hp
  rw [show (scannedParser g.parser exe toks (.subcommand s rest)).userDecision = none from h2,
    show env.versionCheck (scannedParser g.parser exe toks (.subcommand s rest)).appName
      (scannedParser g.parser exe toks (.subcommand s rest)).notify none g.world = (none, w₁) from hv] at hp
  dsimp only at hp
  unfold parseFormat at hp
  dsimp only at hp
  rw [hf, show formatParse env.ndebug (declsOf (scannedParser g.parser exe toks (.subcommand s rest)).operations)
    (renderLine items tail) g.store w₁ = .ok () s' from hs] at hp
  refine ⟨_, hp, h4, h5, hf, ?_⟩
  rw [ha]
  rfl

/-! ## C82 -/

/-- C82: a line whose levels are well-formed and have a meaning is accepted: every level parses its own part of the line,
and the variables at the end are what the levels mean one after the other. -/
theorem C82_application_line (env : Env W) (app : App W) (i : Init) (ls : List LineLevel) (items : List Item)
    (tail : Option (List Str)) (st : Store) (w : W) (st' : Store) (w' : W) (h : AppMeans env app i ls items tail st w st' w') :
    (∃ exe, i.arguments = exe :: renderApp ls items tail) ∧
    ∃ vs, AppRuns env app i st w .returned st' w' vs ∧
      vs.map (·.parsed) = ls.map (fun l => renderLine l.items l.tail) ++ [renderLine items tail] := by
  induction h with
  | @last i items tail st st' w w₁ w' hl hok hv hm =>
    obtain ⟨-, k2, -, -, k5, -⟩ := level_keeps app env i st w
    refine ⟨?_, ?_⟩
    · obtain ⟨exe, ha⟩ := hl.arguments
      exact ⟨exe, by rw [← k2, ha]; rfl⟩
    · obtain ⟨exe, ha, hp⟩ := parse_line (level_reachable app env i st w) hl hok.itemsOk hv
      obtain ⟨s, hs, h1, h2⟩ := formatParse_of_means env.ndebug (idsOk_reachable (level_reachable app env i st w)) items tail hok
        (app.level env i st w).store w₁ st' w' (by rw [k5]; exact hm)
      rw [show formatParse env.ndebug (declsOf (app.level env i st w).parser.operations) (renderLine items tail)
        (app.level env i st w).store w₁ = .ok () s from hs] at hp
      refine ⟨[⟨i, renderLine items tail⟩], ?_, rfl⟩
      rw [← h1, ← h2]
      exact .last hp (Or.inr rfl)
  | @sub i l rest ls items tail st st₁ st' w w₁ w₂ w' hl hok hv hm _ ih =>
    obtain ⟨k1, k2, k3, -, k5, -⟩ := level_keeps app env i st w
    obtain ⟨⟨exe', e⟩, vs, hr, hvs⟩ := ih
    obtain ⟨g', hp, rfl, rfl, hf, hs⟩ := level_means env _ (level_reachable app env i st w) l.items l.tail l.name rest hl hok w₁ hv
      st₁ w₂ (by rw [k5]; exact hm)
    refine ⟨?_, ⟨i, renderLine l.items l.tail⟩ :: vs, ?_, ?_⟩
    · obtain ⟨exe, ha⟩ := hl.arguments
      simp only [List.cons.injEq] at e
      refine ⟨exe, ?_⟩
      rw [← k2, ha, e.2]
      simp [renderApp]
    · rw [← hf]
      refine .sub hp hs ?_
      rw [k1, k2, k3]
      exact hr
    · rw [List.map_cons, hvs]; rfl

theorem level_sub (app : App W) (env : Env W) (i j : Init) (st : Store) (w : W) (g' : Prog W)
    (h : parse env (app.level env i st w) = (.returned, g')) (hj : g'.parser.subParser = some j) :
    ∃ exe pre s rest, i.arguments = exe :: (pre ++ s :: rest) ∧ j.arguments = s :: rest ∧ g'.parser.formatArguments.Sublist pre := by
  obtain ⟨-, k2, -, k4, -, -⟩ := level_keeps app env i st w
  have hj' : (parse env (app.level env i st w)).2.parser.subParser = some j := by rw [h]; exact hj
  obtain ⟨hp, exe, args, toks, s, rest, e1, hr, e3⟩ := parse_subParser env _ k4 j hj'
  refine ⟨exe, renderToks toks, s, rest, by rw [← k2, e1, hr.eq]; rfl, by rw [e3]; rfl, ?_⟩
  have := (C16_C13_what_remains env _ hp exe args e1 toks _ hr).1
  rw [h] at this
  rw [this]
  show (kept toks ++ []).Sublist _
  rw [List.append_nil]
  unfold kept renderToks
  clear hr this
  induction toks with
  | nil => exact .slnil
  | cons t toks ih =>
    rw [List.flatMap_cons, List.flatMap_cons]
    exact List.Sublist.append (by cases t <;> simp [Tok.render, Tok.kept]) ih

/-- C82: every run comes to an end, after at most as many levels as there are arguments. -/
theorem C82_runs_end (env : Env W) (app : App W) (i : Init) (st : Store) (w : W) :
    ∃ o st' w' vs, AppRuns env app i st w o st' w' vs ∧ vs.length ≤ max 1 i.arguments.length := by
  generalize hn : i.arguments.length = n
  induction n using Nat.strongRecOn generalizing i st w with
  | _ n ih =>
    cases hp : parse env (app.level env i st w) with
    | mk o g' =>
      by_cases ho : o = .returned
      · subst ho
        cases hs : g'.parser.subParser with
        | none => exact ⟨_, _, _, _, .last hp (Or.inr hs), by simp; omega⟩
        | some j =>
          obtain ⟨exe, pre, s, rest, h1, h2, -⟩ := level_sub app env i j st w g' hp hs
          have hlt : j.arguments.length < n := by rw [← hn, h1, h2]; simp; omega
          obtain ⟨o, st', w', vs, hr, hv⟩ := ih _ hlt j g'.store g'.world rfl
          have : 0 < j.arguments.length := by rw [h2]; simp
          exact ⟨o, st', w', _, .sub hp hs hr, by simp; omega⟩
      · exact ⟨_, _, _, _, .last hp (Or.inl ho), by simp; omega⟩

/-- C82: the run is determined by the arguments, the variables and the world. -/
theorem C82_runs_unique (env : Env W) (app : App W) (i : Init) (st : Store) (w : W) (o₁ o₂ : Outcome) (st₁ st₂ : Store)
    (w₁ w₂ : W) (vs₁ vs₂ : List Visit) (h₁ : AppRuns env app i st w o₁ st₁ w₁ vs₁) (h₂ : AppRuns env app i st w o₂ st₂ w₂ vs₂) :
    o₁ = o₂ ∧ st₁ = st₂ ∧ w₁ = w₂ ∧ vs₁ = vs₂ := by
  induction h₁ generalizing o₂ st₂ w₂ vs₂ with
  | last hp hs =>
    cases h₂ with
    | last hp' hs' =>
      rw [hp] at hp'
      cases hp'
      exact ⟨rfl, rfl, rfl, rfl⟩
    | sub hp' hs' _ =>
      rw [hp] at hp'
      cases hp'
      rcases hs with hs | hs
      · exact absurd rfl hs
      · rw [hs] at hs'; cases hs'
  | sub hp hs hr ih =>
    cases h₂ with
    | last hp' hs' =>
      rw [hp] at hp'
      cases hp'
      rcases hs' with hs' | hs'
      · exact absurd rfl hs'
      · rw [hs] at hs'; cases hs'
    | sub hp' hs' hr' =>
      rw [hp] at hp'
      cases hp'
      rw [hs] at hs'
      cases hs'
      obtain ⟨rfl, rfl, rfl, rfl⟩ := ih _ _ _ _ hr'
      exact ⟨rfl, rfl, rfl, rfl⟩

theorem parsed_sublist (app : App W) (env : Env W) (i : Init) (st : Store) (w : W) (o : Outcome) (g' : Prog W)
    (h : parse env (app.level env i st w) = (o, g')) : g'.parser.formatArguments.Sublist i.arguments.tail := by
  obtain ⟨-, k2, -, -, -, -⟩ := level_keeps app env i st w
  have hf : (app.level env i st w).parser.formatArguments = [] := by
    have : ∀ (cs : List (Call W)) (g : Prog W), g.parser.formatArguments = [] → (runActions env (cs.map .call) g).parser.formatArguments = [] := by
      intro cs
      induction cs with
      | nil => intro g hg; exact hg
      | cons c cs ih => intro g hg; exact ih _ ((call_keeps env c g).2.2.2.2.2.2.1.trans hg)
    exact this _ _ rfl
  by_cases hp : Ready (app.level env i st w).parser
  · cases ha : (app.level env i st w).parser.arguments with
    | nil =>
      have := parse_no_arguments env _ hp ha
      rw [h] at this
      have : g'.parser.formatArguments = [] := by
        rw [(Prod.mk.inj this).2]; exact hf
      rw [this]
      exact List.nil_sublist _
    | cons exe args =>
      have := C16_subsequence env _ hp exe args ha
      rw [h] at this
      rw [← k2, ha]
      exact this
  · have := parse_not_ready env _ hp
    rw [h] at this
    have : g'.parser.formatArguments = [] := by
      rw [(Prod.mk.inj this).2]; exact hf
    rw [this]
    exact List.nil_sublist _

/-- C82: the arguments are divided into consecutive parts, one for each level: a part begins with the name of the program
or of the subcommand, and what the level parses is from its own part, in order. -/
theorem C82_every_argument_has_its_level (env : Env W) (app : App W) (i : Init) (st : Store) (w : W) (o : Outcome) (st' : Store)
    (w' : W) (vs : List Visit) (h : AppRuns env app i st w o st' w' vs) :
    ∃ parts : List (List Str), i.arguments = parts.flatten ∧
      Pointwise (fun part v => part.head? = v.init.arguments.head? ∧ v.parsed.Sublist part.tail) parts vs := by
  induction h with
  | @last i st w o g' hp hs =>
    exact ⟨[i.arguments], by simp, .cons ⟨rfl, parsed_sublist app env i st w o g' hp⟩ .nil⟩
  | @sub i j st st' w w' o g' vs hp hs hr ih =>
    obtain ⟨parts, h1, h2⟩ := ih
    obtain ⟨exe, pre, s, rest, e1, e2, e3⟩ := level_sub app env i j st w g' hp hs
    refine ⟨(exe :: pre) :: parts, ?_, .cons ⟨by rw [e1]; rfl, e3⟩ h2⟩
    rw [e1, List.flatten_cons, ← h1, e2]
    rfl

/-- Without decisions nothing is put in. -/
theorem Spec.WithChecks.none {pre line : List Str} {d : Option Bool} (h : WithChecks pre line d) (hd : d = none) : pre = line := by
  induction h with
  | nil => rfl
  | keep a _ ih => rw [ih hd]
  | check _ _ _ => cases hd

theorem Spec.WithChecks.keeps {pre line : List Str} {d : Option Bool} (as : List Str) (h : WithChecks pre line d) :
    WithChecks (as ++ pre) (as ++ line) d := by
  induction as with
  | nil => exact h
  | cons a as ih => exact .keep a ih

theorem withChecks_toks (options subs : List Str) (toks : List Tok) (hok : ∀ t ∈ toks, t.Ok options subs) (hr : lastRequest toks = none) :
    WithChecks (renderToks toks) (kept toks) (lastCheck toks) := by
  induction toks with
  | nil => exact .nil
  | cons t ts ih =>
    have hr' : lastRequest ts = none := by
      unfold lastRequest at hr ⊢
      rw [List.getLast?_eq_none_iff, List.filterMap_eq_nil_iff] at hr ⊢
      exact fun a ha => hr a (List.mem_cons_of_mem _ ha)
    have ih := ih (fun t ht => hok t (List.mem_cons_of_mem _ ht)) hr'
    have ht := hok t List.mem_cons_self
    cases t with
    | option o v => exact .keep _ (.keep _ ih)
    | plain a => exact .keep _ ih
    | request f args =>
      unfold lastRequest at hr
      rw [List.getLast?_eq_none_iff, List.filterMap_eq_nil_iff] at hr
      have := hr _ List.mem_cons_self
      cases this
    | check b v =>
      have e : lastCheck (.check b v :: ts) = some ((lastCheck ts).getD b) := by
        show (b :: ts.filterMap Tok.check?).getLast? = some (((ts.filterMap Tok.check?).getLast?).getD b)
        rw [List.getLast?_cons]
      rw [e]
      exact .check ht.1 ih

theorem Spec.WithChecks.behind {pre line : List Str} {d : Option Bool} (h : WithChecks pre line d) (as : List Str) :
    WithChecks (pre ++ as) (line ++ as) d := by
  induction h with
  | nil =>
    have := WithChecks.keeps as .nil
    simpa using this
  | keep a _ ih => exact .keep a ih
  | check hv _ ih => exact .check hv ih

/-- C82: conversely, if `parse()` of a level returns, the arguments in front of the subcommand, or all arguments if there is none, are a well-formed
line and the variables are what it means; nothing but decisions about the version check may be put in between. Arguments that can be read in different
ways and lists with elements out of range in release builds are excluded. -/
theorem C82_only_well_formed_levels_partial (env : Env W) (app : App W) (i : Init) (st : Store) (w : W) (g' : Prog W)
    (h : parse env (app.level env i st w) = (.returned, g')) (hc : Clear (decls (app.level env i st w)) g'.parser.formatArguments) :
    ∃ exe pre items tail, i.arguments = exe :: (pre ++ g'.parser.subParser.elim [] Init.arguments) ∧
      (∀ j, g'.parser.subParser = some j → ∃ s, j.arguments.head? = some s ∧ s ∈ (app.level env i st w).parser.subcommands) ∧
      WithChecks pre (renderLine items tail) g'.parser.userDecision ∧ LineOk (decls (app.level env i st w)) items tail ∧
      (env.ndebug = false ∨ ListsRepresentable (decls (app.level env i st w)) items tail →
        ∃ w₁, LineMeans (decls (app.level env i st w)) items tail st w₁ g'.store g'.world) := by
  obtain ⟨-, k2, -, k4, k5, -⟩ := level_keeps app env i st w
  obtain ⟨items, tail, h1, h2, h3⟩ := C81_only_well_formed_lines_partial env _ g' (level_reachable app env i st w) h hc
  have hp : Ready (app.level env i st w).parser := by
    by_cases hp : Ready (app.level env i st w).parser
    · exact hp
    · have := parse_not_ready env _ hp
      rw [h] at this
      cases this
  cases e1 : (app.level env i st w).parser.arguments with
  | nil =>
    have := parse_no_arguments env _ hp e1
    rw [h] at this
    cases this
  | cons exe args =>
    obtain ⟨toks, stop, hr⟩ := reading_exists (app.level env i st w).parser.options (app.level env i st w).parser.subcommands args
    obtain ⟨f1, f2, f4⟩ := C16_C13_what_remains env _ hp exe args e1 toks _ hr
    rw [h] at f1 f2 f4
    dsimp only at f1 f2 f4
    have hpr := parse_reading env _ hp exe _ e1 toks _ hr
    rw [h] at hpr
    have hx : stop.exn? = none := by
      cases hx : stop.exn? with
      | none => rfl
      | some e => rw [hx] at hpr; cases hpr
    rw [hx] at hpr
    have f3 : lastRequest toks = none := by
      cases hl : lastRequest toks with
      | none => rfl
      | some f =>
        have hd : decided toks stop = f := by unfold decided; rw [hl]
        obtain ⟨n1, n2⟩ := lastRequest_special _ _ toks hr.toksOk f hl
        rw [hd] at hpr
        unfold checkAndParse parseFormat at hpr
        dsimp only at hpr
        generalize env.versionCheck _ _ _ _ = r at hpr
        obtain ⟨_ | e, w2⟩ := r
        · dsimp only at hpr
          cases f <;>
            first | exact absurd rfl n2 | (dsimp only at hpr; generalize env.printPage _ _ _ _ = r at hpr; obtain ⟨_ | e, w3⟩ := r <;> cases hpr)
        · cases hpr
    have hk := withChecks_toks _ _ toks hr.toksOk f3
    rw [← f2] at hk
    have hm : env.ndebug = false ∨ ListsRepresentable (decls (app.level env i st w)) items tail →
        ∃ w₁, LineMeans (decls (app.level env i st w)) items tail st w₁ g'.store g'.world := by
      intro hnd
      obtain ⟨w₁, hm⟩ := h3 hnd
      rw [k5] at hm
      exact ⟨w₁, hm⟩
    refine ⟨exe, renderToks toks ++ stop.kept, items, tail, ?_, ?_, ?_, h2, hm⟩
    · rw [← k2, e1, hr.eq, f4]
      cases stop <;> first | (simp [Stop.kept, Stop.render]; done) | cases hx
    · intro j hj
      rw [f4] at hj
      cases stop with
      | subcommand s rest =>
        cases hj
        exact ⟨s, rfl, hr.stopOk.2⟩
      | _ => cases hj
    · rw [← h1, f1]
      exact hk.behind _

/-! ## The hypotheses of the theorems above are met by a concrete application -/

/-- The application registers a flag if there are subcommands, and an option and a positional option otherwise. -/
def exApp : App Unit := fun i _ _ =>
  if i.subcommands = [] then
    [.addOption { short := 'n', long := "num".toList } 0 false (.integer (-128) 127) fun _ w => (true, w),
     .addPositionalOption {} 6 false .string fun _ w => (true, w)]
  else [.addFlag { short := 'v', long := "verbose".toList } 3 false]

/-- `app -v add -n 3 -- file` -/
def exAppInit : Init :=
  { exInit with
      arguments := "app".toList :: renderApp [⟨[.flags ['v']], none, "add".toList⟩]
        [.short 'n' .separate "3".toList] (some ["file".toList])
      subcommands := ["add".toList, "remove".toList] }

def exAppSub : Init :=
  { appName := "app-add".toList, arguments := ["add".toList, "-n".toList, "3".toList, "--".toList, "file".toList],
    notify := false, subcommands := [], executableName := ["app".toList] }

def exAppTop : Prog Unit := exApp.level exEnv exAppInit exStore ()

def exAppStore : Store := exStore.set 3 (.one (.bool true))

def exAppLast : Prog Unit := exApp.level exEnv exAppSub exAppStore ()

theorem exAppTop_decls : declsOf exAppTop.parser.operations = ⟨[], [⟨'v', "verbose".toList, 3⟩], []⟩ := by
  have h := operations_of_length exEnv (exApp exAppInit exStore ()) (start exAppInit exStore ()) (by decide +kernel)
  unfold exAppTop App.level
  rw [h]
  rfl

theorem exAppLast_decls : declsOf exAppLast.parser.operations =
    ⟨[⟨'n', "num".toList, 0, false, .integer (-128) 127, false, fun _ w => (true, w)⟩], [],
      [⟨6, false, .string, fun _ w => (true, w)⟩]⟩ := by
  have h := operations_of_length exEnv (exApp exAppSub exAppStore ()) (start exAppSub exAppStore ()) (by decide +kernel)
  unfold exAppLast App.level
  rw [h]
  rfl

theorem exApp_means : AppMeans exEnv exApp exAppInit [⟨[.flags ['v']], none, "add".toList⟩]
    [.short 'n' .separate "3".toList] (some ["file".toList]) exStore ()
    ((exAppStore.set 0 (.one (.int 3))).set 6 (.one (.str "file".toList))) () := by
  refine .sub (rest := ["-n".toList, "3".toList, "--".toList, "file".toList]) (st₁ := exAppStore) (w₁ := ()) (w₂ := ())
    ?_ ?_ ?_ ?_ ?_
  · exact ⟨by decide +kernel, by decide +kernel, by decide +kernel, by decide +kernel, by decide +kernel,
      ⟨"app".toList, by decide +kernel⟩, by simp, Or.inl rfl, by decide +kernel⟩
  · show LineOk (declsOf exAppTop.parser.operations) _ _
    rw [exAppTop_decls]
    decide +kernel
  · exact rfl
  · show LineMeans (declsOf exAppTop.parser.operations) _ _ _ _ _ _
    rw [exAppTop_decls]
    exact ⟨exStore, (), ⟨rfl, rfl⟩, ⟨rfl, rfl, rfl⟩⟩
  · refine .last (i := exAppSub) (w₁ := ()) ?_ ?_ ?_ ?_
    · show LineGiven exAppLast _ _
      decide +kernel
    · show LineOk (declsOf exAppLast.parser.operations) _ _
      rw [exAppLast_decls]
      decide +kernel
    · exact rfl
    · show LineMeans (declsOf exAppLast.parser.operations) _ _ _ _ _ _
      rw [exAppLast_decls]
      refine ⟨exAppStore.set 0 (.one (.int 3)), (), Or.inr ⟨by decide, .one (.int 3), (), ?_, rfl, rfl, rfl⟩, ?_⟩
      · exact ⟨"3".toList, .int 3, by decide, rfl, 3, rfl, by decide, by decide, Or.inl (by decide)⟩
      · exact ⟨"file".toList, [], .one (.str "file".toList), (), rfl, ⟨_, _, rfl, rfl, rfl⟩, rfl, rfl, rfl, rfl⟩

example : ∃ vs, AppRuns exEnv exApp exAppInit exStore () .returned
    ((exAppStore.set 0 (.one (.int 3))).set 6 (.one (.str "file".toList))) () vs ∧
    vs.map (·.parsed) = [["-v".toList], ["-n".toList, "3".toList, "--".toList, "file".toList]] :=
  (C82_application_line _ _ _ _ _ _ _ _ _ _ exApp_means).2

def exAppEnd : Prog Unit := (parse exEnv exAppTop).2

theorem exAppTop_returned : parse exEnv exAppTop = (.returned, exAppEnd) :=
  returned_pair (beq_iff_eq.1 (by decide +kernel : ((parse exEnv exAppTop).1 == .returned) = true))

example : ∃ exe pre items tail, exAppInit.arguments = exe :: (pre ++ exAppSub.arguments) ∧
    WithChecks pre (renderLine items tail) none ∧ LineOk (decls exAppTop) items tail ∧
    (exEnv.ndebug = false ∨ ListsRepresentable (decls exAppTop) items tail →
      ∃ w₁, LineMeans (decls exAppTop) items tail exStore w₁ exAppEnd.store exAppEnd.world) := by
  have hf : exAppEnd.parser.formatArguments = renderLine [.flags ['v']] none := by decide +kernel
  have hd : exAppEnd.parser.userDecision = none := by decide +kernel
  rw [← hd]
  have hs : exAppEnd.parser.subParser = some exAppSub := by decide +kernel
  have hc : Clear (decls (exApp.level exEnv exAppInit exStore ())) exAppEnd.parser.formatArguments := by
    rw [hf]
    refine clear_line (idsOk_reachable (level_reachable exApp exEnv exAppInit exStore ())) _ _ ?_
    show LineOk (declsOf exAppTop.parser.operations) _ _
    rw [exAppTop_decls]
    decide +kernel
  obtain ⟨exe, pre, items, tail, h1, -, h2⟩ := C82_only_well_formed_levels_partial exEnv exApp exAppInit exStore () exAppEnd exAppTop_returned hc
  rw [hs] at h1
  exact ⟨exe, pre, items, tail, h1, h2⟩

/-- The same with decisions about the version check: `app --version-check 1 -v --version-check false add -n 3 -- file` -/
def exAppInitChecked : Init :=
  { exAppInit with
      arguments := (["app", "--version-check", "1", "-v", "--version-check", "false", "add", "-n", "3", "--", "file"]).map String.toList }

def exAppTopChecked : Prog Unit := exApp.level exEnv exAppInitChecked exStore ()

def exAppEndChecked : Prog Unit := (parse exEnv exAppTopChecked).2

example : ∃ exe pre items tail, exAppInitChecked.arguments = exe :: (pre ++ exAppSub.arguments) ∧
    WithChecks pre (renderLine items tail) (some false) ∧ LineOk (decls exAppTopChecked) items tail := by
  have hr : parse exEnv exAppTopChecked = (.returned, exAppEndChecked) :=
    returned_pair (beq_iff_eq.1 (by decide +kernel : ((parse exEnv exAppTopChecked).1 == .returned) = true))
  have hf : exAppEndChecked.parser.formatArguments = renderLine [.flags ['v']] none := by decide +kernel
  have hd : exAppEndChecked.parser.userDecision = some false := by decide +kernel
  rw [← hd]
  have hs : exAppEndChecked.parser.subParser = some exAppSub := by decide +kernel
  obtain ⟨exe, pre, items, tail, h1, -, h3, h4, -⟩ := C82_only_well_formed_levels_partial exEnv exApp exAppInitChecked exStore ()
    exAppEndChecked hr (by
      rw [hf]
      refine clear_line (idsOk_reachable (level_reachable exApp exEnv exAppInitChecked exStore ())) _ _ ?_
      show LineOk (declsOf exAppTopChecked.parser.operations) _ _
      have h := operations_of_length exEnv (exApp exAppInitChecked exStore ()) (start exAppInitChecked exStore ()) (by decide +kernel)
      unfold exAppTopChecked App.level
      rw [h]
      decide +kernel)
  rw [hs] at h1
  exact ⟨exe, pre, items, tail, h1, h3, h4⟩

theorem pointwise_length {α β : Type} {R : α → β → Prop} {l : List α} {m : List β} (h : Pointwise R l m) : l.length = m.length := by
  induction h with
  | nil => rfl
  | cons _ _ ih => rw [List.length_cons, List.length_cons, ih]

example : ∃ parts : List (List Str), exAppInit.arguments = parts.flatten ∧ parts.length = 2 := by
  obtain ⟨vs, h, hv⟩ := (C82_application_line _ _ _ _ _ _ _ _ _ _ exApp_means).2
  obtain ⟨parts, h1, h2⟩ := C82_every_argument_has_its_level _ _ _ _ _ _ _ _ _ h
  have hl := congrArg List.length hv
  rw [List.length_map] at hl
  refine ⟨parts, h1, ?_⟩
  rw [pointwise_length h2, hl]
  rfl

end Sharg
