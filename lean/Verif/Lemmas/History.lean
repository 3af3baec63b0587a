import Verif.Lemmas.Setup

/-! Lemmas on histories of calls: invariants of the parser object. -/

set_option linter.unusedSimpArgs false

namespace Sharg

open Spec

variable {W : Type}

def Entry.idConfig? : Entry W → Option Config
  | .option cfg _ _ _ _ => some cfg
  | .flag cfg _ => some cfg
  | _ => none

def entryIds (ops : List (Entry W)) : List Str := (ops.filterMap Entry.idConfig?).flatMap idsOf

theorem idConfig_eq (c : Call W) : idConfig c = c.entry?.bind Entry.idConfig? := by
  cases c <;> rfl

theorem allIds_eq (cs : List (Call W)) : allIds cs = entryIds (cs.filterMap Call.entry?) := by
  unfold allIds entryIds
  rw [List.filterMap_filterMap]
  congr 2
  funext c
  rw [idConfig_eq]

theorem entryIds_append (a b : List (Entry W)) : entryIds (a ++ b) = entryIds a ++ entryIds b := by
  simp [entryIds]

/-- The identifier is well-formed. -/
def WellFormedId (s : Str) : Prop := (∃ c, s = [c] ∧ IsShortChar c) ∨ IsLongId s

/-- `-c` or `--s`. -/
def dash (s : Str) : Str :=
  match s with
  | [c] => ['-', c]
  | s => '-' :: '-' :: s

theorem shortChar_ne_dash {c : Char} (h : IsShortChar c) : c ≠ '-' := by
  rintro rfl; revert h; decide

theorem dash_long {s : Str} (h : IsLongId s) : dash s = '-' :: '-' :: s := by
  unfold dash
  split
  · have := h.1; simp at this
  · rfl

theorem dash_inj {s t : Str} (hs : WellFormedId s) (ht : WellFormedId t) (h : dash s = dash t) : s = t := by
  rcases hs with ⟨c, rfl, hc⟩ | hs
  · rcases ht with ⟨d, rfl, hd⟩ | ht
    · simpa [dash] using h
    · rw [dash_long ht] at h
      simp [dash] at h
      exact absurd h.1 (shortChar_ne_dash hc)
  · rcases ht with ⟨d, rfl, hd⟩ | ht
    · rw [dash_long hs] at h
      simp [dash] at h
      exact absurd h.1.symm (shortChar_ne_dash hd)
    · rw [dash_long hs, dash_long ht] at h
      simpa using h

/-- Identifiers present and well-formed. -/
def CfgOk (cfg : Config) : Prop :=
  (cfg.short ≠ '\x00' ∨ cfg.long ≠ []) ∧ (cfg.short ≠ '\x00' → IsShortChar cfg.short) ∧
  (cfg.long ≠ [] → IsLongId cfg.long)

theorem Spec.IdsAcceptable.cfgOk {l : List Str} {cfg : Config} (h : IdsAcceptable l cfg) : CfgOk cfg :=
  ⟨h.1, fun hc => (h.2.1 hc).1, fun hc => (h.2.2 hc).1⟩

theorem mem_idsOf (cfg : Config) (s : Str) :
    s ∈ idsOf cfg ↔ (cfg.short ≠ '\x00' ∧ s = [cfg.short]) ∨ (cfg.long ≠ [] ∧ s = cfg.long) := by
  unfold idsOf
  by_cases h1 : cfg.short = '\x00' <;> by_cases h2 : cfg.long = [] <;> simp [h1, h2]

theorem CfgOk.wf {cfg : Config} (h : CfgOk cfg) : ∀ s ∈ idsOf cfg, WellFormedId s := by
  intro s hs
  rcases (mem_idsOf cfg s).1 hs with ⟨h1, rfl⟩ | ⟨h1, rfl⟩
  · exact Or.inl ⟨_, rfl, h.2.1 h1⟩
  · exact Or.inr (h.2.2 h1)

theorem CfgOk.nodup {cfg : Config} (h : CfgOk cfg) : (idsOf cfg).Nodup := by
  unfold idsOf
  by_cases h1 : cfg.short = '\x00' <;> by_cases h2 : cfg.long = [] <;> simp [h1, h2]
  exact (long_ne_short (h.2.2 h2) _).symm

theorem Spec.IdsAcceptable.fresh {l : List Str} {cfg : Config} (h : IdsAcceptable l cfg) : ∀ s ∈ idsOf cfg, s ∉ l := by
  intro s hs
  rcases (mem_idsOf cfg s).1 hs with ⟨h1, rfl⟩ | ⟨h1, rfl⟩
  · exact (h.2.1 h1).2
  · exact (h.2.2 h1).2

theorem dashedIds_eq (cfg : Config) (h : CfgOk cfg) : dashedIds cfg = (idsOf cfg).map dash := by
  unfold dashedIds
  unfold idsOf
  by_cases h1 : cfg.short = '\x00' <;> by_cases h2 : cfg.long = [] <;> simp [h1, h2, dash, Id.dashed]
  · have := dash_long (h.2.2 h2)
    simp [dash] at this
    exact this.symm
  · have := dash_long (h.2.2 h2)
    simp [dash] at this
    exact this.symm

def Entry.isPositional : Entry W → Bool
  | .positional _ _ _ _ _ => true
  | _ => false

def Entry.isPositionalList : Entry W → Bool
  | .positional _ _ l _ _ => l
  | _ => false

/-- Invariant of parser objects. -/
structure Inv (p : Parser W) : Prop where
  predef : ∀ s ∈ predefined, s ∈ p.usedIds
  wf : ∀ s ∈ p.usedIds, WellFormedId s
  cfgs : ∀ cfg ∈ p.operations.filterMap Entry.idConfig?, CfgOk cfg
  used : ∀ s ∈ entryIds p.operations, s ∈ p.usedIds ∧ s ∉ predefined
  nodup : (entryIds p.operations).Nodup
  opts : ∀ o ∈ p.options, ∃ s ∈ p.usedIds, o = dash s ∧ s ∉ predefined
  optsAll : ∀ cfg x l ty v, Entry.option cfg x l ty v ∈ p.operations → ∀ s ∈ idsOf cfg, dash s ∈ p.options
  flagsNot : ∀ cfg x, Entry.flag cfg x ∈ p.operations → ∀ s ∈ idsOf cfg, dash s ∉ p.options
  posCfg : ∀ cfg x l ty v, Entry.positional cfg x l ty v ∈ p.operations →
    idsOf cfg = [] ∧ cfg.advanced = false ∧ cfg.hidden = false ∧ cfg.defaultMessage = []
  posList : p.hasPositionalListOption = p.operations.any Entry.isPositionalList
  posLast : ∀ a b e, p.operations = a ++ e :: b → e.isPositionalList = true → ∀ e' ∈ b, e'.isPositional = false

/-- The invariant only depends on these members. -/
theorem Inv.congr {p q : Parser W} (h : Inv p) (h1 : q.usedIds = p.usedIds) (h2 : q.operations = p.operations)
    (h3 : q.options = p.options) (h4 : q.hasPositionalListOption = p.hasPositionalListOption) : Inv q := by
  obtain ⟨a1, a2, a3, a4, a5, a6, a7, a8, a9, a10, a11⟩ := h
  rw [← h1] at a1 a2 a4 a6
  rw [← h2] at a3 a4 a5 a7 a8 a9 a10 a11
  rw [← h3] at a6 a7 a8
  rw [← h4] at a10
  exact ⟨a1, a2, a3, a4, a5, a6, a7, a8, a9, a10, a11⟩

theorem predefined_wf : ∀ s ∈ predefined, WellFormedId s := by
  intro s hs
  have : (∃ c ∈ s, s = [c] ∧ IsShortChar c) ∨ IsLongId s := by revert s; decide
  rcases this with ⟨c, _, h⟩ | h
  · exact Or.inl ⟨c, h⟩
  · exact Or.inr h

theorem inv_start (i : Init) : Inv (mkParser i : Parser W) := by
  constructor <;> simp [mkParser, builtinIds_eq, entryIds]
  · exact predefined_wf
  
/-- Recording used identifiers and registered options, as a rejected call may do. -/
theorem Inv.burn {p : Parser W} (h : Inv p) (l os : List Str) (hl : ∀ s ∈ l, WellFormedId s ∧ s ∉ p.usedIds)
    (hos : ∀ o ∈ os, ∃ s ∈ l, o = dash s) :
    Inv { p with usedIds := l ++ p.usedIds, options := os ++ p.options } where
  predef s hs := by simp; exact Or.inr (h.predef s hs)
  wf s hs := by
    simp at hs
    rcases hs with hs | hs
    · exact (hl s hs).1
    · exact h.wf s hs
  cfgs := h.cfgs
  used s hs := by
    obtain ⟨a, b⟩ := h.used s hs
    exact ⟨by simp [a], b⟩
  nodup := h.nodup
  opts o ho := by
    simp only [List.mem_append] at ho
    rcases ho with ho | ho
    · obtain ⟨s, hs, rfl⟩ := hos o ho
      exact ⟨s, by simp [hs], rfl, fun hp => (hl s hs).2 (h.predef s hp)⟩
    · obtain ⟨s, hs, rfl, hp⟩ := h.opts o ho
      exact ⟨s, by simp [hs], rfl, hp⟩
  optsAll cfg x b ty v he s hs := by
    simp; exact Or.inr (h.optsAll cfg x b ty v he s hs)
  flagsNot cfg x he s hs := by
    simp only [List.mem_append, not_or]
    refine ⟨fun ho => ?_, h.flagsNot cfg x he s hs⟩
    obtain ⟨t, ht, hd⟩ := hos _ ho
    have hcfg : cfg ∈ p.operations.filterMap Entry.idConfig? := List.mem_filterMap.2 ⟨_, he, rfl⟩
    have := dash_inj ((h.cfgs cfg hcfg).wf s hs) (hl t ht).1 hd
    subst this
    exact (hl s ht).2 (h.used s (List.mem_flatMap.2 ⟨cfg, hcfg, hs⟩)).1
  posCfg := h.posCfg
  posList := h.posList
  posLast := h.posLast

/-- Appending an operation. -/
theorem Inv.push {p : Parser W} (h : Inv p) (e : Entry W)
    (hid : ∀ cfg, e.idConfig? = some cfg → CfgOk cfg ∧
      (∀ s ∈ idsOf cfg, s ∈ p.usedIds ∧ s ∉ predefined ∧ s ∉ entryIds p.operations))
    (hopt : ∀ cfg x l ty v, e = .option cfg x l ty v → ∀ s ∈ idsOf cfg, dash s ∈ p.options)
    (hflag : ∀ cfg x, e = .flag cfg x → ∀ s ∈ idsOf cfg, dash s ∉ p.options)
    (hpos : ∀ cfg x l ty v, e = .positional cfg x l ty v →
      idsOf cfg = [] ∧ cfg.advanced = false ∧ cfg.hidden = false ∧ cfg.defaultMessage = [] ∧
        p.hasPositionalListOption = false) :
    Inv { p with
      operations := p.operations ++ [e]
      hasPositionalListOption := p.hasPositionalListOption || e.isPositionalList } where
  predef := h.predef
  wf := h.wf
  cfgs cfg hc := by
    simp only [List.filterMap_append, List.mem_append] at hc
    rcases hc with hc | hc
    · exact h.cfgs cfg hc
    · simp at hc; exact (hid cfg hc).1
  used s hs := by
    rw [entryIds_append, List.mem_append] at hs
    rcases hs with hs | hs
    · exact h.used s hs
    · obtain ⟨cfg, hc, hs⟩ := List.mem_flatMap.1 hs
      simp at hc
      obtain ⟨a, b, _⟩ := (hid cfg hc).2 s hs
      exact ⟨a, b⟩
  nodup := by
    rw [entryIds_append, List.nodup_append]
    refine ⟨h.nodup, ?_, ?_⟩
    · cases hc : e.idConfig? with
      | none => simp [entryIds, hc]
      | some cfg => simpa [entryIds, hc] using (hid cfg hc).1.nodup
    · intro s hs t ht he
      subst he
      obtain ⟨cfg, hc, ht⟩ := List.mem_flatMap.1 ht
      simp at hc
      exact ((hid cfg hc).2 s ht).2.2 hs
  opts := h.opts
  optsAll cfg x l ty v he s hs := by
    simp only [List.mem_append, List.mem_singleton] at he
    rcases he with he | he
    · exact h.optsAll cfg x l ty v he s hs
    · exact hopt cfg x l ty v he.symm s hs
  flagsNot cfg x he s hs := by
    simp only [List.mem_append, List.mem_singleton] at he
    rcases he with he | he
    · exact h.flagsNot cfg x he s hs
    · exact hflag cfg x he.symm s hs
  posCfg cfg x l ty v he := by
    simp only [List.mem_append, List.mem_singleton] at he
    rcases he with he | he
    · exact h.posCfg cfg x l ty v he
    · obtain ⟨a, b, c, d, _⟩ := hpos cfg x l ty v he.symm
      exact ⟨a, b, c, d⟩
  posList := by
    simp [h.posList]
  posLast a b e' hab he' := by
    rcases List.eq_nil_or_concat b with rfl | ⟨b', z, rfl⟩
    · simp
    · rw [List.concat_eq_append, ← List.cons_append, ← List.append_assoc] at hab
      obtain ⟨h1, h2⟩ := List.append_inj' hab rfl
      simp at h2
      subst h2
      intro x hx
      simp at hx
      rcases hx with hx | rfl
      · exact h.posLast a b' e' h1 he' x hx
      · cases x with
        | positional cfg y l ty v =>
          obtain ⟨_, _, _, _, hf⟩ := hpos cfg y l ty v rfl
          rw [h.posList, h1] at hf
          simp [he'] at hf
        | _ => rfl

theorem Inv.effect {p : Parser W} (h : Inv p) (c : Call W) (hc : Acceptable p.situation c) : Inv (c.effect p) := by
  cases c with
  | addOption cfg x l ty v =>
    obtain ⟨h1, h2, h3⟩ := hc
    have hb := h.burn (burnt cfg) (dashedIds cfg)
      (fun s hs => ⟨h2.cfgOk.wf s ((mem_burnt _ _).1 hs), h2.fresh s ((mem_burnt _ _).1 hs)⟩)
      (fun o ho => by
        rw [dashedIds_eq cfg h2.cfgOk] at ho
        obtain ⟨s, hs, rfl⟩ := List.mem_map.1 ho
        exact ⟨s, (mem_burnt _ _).2 hs, rfl⟩)
    have := hb.push (.option cfg x l ty v) ?_ ?_ ?_ ?_
    · refine this.congr ?_ ?_ ?_ ?_ <;>
        simp [Call.effect, Call.burnt, Call.dashed, idConfig, isPositionalList, Call.entry?, Entry.isPositionalList]
    · rintro cfg' he
      cases he
      refine ⟨h2.cfgOk, fun s hs => ⟨?_, ?_, ?_⟩⟩
      · simp; exact Or.inl ((mem_burnt _ _).2 hs)
      · exact fun hp => h2.fresh s hs (h.predef s hp)
      · exact fun hp => h2.fresh s hs (h.used s hp).1
    · rintro cfg' _ _ _ _ he s hs
      cases he
      simp only [List.mem_append]
      left
      rw [dashedIds_eq cfg h2.cfgOk]
      exact List.mem_map.2 ⟨s, hs, rfl⟩
    · intro _ _ he; cases he
    · intro _ _ _ _ _ he; cases he
  | addFlag cfg x b =>
    obtain ⟨h1, h2, h3, h4⟩ := hc
    have hb := h.burn (burnt cfg) []
      (fun s hs => ⟨h2.cfgOk.wf s ((mem_burnt _ _).1 hs), h2.fresh s ((mem_burnt _ _).1 hs)⟩) (by simp)
    have := hb.push (.flag cfg x) ?_ ?_ ?_ ?_
    · refine this.congr ?_ ?_ ?_ ?_ <;>
        simp [Call.effect, Call.burnt, Call.dashed, idConfig, isPositionalList, Call.entry?, Entry.isPositionalList]
    · rintro cfg' he
      cases he
      refine ⟨h2.cfgOk, fun s hs => ⟨?_, ?_, ?_⟩⟩
      · simp; exact Or.inl ((mem_burnt _ _).2 hs)
      · exact fun hp => h2.fresh s hs (h.predef s hp)
      · exact fun hp => h2.fresh s hs (h.used s hp).1
    · intro _ _ _ _ _ he; cases he
    · rintro cfg' _ he s hs ho
      cases he
      simp at ho
      obtain ⟨t, ht, hd, _⟩ := h.opts _ ho
      have := dash_inj (h2.cfgOk.wf s hs) (h.wf t ht) hd
      subst this
      exact h2.fresh s hs ht
    · intro _ _ _ _ _ he; cases he
  | addPositionalOption cfg x l ty v =>
    obtain ⟨h1, h2, h3, h4, h5, h6, h7⟩ := hc
    have := h.push (.positional cfg x l ty v) ?_ ?_ ?_ ?_
    · refine this.congr ?_ ?_ ?_ ?_ <;>
        simp [Call.effect, Call.burnt, Call.dashed, idConfig, isPositionalList, Call.entry?, Entry.isPositionalList]
    · intro _ he; cases he
    · intro _ _ _ _ _ he; cases he
    · intro _ _ he; cases he
    · intro _ _ _ _ _ he; cases he; exact ⟨h2, h3, h4, h7, h6⟩
  | addSubcommands ns =>
    refine h.congr ?_ ?_ ?_ ?_ <;> simp [Call.effect, Call.burnt, Call.dashed, idConfig, isPositionalList, Call.entry?]
  | _ =>
    refine (h.push _ ?_ ?_ ?_ ?_).congr (q := Call.effect _ p) rfl rfl rfl rfl
    · intro _ he; cases he
    · intro _ _ _ _ _ he; cases he
    · intro _ _ he; cases he
    · intro _ _ _ _ _ he; cases he

theorem mem_dashed_burnt (c : Call W) (cfg : Config) (hc : idConfig c = some cfg) (h : CfgOk cfg) :
    ∀ o ∈ c.dashed, ∃ s ∈ c.burnt, o = dash s := by
  cases c with
  | addOption cfg' x l ty v =>
    cases hc
    intro o ho
    simp only [Call.dashed] at ho
    rw [dashedIds_eq cfg h] at ho
    obtain ⟨s, hs, rfl⟩ := List.mem_map.1 ho
    exact ⟨s, by simpa [Call.burnt, idConfig] using (mem_burnt _ _).2 hs, rfl⟩
  | _ => simp [Call.dashed]

theorem Inv.reject {p q : Parser W} (h : Inv p) (c : Call W) (e : Exn) (hc : ¬ Acceptable p.situation c)
    (hr : c.run p = .err e q) : Inv q := by
  obtain ⟨l, os, hq, a1, a2, a3, a4⟩ := c.run_rejected p hc
  rw [hr] at hq
  injection hq with _ hq
  subst hq
  apply h.burn
  · intro s hs
    obtain ⟨cfg, _, _, hn⟩ := a1 s hs
    exact ⟨a2 s hs, hn⟩
  · intro o ho
    obtain ⟨b1, b2, _, cfg, hcfg, b4, _⟩ := a3 (List.ne_nil_of_mem ho)
    subst b1 b2
    exact mem_dashed_burnt c cfg hcfg b4.cfgOk o ho

/-! ### `parse()` -/

/-- What `parse()` leaves alone. -/
structure Parser.SameSetup (p q : Parser W) : Prop where
  appName : q.appName = p.appName
  list : q.hasPositionalListOption = p.hasPositionalListOption
  notify : q.notify = p.notify
  subcommands : q.subcommands = p.subcommands
  usedIds : q.usedIds = p.usedIds
  arguments : q.arguments = p.arguments
  options : q.options = p.options
  operations : q.operations = p.operations

theorem Parser.SameSetup.rfl' (p : Parser W) : p.SameSetup p := ⟨rfl, rfl, rfl, rfl, rfl, rfl, rfl, rfl⟩

theorem verifyNames_parser (p : Parser W) : (verifyAppAndSubcommandNames p).state = p := by
  unfold verifyAppAndSubcommandNames
  split
  · rfl
  · split <;> rfl

theorem determine_parser (nd : Bool) (p : Parser W) : p.SameSetup (determineFormatAndSubcommand nd p).state ∧
    (determineFormatAndSubcommand nd p).state.parseWasCalled = p.parseWasCalled := by
  unfold determineFormatAndSubcommand
  split
  · exact ⟨.rfl' p, rfl⟩
  · dsimp only
    split <;> exact ⟨⟨rfl, rfl, rfl, rfl, rfl, rfl, rfl, rfl⟩, rfl⟩

theorem parseFormat_parser (env : Env W) (f : Format) (g : Prog W) : (parseFormat env f g).2.parser = g.parser := by
  unfold parseFormat
  split
  · split <;> rfl
  · split <;> rfl

theorem checkAndParse_parser (env : Env W) (f : Format) (g : Prog W) :
    (checkAndParse env f g).2.parser = g.parser := by
  unfold checkAndParse
  split
  · rfl
  · rw [parseFormat_parser]

theorem parse_parser (env : Env W) (g : Prog W) :
    g.parser.SameSetup (parse env g).2.parser ∧ (parse env g).2.parser.parseWasCalled = true := by
  unfold parse
  by_cases h : g.parser.parseWasCalled = true
  · rw [if_pos h]; exact ⟨.rfl' _, h⟩
  · rw [if_neg h]
    have h1 := verifyNames_parser { g.parser with parseWasCalled := true }
    cases hv : verifyAppAndSubcommandNames { g.parser with parseWasCalled := true } with
    | err e p =>
      rw [hv] at h1; simp only [Res.state] at h1; subst h1
      exact ⟨⟨rfl, rfl, rfl, rfl, rfl, rfl, rfl, rfl⟩, rfl⟩
    | ok u p =>
      rw [hv] at h1; simp only [Res.state] at h1; subst h1
      dsimp only
      obtain ⟨⟨h1, h2, h3, h4, h5, h6, h7, h8⟩, h9⟩ :=
        determine_parser env.ndebug { g.parser with parseWasCalled := true }
      cases hd : determineFormatAndSubcommand env.ndebug { g.parser with parseWasCalled := true } with
      | err e p' =>
        rw [hd] at h1 h2 h3 h4 h5 h6 h7 h8 h9
        exact ⟨⟨h1, h2, h3, h4, h5, h6, h7, h8⟩, h9⟩
      | ok f p' =>
        rw [hd] at h1 h2 h3 h4 h5 h6 h7 h8 h9
        dsimp only
        rw [checkAndParse_parser]
        exact ⟨⟨h1, h2, h3, h4, h5, h6, h7, h8⟩, h9⟩

/-! ### Histories -/

theorem Action.call_run_acceptable (env : Env W) (c : Call W) (g : Prog W) (h : Acceptable g.parser.situation c) :
    (Action.call c).run env g = (.returned, { g with parser := c.effect g.parser }) := by
  simp [Action.run, c.run_acceptable g.parser h]

theorem Action.call_run_rejected (env : Env W) (c : Call W) (g : Prog W) (h : ¬ Acceptable g.parser.situation c) :
    ∃ p, c.run g.parser = .err .designError p ∧
      (Action.call c).run env g = (.threw .designError, { g with parser := p }) := by
  obtain ⟨l, os, hq, _⟩ := c.run_rejected g.parser h
  exact ⟨_, hq, by simp [Action.run, hq]⟩

theorem Inv.action (env : Env W) (a : Action W) (g : Prog W) (h : Inv g.parser) : Inv (a.run env g).2.parser := by
  cases a with
  | parse =>
    obtain ⟨⟨h1, h2, h3, h4, h5, h6, h7, h8⟩, _⟩ := parse_parser env g
    exact h.congr h5 h8 h7 h2
  | call c =>
    by_cases hc : Acceptable g.parser.situation c
    · rw [Action.call_run_acceptable env c g hc]; exact h.effect c hc
    · obtain ⟨p, hp, hr⟩ := Action.call_run_rejected env c g hc
      rw [hr]; exact h.reject c _ hc hp

theorem inv_history (env : Env W) (as : List (Action W)) (g : Prog W) (h : Inv g.parser) :
    Inv (runActions env as g).parser := by
  induction as generalizing g with
  | nil => exact h
  | cons a as ih => exact ih _ (h.action env a g)

theorem reject_operations (c : Call W) (p q : Parser W) (e : Exn) (hc : ¬ Acceptable p.situation c)
    (hr : c.run p = .err e q) : q.operations = p.operations ∧ q.subcommands = p.subcommands ∧
      q.hasPositionalListOption = p.hasPositionalListOption ∧ q.parseWasCalled = p.parseWasCalled := by
  obtain ⟨l, os, hq, _⟩ := c.run_rejected p hc
  rw [hr] at hq
  injection hq with _ hq
  subst hq
  exact ⟨rfl, rfl, rfl, rfl⟩

/-- The deferred operations are those of the accepted calls. -/
theorem operations_history (env : Env W) (as : List (Action W)) (g : Prog W) :
    (runActions env as g).parser.operations = g.parser.operations ++ (accepted env as g).filterMap Call.entry? := by
  induction as generalizing g with
  | nil => simp [runActions, accepted]
  | cons a as ih =>
    cases a with
    | parse =>
      simp only [runActions, accepted]
      rw [ih, show Action.parse.run env g = parse env g from rfl, (parse_parser env g).1.operations]
    | call c =>
      simp only [runActions, accepted]
      by_cases hc : Acceptable g.parser.situation c
      · rw [Action.call_run_acceptable env c g hc, ih]
        dsimp only
        cases he : c.entry? <;> simp [Call.effect, he]
      · obtain ⟨p, hp, hr⟩ := Action.call_run_rejected env c g hc
        rw [hr, ih]
        dsimp only
        rw [(reject_operations c _ _ _ hc hp).1]

end Sharg
