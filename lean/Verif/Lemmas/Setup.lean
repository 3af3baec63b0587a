import Verif.Lemmas.Basic
import Verif.Spec.Setup

/-! Lemmas on set-up calls. -/

set_option linter.unusedSimpArgs false

namespace Sharg

open Spec

variable {W : Type}

theorem builtinIds_eq : builtinIds = predefined := by decide

theorem isValidIdChar_iff (c : Char) : isValidIdChar c = true ↔ IsShortChar c ∨ c = '-' := by
  unfold isValidIdChar IsShortChar
  simp only [Bool.or_eq_true, decide_eq_true_eq, beq_iff_eq, Char.le_def, UInt32.le_iff_toNat_le, Char.toNat]
  grind

theorem short_ok_iff (c : Char) : ¬ (c = '-' ∨ isValidIdChar c = false) ↔ IsShortChar c := by
  have h := isValidIdChar_iff c
  constructor
  · intro hn
    simp only [not_or, Bool.not_eq_false] at hn
    rcases h.1 hn.2 with h1 | h1
    · exact h1
    · exact absurd h1 hn.1
  · rintro hs (rfl | hf)
    · revert hs; decide
    · rw [h.2 (Or.inl hs)] at hf; cases hf

theorem long_ok_iff (s : Str) (hs : s ≠ []) :
    (s.length ≠ 1 ∧ s.head? ≠ some '-' ∧ s.all isValidIdChar = true) ↔ IsLongId s := by
  unfold IsLongId
  have hlen : s.length ≠ 0 := by simpa using hs
  constructor
  · rintro ⟨h1, h2, h3⟩
    refine ⟨by omega, fun c hc => ?_, h2⟩
    exact (isValidIdChar_iff c).1 (List.all_eq_true.1 h3 c hc)
  · rintro ⟨h1, h2, h3⟩
    refine ⟨by omega, h3, ?_⟩
    rw [List.all_eq_true]
    exact fun c hc => (isValidIdChar_iff c).2 (h2 c hc)

/-- Identifiers in the order in which they are recorded. -/
def burnt (cfg : Config) : List Str :=
  (if cfg.long = [] then [] else [cfg.long]) ++ (if cfg.short = '\x00' then [] else [[cfg.short]])

theorem mem_burnt (cfg : Config) (s : Str) : s ∈ burnt cfg ↔ s ∈ idsOf cfg := by
  unfold burnt idsOf
  simp [or_comm]

/-- The short identifier alone, as far as the check got. -/
theorem verifyShort_run (c : Char) (p : Parser W) :
    verifyShort c p =
      if c = '\x00' then .ok () p
      else if IsShortChar c ∧ [c] ∉ p.usedIds then .ok () { p with usedIds := [c] :: p.usedIds }
      else .err .designError p := by
  unfold verifyShort
  by_cases h0 : c = '\x00'
  · simp [h0, M.pure_run]
  · simp only [h0, ne_eq, not_false_eq_true, if_true, if_false]
    by_cases h1 : c = '-' ∨ isValidIdChar c = false
    · have h2 : ¬ IsShortChar c := fun h => ((short_ok_iff c).2 h) h1
      simp [h1, h2, M.throw_run]
    · have h2 := (short_ok_iff c).1 h1
      by_cases h3 : [c] ∈ p.usedIds
      · simp [h1, h2, h3, M.bind_run, idExists, M.throw_run]
      · simp [h1, h2, h3, M.bind_run, idExists, M.pure_run]

theorem verifyLong_run (s : Str) (p : Parser W) :
    verifyLong s p =
      if s = [] then .ok () p
      else if IsLongId s ∧ s ∉ p.usedIds then .ok () { p with usedIds := s :: p.usedIds }
      else .err .designError p := by
  unfold verifyLong
  by_cases h0 : s = []
  · simp [h0, M.pure_run]
  · simp only [h0, ne_eq, not_false_eq_true, if_true, if_false]
    have hiff := long_ok_iff s h0
    by_cases h1 : IsLongId s
    · obtain ⟨a, b, c⟩ := hiff.2 h1
      by_cases h3 : s ∈ p.usedIds
      · simp [a, b, c, h1, h3, M.bind_run, idExists, M.throw_run]
      · simp [a, b, c, h1, h3, M.bind_run, idExists, M.pure_run]
    · have hn : ¬ (s.length ≠ 1 ∧ s.head? ≠ some '-' ∧ s.all isValidIdChar = true) := fun h => h1 (hiff.1 h)
      simp only [h1, false_and, if_false]
      by_cases a : s.length = 1
      · simp [a, M.throw_run]
      · by_cases b : s.head? = some '-'
        · simp [a, b, M.throw_run]
        · have c : s.all isValidIdChar = false := by
            rw [← Bool.not_eq_true]; exact fun c => hn ⟨a, b, c⟩
          simp only [a, b, c, if_true, if_false, M.throw_run]

theorem long_ne_short {s : Str} (h : IsLongId s) (c : Char) : s ≠ [c] := by
  rintro rfl
  have := h.1
  simp at this

/-- `verify_identifiers` decides as specified and records the identifiers. -/
theorem verifyIdentifiers_ok (cfg : Config) (p : Parser W) (h : IdsAcceptable p.usedIds cfg) :
    verifyIdentifiers cfg.short cfg.long p = .ok () { p with usedIds := burnt cfg ++ p.usedIds } := by
  obtain ⟨h1, h2, h3⟩ := h
  unfold verifyIdentifiers
  rw [if_neg (by grind)]
  simp only [M.bind_run, verifyShort_run]
  by_cases hc : cfg.short = '\x00'
  · have hl : cfg.long ≠ [] := by grind
    simp [hc, verifyLong_run, hl, h3 hl, burnt]
  · by_cases hl : cfg.long = []
    · simp [hc, h2 hc, hl, verifyLong_run, burnt]
    · have := long_ne_short (h3 hl).1 cfg.short
      simp [hc, h2 hc, hl, h3 hl, verifyLong_run, burnt, this]

/-- Otherwise it throws `design_error`; only the short identifier may be left behind. -/
theorem verifyIdentifiers_err (cfg : Config) (p : Parser W) (h : ¬ IdsAcceptable p.usedIds cfg) :
    ∃ l, (l = [] ∨ l = [[cfg.short]] ∧ cfg.short ≠ '\x00' ∧ IsShortChar cfg.short ∧ [cfg.short] ∉ p.usedIds
        ∧ cfg.long ≠ []) ∧
      verifyIdentifiers cfg.short cfg.long p = .err .designError { p with usedIds := l ++ p.usedIds } := by
  unfold verifyIdentifiers
  by_cases h0 : cfg.short = '\x00' ∧ cfg.long = []
  · exact ⟨[], Or.inl rfl, by rw [if_pos h0]; simp [M.throw_run]⟩
  · rw [if_neg h0]
    simp only [M.bind_run, verifyShort_run]
    by_cases hc : cfg.short = '\x00'
    · refine ⟨[], Or.inl rfl, ?_⟩
      have hl : cfg.long ≠ [] := fun hl => h0 ⟨hc, hl⟩
      have : ¬ (IsLongId cfg.long ∧ cfg.long ∉ p.usedIds) := fun hh => h ⟨Or.inr hl, fun hx => absurd hc hx, fun _ => hh⟩
      simp only [hc, if_true, verifyLong_run, hl, if_false, this]
      simp
    · simp only [hc, if_false]
      by_cases hs : IsShortChar cfg.short ∧ [cfg.short] ∉ p.usedIds
      · have hl : cfg.long ≠ [] := fun hl => h ⟨Or.inl hc, fun _ => hs, fun hx => absurd hl hx⟩
        refine ⟨[[cfg.short]], Or.inr ⟨rfl, hc, hs.1, hs.2, hl⟩, ?_⟩
        have : ¬ (IsLongId cfg.long ∧ cfg.long ∉ [cfg.short] :: p.usedIds) := by
          rintro ⟨ha, hb⟩
          exact h ⟨Or.inl hc, fun _ => hs, fun _ => ⟨ha, fun hm => hb (by simp [hm])⟩⟩
        simp only [hs, not_false_eq_true, and_self, if_true, verifyLong_run, hl, if_false, this]
        simp
      · refine ⟨[], Or.inl rfl, ?_⟩
        simp [hs]

/-! ### Effect of a call -/

/-- What the checks look at. -/
def Parser.situation (p : Parser W) : Situation where
  parsed := p.parseWasCalled
  taken := p.usedIds
  hasSubcommand := decide (p.subcommands ≠ [])
  hasPositionalList := p.hasPositionalListOption

/-- The deferred operation of a call. -/
def Call.entry? : Call W → Option (Entry W)
  | .addOption cfg x l ty v => some (.option cfg x l ty v)
  | .addFlag cfg x _ => some (.flag cfg x)
  | .addPositionalOption cfg x l ty v => some (.positional cfg x l ty v)
  | .addSection t a => some (.sec t a)
  | .addSubsection t a => some (.subsec t a)
  | .addLine t p a => some (.line t p a)
  | .addListItem k d a => some (.listItem k d a)
  | .addSubcommands _ => none

/-- Registered option identifiers with dashes. -/
def dashedIds (cfg : Config) : List Str :=
  (if cfg.short ≠ '\x00' then [(Id.short cfg.short).dashed] else [])
      ++ (if cfg.long ≠ [] then [(Id.long cfg.long).dashed] else [])

def Call.dashed : Call W → List Str
  | .addOption cfg _ _ _ _ => dashedIds cfg
  | _ => []

def Call.burnt (c : Call W) : List Str := ((idConfig c).map Sharg.burnt).getD []

/-- State after an accepted call. -/
def Call.effect (c : Call W) (p : Parser W) : Parser W :=
  { p with
    usedIds := c.burnt ++ p.usedIds
    options := c.dashed ++ p.options
    hasPositionalListOption := p.hasPositionalListOption || isPositionalList c
    subcommands := match c with
      | .addSubcommands ns => addSubcommandsTo p.subcommands ns
      | _ => p.subcommands
    operations := p.operations ++ c.entry?.toList }

theorem checkParseNotCalled_false (p : Parser W) (h : p.parseWasCalled = false) :
    checkParseNotCalled p = .ok () p := by simp [checkParseNotCalled, h]

theorem checkParseNotCalled_true (p : Parser W) (h : p.parseWasCalled = true) :
    checkParseNotCalled p = .err .designError p := by simp [checkParseNotCalled, h]

theorem Call.run_acceptable (c : Call W) (p : Parser W) (h : Acceptable p.situation c) :
    c.run p = .ok () (c.effect p) := by
  cases c with
  | addOption cfg x l ty v =>
    obtain ⟨h1, h2, h3⟩ := h
    simp only [Call.run, Sharg.addOption, M.bind_run, checkParseNotCalled_false p h1, verifyOptionConfig,
      verifyIdentifiers_ok cfg p h2, M.modify_run]
    rw [if_neg h3]
    simp [M.pure_run, pushOperation, M.modify_run, Call.effect, Call.burnt, Call.dashed, dashedIds, idConfig,
      isPositionalList, Call.entry?]
  | addFlag cfg x b =>
    obtain ⟨h1, h2, h3, h4⟩ := h
    simp [Call.run, Sharg.addFlag, M.bind_run, checkParseNotCalled_false p h1, verifyFlagConfig,
      verifyIdentifiers_ok cfg p h2, h3, h4, M.pure_run, pushOperation, M.modify_run, Call.effect, Call.burnt,
      Call.dashed, dashedIds, idConfig, isPositionalList, Call.entry?]
  | addPositionalOption cfg x l ty v =>
    obtain ⟨h1, h2, h3, h4, h5, h6, h7⟩ := h
    have ha : cfg.short = '\x00' := by
      by_cases hs : cfg.short = '\x00'
      · exact hs
      · simp [idsOf, hs] at h2
    have hb : cfg.long = [] := by
      by_cases hs : cfg.long = []
      · exact hs
      · simp [idsOf, hs] at h2
    have h5 : p.subcommands = [] := by simpa [Parser.situation] using h5
    have h6 : p.hasPositionalListOption = false := h6
    cases l <;>
    simp [Call.run, Sharg.addPositionalOption, M.bind_run, checkParseNotCalled_false p h1,
      verifyPositionalOptionConfig, ha, hb, h3, h4, h5, h6, h7, M.pure_run, pushOperation, M.modify_run, Call.effect,
      Call.burnt, Call.dashed, dashedIds, idConfig, isPositionalList, Call.entry?]
  | addSubcommands ns =>
    simp [Call.run, Sharg.addSubcommands, M.modify_run, Call.effect, Call.burnt, Call.dashed, idConfig, isPositionalList,
      Call.entry?]
  | _ =>
    have h : p.parseWasCalled = false := h
    simp [Call.run, addText, M.bind_run, checkParseNotCalled_false p h, pushOperation, M.modify_run, Call.effect,
      Call.burnt, Call.dashed, idConfig, isPositionalList, Call.entry?]

/-- A rejected call: identifiers it may leave behind as used, and as registered options. -/
theorem Call.run_rejected (c : Call W) (p : Parser W) (h : ¬ Acceptable p.situation c) :
    ∃ l os, c.run p = .err .designError { p with usedIds := l ++ p.usedIds, options := os ++ p.options } ∧
      (∀ s ∈ l, ∃ cfg, idConfig c = some cfg ∧ s ∈ idsOf cfg ∧ s ∉ p.usedIds) ∧
      (∀ s ∈ l, (∃ c, s = [c] ∧ IsShortChar c) ∨ IsLongId s) ∧
      (os ≠ [] → os = c.dashed ∧ l = c.burnt ∧ p.parseWasCalled = false ∧
        ∃ cfg, idConfig c = some cfg ∧ IdsAcceptable p.usedIds cfg ∧ cfg.required = true ∧ cfg.defaultMessage ≠ []) ∧
      (l ≠ [] → p.parseWasCalled = false ∧ ∃ cfg, idConfig c = some cfg ∧
        (IdsAcceptable p.usedIds cfg ∨
          (cfg.short ≠ '\x00' ∧ IsShortChar cfg.short ∧ [cfg.short] ∉ p.usedIds ∧ cfg.long ≠ []))) := by
  have burnt_wf : ∀ cfg : Config, IdsAcceptable p.usedIds cfg → ∀ s ∈ Sharg.burnt cfg,
      (s ∈ idsOf cfg ∧ s ∉ p.usedIds) ∧ ((∃ c, s = [c] ∧ IsShortChar c) ∨ IsLongId s) := by
    intro cfg h2 s hs
    have hs' := (mem_burnt cfg s).1 hs
    unfold Sharg.burnt at hs
    rw [List.mem_append] at hs
    rcases hs with hs | hs
    · split at hs
      · simp at hs
      · rename_i hl
        simp at hs; subst hs
        exact ⟨⟨hs', (h2.2.2 hl).2⟩, Or.inr (h2.2.2 hl).1⟩
    · split at hs
      · simp at hs
      · rename_i hl
        simp at hs; subst hs
        exact ⟨⟨hs', (h2.2.1 hl).2⟩, Or.inl ⟨_, rfl, (h2.2.1 hl).1⟩⟩
  rcases Bool.eq_false_or_eq_true p.parseWasCalled with hp | hp
  · cases c with
    | addSubcommands ns => exact absurd trivial h
    | _ =>
      refine ⟨[], [], ?_, by simp, by simp, by simp, by simp⟩
      simp [Call.run, Sharg.addOption, Sharg.addFlag, Sharg.addPositionalOption, addText, M.bind_run,
        checkParseNotCalled_true p hp]
  · cases c with
    | addOption cfg x l ty v =>
      by_cases h2 : IdsAcceptable p.usedIds cfg
      · have h3 : cfg.required = true ∧ cfg.defaultMessage ≠ [] := by
          by_cases h3 : cfg.required = true ∧ cfg.defaultMessage ≠ []
          · exact h3
          · exact absurd ⟨hp, h2, h3⟩ h
        refine ⟨Sharg.burnt cfg, dashedIds cfg, ?_, fun s hs => ⟨cfg, rfl, (burnt_wf cfg h2 s hs).1⟩,
          fun s hs => (burnt_wf cfg h2 s hs).2, fun _ => ⟨rfl, rfl, hp, cfg, rfl, h2, h3⟩,
          fun _ => ⟨hp, cfg, rfl, Or.inl h2⟩⟩
        simp only [Call.run, Sharg.addOption, M.bind_run, checkParseNotCalled_false p hp, verifyOptionConfig,
          verifyIdentifiers_ok cfg p h2, M.modify_run]
        rw [if_pos h3]
        simp [M.throw_run, dashedIds]
      · obtain ⟨l, hl, he⟩ := verifyIdentifiers_err cfg p h2
        refine ⟨l, [], ?_, ?_, ?_, by simp, ?_⟩
        · simp [Call.run, Sharg.addOption, M.bind_run, checkParseNotCalled_false p hp, verifyOptionConfig, he]
        · rintro s hs
          rcases hl with rfl | ⟨rfl, h1, h2, h3, h4⟩
          · simp at hs
          · simp at hs; subst hs
            exact ⟨cfg, rfl, by simp [idsOf, h1], h3⟩
        · rintro s hs
          rcases hl with rfl | ⟨rfl, h1, h2, h3, h4⟩
          · simp at hs
          · simp at hs; subst hs
            exact Or.inl ⟨_, rfl, h2⟩
        · intro hne
          rcases hl with rfl | ⟨rfl, h1, h2, h3, h4⟩
          · simp at hne
          · exact ⟨hp, cfg, rfl, Or.inr ⟨h1, h2, h3, h4⟩⟩
    | addFlag cfg x b =>
      by_cases h2 : IdsAcceptable p.usedIds cfg
      · refine ⟨Sharg.burnt cfg, [], ?_, fun s hs => ⟨cfg, rfl, (burnt_wf cfg h2 s hs).1⟩,
          fun s hs => (burnt_wf cfg h2 s hs).2, by simp, fun _ => ⟨hp, cfg, rfl, Or.inl h2⟩⟩
        simp only [Call.run, Sharg.addFlag, M.bind_run, checkParseNotCalled_false p hp, verifyFlagConfig,
          verifyIdentifiers_ok cfg p h2]
        by_cases h3 : cfg.defaultMessage = []
        · have hb : b = true := by
            by_cases hb : b = true
            · exact hb
            · exact absurd ⟨hp, h2, h3, by simpa using hb⟩ h
          simp [h3, hb, M.pure_run, M.throw_run]
        · simp [h3, M.throw_run]
      · obtain ⟨l, hl, he⟩ := verifyIdentifiers_err cfg p h2
        refine ⟨l, [], ?_, ?_, ?_, by simp, ?_⟩
        · simp [Call.run, Sharg.addFlag, M.bind_run, checkParseNotCalled_false p hp, verifyFlagConfig, he]
        · rintro s hs
          rcases hl with rfl | ⟨rfl, h1, h2, h3, h4⟩
          · simp at hs
          · simp at hs; subst hs
            exact ⟨cfg, rfl, by simp [idsOf, h1], h3⟩
        · rintro s hs
          rcases hl with rfl | ⟨rfl, h1, h2, h3, h4⟩
          · simp at hs
          · simp at hs; subst hs
            exact Or.inl ⟨_, rfl, h2⟩
        · intro hne
          rcases hl with rfl | ⟨rfl, h1, h2, h3, h4⟩
          · simp at hne
          · exact ⟨hp, cfg, rfl, Or.inr ⟨h1, h2, h3, h4⟩⟩
    | addPositionalOption cfg x l ty v =>
      refine ⟨[], [], ?_, by simp, by simp, by simp, by simp⟩
      simp only [Call.run, Sharg.addPositionalOption, M.bind_run, checkParseNotCalled_false p hp]
      suffices hv : verifyPositionalOptionConfig cfg p = .err .designError p by simp [hv]
      unfold verifyPositionalOptionConfig
      by_cases c1 : cfg.short ≠ '\x00' ∨ cfg.long ≠ []
      · rw [if_pos c1]
      · rw [if_neg c1]
        by_cases c2 : cfg.advanced = true ∨ cfg.hidden = true
        · rw [if_pos c2]
        · rw [if_neg c2]
          by_cases c3 : p.subcommands ≠ []
          · rw [if_pos c3]
          · rw [if_neg c3]
            by_cases c4 : p.hasPositionalListOption = true
            · rw [if_pos c4]
            · rw [if_neg c4]
              by_cases c5 : cfg.defaultMessage ≠ []
              · rw [if_pos c5]
              · exfalso
                apply h
                simp only [not_or, ne_eq, Decidable.not_not, Bool.not_eq_true] at c1 c2 c3 c4 c5
                exact ⟨hp, by simp [idsOf, c1.1, c1.2], c2.1, c2.2, by simp [Parser.situation, c3], c4, c5⟩
    | addSubcommands ns => exact absurd trivial h
    | _ => exact absurd hp h

end Sharg
