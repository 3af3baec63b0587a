import Verif.Spec.Blame
import Verif.Lemmas.Trace
import Verif.Lemmas.Throws
import Verif.Lemmas.ParseRun
import Verif.Props.Lists

/-! What the rules for set-up calls and `parse()` look at (C98). -/

set_option linter.unusedSimpArgs false

namespace Sharg

open Spec

variable {W : Type}

/-- Two parser objects that look the same to the rules: everything but the command line, what was made of it, and the registered options. -/
structure SameRules (p q : Parser W) : Prop where
  appName : p.appName = q.appName
  called : p.parseWasCalled = q.parseWasCalled
  list : p.hasPositionalListOption = q.hasPositionalListOption
  subcommands : p.subcommands = q.subcommands
  usedIds : p.usedIds = q.usedIds

theorem rules_check : (checkParseNotCalled : PM W Unit).Sim SameRules := by
  intro p q h
  unfold checkParseNotCalled
  rw [← h.called]
  split <;> exact ⟨rfl, h⟩

theorem rules_idExists (id : Str) : (idExists id : PM W Bool).Sim SameRules := by
  intro p q h
  unfold idExists
  rw [← h.usedIds]
  split
  · exact ⟨rfl, h⟩
  · exact ⟨rfl, h.appName, h.called, h.list, h.subcommands, rfl⟩

theorem rules_verifyIdentifiers (c : Char) (s : Str) : (verifyIdentifiers c s : PM W Unit).Sim SameRules := by
  unfold verifyIdentifiers verifyShort verifyLong
  refine .ite (.throw _) (.bind ?_ fun _ => ?_)
  · exact .ite (.ite (.throw _) (.bind (rules_idExists _) fun _ => .ite (.throw _) (.pure _))) (.pure _)
  · exact .ite (.ite (.throw _) (.ite (.throw _) (.ite (.throw _) (.bind (rules_idExists _) fun _ => .ite (.throw _) (.pure _))))) (.pure _)

theorem rules_call (c : Call W) : (c.run : PM W Unit).Sim SameRules := by
  have push : ∀ e : Entry W, (pushOperation e : PM W Unit).Sim SameRules :=
    fun e p q h => ⟨rfl, h.appName, h.called, h.list, h.subcommands, h.usedIds⟩
  cases c with
  | addOption cfg x l ty v =>
    simp only [Call.run, Sharg.addOption, verifyOptionConfig]
    exact .bind rules_check fun _ => .bind (.bind (rules_verifyIdentifiers _ _) fun _ =>
      .bind (fun p q h => ⟨rfl, h.appName, h.called, h.list, h.subcommands, h.usedIds⟩) fun _ => .ite (.throw _) (.pure _)) fun _ => push _
  | addFlag cfg x b =>
    simp only [Call.run, Sharg.addFlag, verifyFlagConfig]
    exact .bind rules_check fun _ => .bind (.bind (rules_verifyIdentifiers _ _) fun _ => .ite (.throw _) (.pure _)) fun _ => .ite (.throw _) (push _)
  | addPositionalOption cfg x l ty v =>
    simp only [Call.run, Sharg.addPositionalOption]
    refine .bind rules_check fun _ => .bind ?_ fun _ => .bind ?_ fun _ => push _
    · intro p q h
      unfold verifyPositionalOptionConfig
      rw [← h.subcommands, ← h.list]
      repeat' split
      all_goals exact ⟨rfl, h⟩
    · intro p q h
      refine ⟨rfl, h.appName, h.called, ?_, h.subcommands, h.usedIds⟩
      show (if l then true else p.hasPositionalListOption) = if l then true else q.hasPositionalListOption
      rw [h.list]
  | addSubcommands ns =>
    intro p q h
    refine ⟨rfl, h.appName, h.called, h.list, ?_, h.usedIds⟩
    show addSubcommandsTo p.subcommands ns = addSubcommandsTo q.subcommands ns
    rw [h.subcommands]
  | _ =>
    simp only [Call.run, addText]
    exact .bind rules_check fun _ => push _

/-- Two parsers that look the same are both ready for `parse()`, or none is. -/
theorem SameRules.ready {p q : Parser W} (h : SameRules p q) : Ready p ↔ Ready q := by
  constructor
  · rintro ⟨h1, h2, h3⟩
    exact ⟨h.called ▸ h1, h.appName ▸ h2, h.subcommands ▸ h3⟩
  · rintro ⟨h1, h2, h3⟩
    exact ⟨h.called ▸ h1, h.appName ▸ h2, h.subcommands ▸ h3⟩

/-- A parser that is ready is not blamed. -/
theorem ready_not_blamed {env : Env W} (henv : Blameless env) {g : Prog W} (hg : Reachable env g) (hp : Ready g.parser) :
    (parse env g).1 ≠ .threw .designError := by
  intro h
  cases ha : g.parser.arguments with
  | nil =>
    rw [parse_no_arguments env g hp ha] at h
    dsimp only at h
    split at h <;> cases h
  | cons exe args =>
    obtain ⟨toks, stop, hr⟩ := reading_exists g.parser.options g.parser.subcommands args
    rw [parse_reading env g hp exe args ha toks stop hr] at h
    cases he : stop.exn? with
    | some e' =>
      rw [he] at h
      injection h with h
      subst h
      cases stop <;> simp [Stop.exn?] at he
    | none =>
      rw [he] at h
      dsimp only at h
      unfold checkAndParse at h
      dsimp only at h
      split at h
      · rename_i e' w hc
        injection h with h
        subst h
        exact henv.check _ _ _ _ hp.app (congrArg Prod.fst hc)
      · unfold parseFormat at h
        split at h
        · split at h
          · cases h
          · rename_i e' s hf
            injection h with h
            subst h
            rcases throws_formatParse env.ndebug (decls g) (positional_lists_last (inv_reachable hg)) _ _ _ _ _ hf with
              h | ⟨d, hd, h⟩ | ⟨d, hd, h⟩
            · cases h
            · rcases h with h | ⟨h1, h2⟩ | ⟨h1, h2, h3, h4⟩
              · cases h
              · cases h1
              · cases h1
            · rcases h with h | ⟨h1, h2⟩ | ⟨h1, h2, h3, h4⟩
              · cases h
              · cases h1
              · cases h1
        · split at h
          · rename_i e' w hc
            injection h with h
            subst h
            exact henv.page _ _ _ _ (congrArg Prod.fst hc)
          · cases h

/-- `parse()` blames the developer exactly if the parser is not ready. -/
theorem parse_blamed_iff {env : Env W} (henv : Blameless env) {g : Prog W} (hg : Reachable env g) :
    Blamed (parse env g).1 ↔ ¬ Ready g.parser := by
  constructor
  · exact fun h hp => ready_not_blamed henv hg hp h
  · intro h
    rw [parse_not_ready env g h]
    rfl

theorem reachable_run {env : Env W} {g : Prog W} (hg : Reachable env g) (a : Action W) : Reachable env (a.run env g).2 := by
  obtain ⟨i, st, w, as, rfl⟩ := hg
  refine ⟨i, st, w, as ++ [a], ?_⟩
  generalize start i st w = g₀
  induction as generalizing g₀ with
  | nil => rfl
  | cons b as ih => exact ih _

/-- An action on two parsers that look the same. -/
theorem rules_action {env₁ env₂ : Env W} (h₁ : Blameless env₁) (h₂ : Blameless env₂) {g₁ g₂ : Prog W} (hg₁ : Reachable env₁ g₁)
    (hg₂ : Reachable env₂ g₂) (h : SameRules g₁.parser g₂.parser) (a : Action W) :
    (Blamed (a.run env₁ g₁).1 ↔ Blamed (a.run env₂ g₂).1) ∧ SameRules (a.run env₁ g₁).2.parser (a.run env₂ g₂).2.parser := by
  cases a with
  | call c =>
    have hc := rules_call c _ _ h
    show (Blamed (Action.run env₁ (.call c) g₁).1 ↔ _) ∧ _
    unfold Action.run
    dsimp only
    cases e₁ : c.run g₁.parser with
    | ok u p =>
      cases e₂ : c.run g₂.parser with
      | ok u' q => rw [e₁, e₂] at hc; exact ⟨⟨nofun, nofun⟩, hc.2⟩
      | err e q => rw [e₁, e₂] at hc; exact hc.elim
    | err e p =>
      cases e₂ : c.run g₂.parser with
      | ok u' q => rw [e₁, e₂] at hc; exact hc.elim
      | err e' q =>
        rw [e₁, e₂] at hc
        obtain ⟨rfl, hc⟩ := hc
        exact ⟨Iff.rfl, hc⟩
  | parse =>
    refine ⟨?_, ?_⟩
    · show Blamed (Sharg.parse env₁ g₁).1 ↔ Blamed (Sharg.parse env₂ g₂).1
      rw [parse_blamed_iff h₁ hg₁, parse_blamed_iff h₂ hg₂, h.ready]
    · obtain ⟨s₁, c₁⟩ := parse_parser env₁ g₁
      obtain ⟨s₂, c₂⟩ := parse_parser env₂ g₂
      show SameRules (Sharg.parse env₁ g₁).2.parser (Sharg.parse env₂ g₂).2.parser
      exact ⟨by rw [s₁.appName, s₂.appName, h.appName], by rw [c₁, c₂], by rw [s₁.list, s₂.list, h.list],
        by rw [s₁.subcommands, s₂.subcommands, h.subcommands], by rw [s₁.usedIds, s₂.usedIds, h.usedIds]⟩

theorem rules_actions {env₁ env₂ : Env W} (h₁ : Blameless env₁) (h₂ : Blameless env₂) (as : List (Action W)) :
    ∀ {g₁ g₂ : Prog W}, Reachable env₁ g₁ → Reachable env₂ g₂ → SameRules g₁.parser g₂.parser →
      SameBlame (outcomes env₁ as g₁) (outcomes env₂ as g₂) ∧ SameRules (runActions env₁ as g₁).parser (runActions env₂ as g₂).parser := by
  induction as with
  | nil => exact fun _ _ h => ⟨.nil, h⟩
  | cons a as ih =>
    intro g₁ g₂ hg₁ hg₂ h
    obtain ⟨b, h'⟩ := rules_action h₁ h₂ hg₁ hg₂ h a
    obtain ⟨k, hk⟩ := ih (reachable_run hg₁ a) (reachable_run hg₂ a) h'
    exact ⟨.cons b k, hk⟩

/-- The text of an identifier without dashes. -/
def Id.bare : Id → Str
  | .short c => [c]
  | .long s => s

/-- When `is_option_set()` blames the developer. -/
theorem isOptionSet_blames_iff (p : Parser W) (id : Id) : isOptionSet p id = .error .designError ↔
    p.parseWasCalled = false ∨ (∃ c, id = .long [c]) ∨ id.bare ∉ p.usedIds := by
  have last : ∀ r : List Str × List Str, (match r with | (_, []) => Except.ok false | (_, _ :: _) => Except.ok true) ≠ Except.error Exn.designError := by
    rintro ⟨u, v⟩
    cases v <;> nofun
  have key : ∀ (b : Bool) (k : Str), (b = true ↔ ∃ c, id = .long [c]) → k = id.bare →
      ((if !p.parseWasCalled then Except.error Exn.designError else if b then .error .designError else if k ∉ p.usedIds then .error .designError
        else match findOptionId id (p.formatArguments.takeWhile (fun a => a ≠ endMarker)) with
          | (_, []) => .ok false
          | (_, _ :: _) => .ok true) = .error .designError ↔
        p.parseWasCalled = false ∨ (∃ c, id = .long [c]) ∨ id.bare ∉ p.usedIds) := by
    rintro b k hl rfl
    by_cases h1 : p.parseWasCalled = false
    · rw [if_pos (by rw [h1]; rfl)]
      exact ⟨fun _ => Or.inl h1, fun _ => rfl⟩
    · rw [if_neg (by simpa using h1)]
      by_cases h2 : b = true
      · rw [if_pos h2]
        exact ⟨fun _ => Or.inr (Or.inl (hl.1 h2)), fun _ => rfl⟩
      · rw [if_neg h2]
        by_cases h3 : id.bare ∉ p.usedIds
        · rw [if_pos h3]
          exact ⟨fun _ => Or.inr (Or.inr h3), fun _ => rfl⟩
        · rw [if_neg h3]
          refine ⟨fun h => absurd h (last _), ?_⟩
          rintro (h | h | h)
          · exact absurd h h1
          · exact absurd (hl.2 h) h2
          · exact absurd h h3
  cases id with
  | short c => exact key false [c] (by simp) rfl
  | long s => exact key (s.length == 1) s (by simp [List.length_eq_one_iff]) rfl

end Sharg
