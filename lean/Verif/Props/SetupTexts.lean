import Verif.Model.SetupTexts
import Verif.Spec.SetupTexts
import Verif.Lemmas.ErrorTexts
import Verif.Props.IsSet

/-!
# Property C71: the texts of exceptions during set-up
-/

namespace Sharg

open Spec

variable {W : Type}

/-! ### The same functions when the texts are forgotten -/

theorem verifyShortT_forget (c : Char) : (verifyShortT (W := W) c).forget = verifyShort c := by
  unfold verifyShortT verifyShort
  refine ite_forget (ite_forget rfl (bind_forget ?_ fun b => ite_forget rfl rfl)) rfl
  funext p
  simp only [TM.forget, idExistsT, idExists]
  split <;> rfl

theorem verifyLongT_forget (s : Str) : (verifyLongT (W := W) s).forget = verifyLong s := by
  unfold verifyLongT verifyLong
  refine ite_forget (ite_forget rfl (ite_forget rfl (ite_forget rfl (bind_forget ?_ fun b => ite_forget rfl rfl)))) rfl
  funext p
  simp only [TM.forget, idExistsT, idExists]
  split <;> rfl

theorem verifyIdentifiersT_forget (c : Char) (s : Str) : (verifyIdentifiersT (W := W) c s).forget = verifyIdentifiers c s :=
  ite_forget rfl (bind_forget (verifyShortT_forget c) fun _ => verifyLongT_forget s)

theorem checkParseNotCalledT_forget (f : Str) : (checkParseNotCalledT (W := W) f).forget = checkParseNotCalled := by
  funext p
  simp only [TM.forget, checkParseNotCalledT, checkParseNotCalled]
  split <;> rfl

/-- C71: with the texts forgotten, the set-up calls are those of the other properties. -/
theorem C71_texts_only (c : Call W) : c.runT.forget = c.run := by
  cases c with
  | addOption cfg x l ty v =>
    exact bind_forget (checkParseNotCalledT_forget _) fun _ =>
      bind_forget (bind_forget (verifyIdentifiersT_forget _ _) fun _ => bind_forget rfl fun _ => ite_forget rfl rfl) fun _ => rfl
  | addFlag cfg x b =>
    exact bind_forget (checkParseNotCalledT_forget _) fun _ =>
      bind_forget (bind_forget (verifyIdentifiersT_forget _ _) fun _ => ite_forget rfl rfl) fun _ => ite_forget rfl rfl
  | addPositionalOption cfg x l ty v =>
    refine bind_forget (checkParseNotCalledT_forget _) fun _ => bind_forget ?_ fun _ => bind_forget rfl fun _ => rfl
    funext p
    simp only [TM.forget, verifyPositionalOptionConfigT, verifyPositionalOptionConfig]
    repeat' split
    all_goals rfl
  | addSubcommands ns => rfl
  | _ => exact bind_forget (checkParseNotCalledT_forget _) fun _ => rfl

/-- The same for `is_option_set`. -/
theorem C71_query_texts_only (p : Parser W) (id : Id) :
    isOptionSet p id = match isOptionSetT p id with
      | .ok b => .ok b
      | .error e => .error e.1 := by
  unfold isOptionSet isOptionSetT
  by_cases h1 : (!p.parseWasCalled) = true
  · simp only [if_pos h1]
  simp only [if_neg h1]
  cases id with
  | short c =>
    simp only [Bool.false_eq_true, if_false]
    by_cases hu : [c] ∈ p.usedIds
    · simp only [hu, not_true_eq_false, if_false]
      generalize findOptionId _ _ = r
      rcases r with ⟨a, _ | ⟨b, c⟩⟩ <;> rfl
    · simp only [hu, not_false_eq_true, if_true]
  | long s =>
    by_cases hl : (s.length == 1) = true
    · simp only [hl, if_true]
    · simp only [hl, Bool.false_eq_true, if_false]
      by_cases hu : s ∈ p.usedIds
      · simp only [hu, not_true_eq_false, if_false]
        generalize findOptionId _ _ = r
        rcases r with ⟨a, _ | ⟨b, c⟩⟩ <;> rfl
      · simp only [hu, not_false_eq_true, if_true]

/-- The same for `get_sub_parser`. -/
theorem C71_sub_parser_text_only (p : Parser W) :
    getSubParser p = match getSubParserT p with
      | .ok b => .ok b
      | .error e => .error e.1 := by
  unfold getSubParser getSubParserT
  cases p.subParser <;> rfl

/-! ### The reasons -/

/-- What a history leaves behind. -/
structure After (used : Str → Prop) (i : Init) (as : List (Action W)) (done : List (Call W)) (p : Parser W) : Prop where
  parsed : p.parseWasCalled = true → Action.parse ∈ as
  ids : ∀ s ∈ p.usedIds, used s
  subs : p.subcommands ≠ [] → ∃ name, name ∈ i.subcommands ∨ ∃ ns, Call.addSubcommands ns ∈ done ∧ name ∈ ns
  list : p.hasPositionalListOption = true → ∃ cfg x ty v, Call.addPositionalOption cfg x true ty v ∈ done

theorem mem_idsOf_short {cfg : Config} (h : cfg.short ≠ '\x00') : [cfg.short] ∈ idsOf cfg := by
  simp [idsOf, h]

theorem verifyIdentifiersT_explained {used : Str → Prop} {i : Init} {as : List (Action W)} {done : List (Call W)} {p q : Parser W}
    (ha : After used i as done p) {c : Call W} {cfg : Config} (hc : idConfig c = some cfg) {e : Exn} {t : Str}
    (h : verifyIdentifiersT cfg.short cfg.long p = .err e t q) : e = .designError ∧ SetupExplained used i as done c t := by
  unfold verifyIdentifiersT at h
  by_cases h0 : cfg.short = '\x00' ∧ cfg.long = []
  · rw [if_pos h0] at h
    cases h
    exact ⟨rfl, .noIdentifier c cfg hc (by simp [idsOf, h0.1, h0.2])⟩
  rw [if_neg h0] at h
  have long : ∀ p' : Parser W, (∀ s ∈ p'.usedIds, s.length ≠ 1 → used s) → verifyLongT cfg.long p' = .err e t q →
      e = .designError ∧ SetupExplained used i as done c t := by
    intro p' hp' h
    unfold verifyLongT at h
    by_cases hl : cfg.long = []
    · rw [if_neg (by simp [hl])] at h; cases h
    rw [if_pos hl] at h
    by_cases h1 : cfg.long.length = 1
    · rw [if_pos h1] at h
      cases h
      exact ⟨rfl, .longLength c cfg hc h1⟩
    rw [if_neg h1] at h
    by_cases h2 : cfg.long.head? = some '-'
    · rw [if_pos h2] at h
      cases h
      exact ⟨rfl, .longDash c cfg hc h2⟩
    rw [if_neg h2] at h
    by_cases h3 : cfg.long.all isValidIdChar = false
    · rw [if_pos h3] at h
      cases h
      obtain ⟨x, hx, hv⟩ := List.all_eq_false.1 h3
      exact ⟨rfl, .longCharacter c cfg x hc hx (fun hs => hv ((isValidIdChar_iff x).2 (Or.inl hs)))
        (fun hs => hv ((isValidIdChar_iff x).2 (Or.inr hs)))⟩
    rw [if_neg h3] at h
    by_cases h4 : cfg.long ∈ p'.usedIds
    · simp only [TM.bind, idExistsT, if_pos h4, if_true] at h
      cases h
      exact ⟨rfl, .longUsed c cfg hc ((long_ok_iff _ hl).1 ⟨h1, h2, by simpa using h3⟩) (hp' _ h4 h1)⟩
    · simp only [TM.bind, idExistsT, if_neg h4] at h
      cases h
  unfold verifyShortT at h
  by_cases hs : cfg.short = '\x00'
  · rw [if_neg (by simp [hs])] at h
    exact long p (fun s hs _ => ha.ids s hs) h
  rw [if_pos hs] at h
  by_cases h1 : cfg.short = '-' ∨ isValidIdChar cfg.short = false
  · rw [if_pos h1] at h
    cases h
    exact ⟨rfl, .shortCharacter c cfg hc (mem_idsOf_short hs) (fun h => (short_ok_iff _).2 h h1)⟩
  rw [if_neg h1] at h
  by_cases h2 : [cfg.short] ∈ p.usedIds
  · simp only [TM.bind, idExistsT, if_pos h2, if_true] at h
    cases h
    have := SetupExplained.shortUsed (i := i) (as := as) (done := done) c cfg hc (mem_idsOf_short hs) ((short_ok_iff _).1 h1)
      (ha.ids _ h2)
    rw [List.append_assoc]
    exact ⟨rfl, this⟩
  · simp only [TM.bind, idExistsT, if_neg h2] at h
    refine long _ ?_ h
    intro s hs' hne
    rcases List.mem_cons.1 hs' with rfl | hs'
    · simp at hne
    · exact ha.ids s hs'

theorem runT_explained {used : Str → Prop} {i : Init} {as : List (Action W)} {done : List (Call W)} {p q : Parser W}
    (ha : After used i as done p) {c : Call W} {e : Exn} {t : Str} (h : c.runT p = .err e t q) :
    e = .designError ∧ SetupExplained used i as done c t := by
  by_cases hp : p.parseWasCalled = true
  · have hl := SetupExplained.late (used := used) (i := i) (done := done) c (ha.parsed hp)
    cases c with
    | addSubcommands ns => cases h
    | addOption cfg x l ty v =>
      simp only [Call.runT, addOptionT, TM.bind, checkParseNotCalledT, if_pos hp] at h
      cases h; exact ⟨rfl, hl⟩
    | addFlag cfg x b =>
      simp only [Call.runT, addFlagT, TM.bind, checkParseNotCalledT, if_pos hp] at h
      cases h; exact ⟨rfl, hl⟩
    | addPositionalOption cfg x l ty v =>
      simp only [Call.runT, addPositionalOptionT, TM.bind, checkParseNotCalledT, if_pos hp] at h
      cases h; exact ⟨rfl, hl⟩
    | _ =>
      simp only [Call.runT, addTextT, TM.bind, checkParseNotCalledT, if_pos hp] at h
      cases h; exact ⟨rfl, hl⟩
  · cases c with
    | addSubcommands ns => cases h
    | addOption cfg x l ty v =>
      simp only [Call.runT, addOptionT, TM.bind, checkParseNotCalledT, if_neg hp, verifyOptionConfigT] at h
      cases hv : verifyIdentifiersT cfg.short cfg.long p with
      | err e' t' q' =>
        simp only [hv] at h
        cases h
        exact verifyIdentifiersT_explained ha rfl hv
      | ok _ p' =>
        simp only [hv, TM.modify] at h
        by_cases hr : cfg.required = true ∧ cfg.defaultMessage ≠ []
        · simp only [if_pos hr, TM.throw] at h
          cases h
          exact ⟨rfl, .requiredDefault cfg x l ty v hr.1 hr.2⟩
        · simp only [if_neg hr, TM.pure, pushOperationT, TM.modify] at h
          cases h
    | addFlag cfg x b =>
      simp only [Call.runT, addFlagT, TM.bind, checkParseNotCalledT, if_neg hp, verifyFlagConfigT] at h
      cases hv : verifyIdentifiersT cfg.short cfg.long p with
      | err e' t' q' =>
        simp only [hv] at h
        cases h
        exact verifyIdentifiersT_explained ha rfl hv
      | ok _ p' =>
        simp only [hv] at h
        by_cases hr : cfg.defaultMessage ≠ []
        · simp only [if_pos hr, TM.throw] at h
          cases h
          exact ⟨rfl, .flagDefault cfg x b hr⟩
        · simp only [if_neg hr, TM.pure] at h
          cases b with
          | false => cases h
          | true =>
            cases h
            exact ⟨rfl, .flagSet cfg x⟩
    | addPositionalOption cfg x l ty v =>
      simp only [Call.runT, addPositionalOptionT, TM.bind, checkParseNotCalledT, if_neg hp, verifyPositionalOptionConfigT] at h
      by_cases h1 : cfg.short ≠ '\x00' ∨ cfg.long ≠ []
      · simp only [if_pos h1] at h
        cases h
        refine ⟨rfl, .positionalIdentifier cfg x l ty v ?_⟩
        rcases h1 with h1 | h1 <;> simp [idsOf, h1]
      by_cases h2 : cfg.advanced = true ∨ cfg.hidden = true
      · simp only [if_neg h1, if_pos h2] at h
        cases h
        exact ⟨rfl, .positionalHidden cfg x l ty v h2⟩
      by_cases h3 : p.subcommands ≠ []
      · simp only [if_neg h1, if_neg h2, if_pos h3] at h
        cases h
        obtain ⟨name, hn⟩ := ha.subs h3
        exact ⟨rfl, .positionalSubcommand cfg x l ty v name hn⟩
      by_cases h4 : p.hasPositionalListOption = true
      · simp only [if_neg h1, if_neg h2, if_neg h3, if_pos h4] at h
        cases h
        obtain ⟨cfg', x', ty', v', hn⟩ := ha.list h4
        exact ⟨rfl, .positionalList cfg cfg' x x' l ty ty' v v' hn⟩
      by_cases h5 : cfg.defaultMessage ≠ []
      · simp only [if_neg h1, if_neg h2, if_neg h3, if_neg h4, if_pos h5] at h
        cases h
        exact ⟨rfl, .positionalDefault cfg x l ty v h5⟩
      · simp only [if_neg h1, if_neg h2, if_neg h3, if_neg h4, if_neg h5] at h
        cases h
    | _ =>
      simp only [Call.runT, addTextT, TM.bind, checkParseNotCalledT, if_neg hp] at h
      cases h

/-! ### Histories -/

theorem history_flags (env : Env W) (as : List (Action W)) : ∀ g : Prog W,
    ((runActions env as g).parser.parseWasCalled = true ↔ g.parser.parseWasCalled = true ∨ Action.parse ∈ as) ∧
    (∀ s, s ∈ (runActions env as g).parser.subcommands ↔ s ∈ g.parser.subcommands ∨ s ∈ (accepted env as g).flatMap namesOf) ∧
    (runActions env as g).parser.hasPositionalListOption =
      (g.parser.hasPositionalListOption || (accepted env as g).any isPositionalList) ∧
    (∀ s ∈ allIds (accepted env as g), s ∈ (runActions env as g).parser.usedIds) ∧
    (∀ s ∈ g.parser.usedIds, s ∈ (runActions env as g).parser.usedIds) := by
  induction as with
  | nil => intro g; simp [runActions, accepted, allIds]
  | cons a as ih =>
    intro g
    obtain ⟨h1, h2, h3, h4, h5⟩ := ih (a.run env g).2
    cases a with
    | parse =>
      have hk := parse_parser env g
      simp only [runActions, accepted]
      refine ⟨?_, ?_, ?_, h4, ?_⟩
      · rw [h1]; simp [Action.run, hk.2]
      · intro s; rw [h2 s]; simp [Action.run, hk.1.subcommands]
      · rw [h3]; simp [Action.run, hk.1.list]
      · intro s hs
        exact h5 s (by simpa [Action.run, hk.1.usedIds] using hs)
    | call c =>
      by_cases hc : Acceptable g.parser.situation c
      · rw [Action.call_run_acceptable env c g hc] at h1 h2 h3 h4 h5
        simp only [runActions, accepted, Action.call_run_acceptable env c g hc]
        refine ⟨?_, ?_, ?_, ?_, ?_⟩
        · rw [h1]; simp [Call.effect]
        · intro s
          rw [h2 s, List.flatMap_cons, List.mem_append]
          dsimp only
          rw [effect_subcommands_mem, or_assoc]
        · rw [h3]; simp [Call.effect, Bool.or_assoc]
        · intro s hs
          rw [allIds_cons, List.mem_append] at hs
          rcases hs with hs | hs
          · exact h5 s (by simp [Call.effect, (mem_burnt_call c s).2 hs])
          · exact h4 s hs
        · intro s hs
          exact h5 s (by simp [Call.effect, hs])
      · obtain ⟨p, hp, hr⟩ := Action.call_run_rejected env c g hc
        obtain ⟨_, k1, k2, k3⟩ := reject_operations c _ _ _ hc hp
        obtain ⟨l, os, hq, _⟩ := c.run_rejected g.parser hc
        rw [hr] at h1 h2 h3 h4 h5
        simp only [runActions, accepted, hr]
        refine ⟨?_, ?_, ?_, h4, ?_⟩
        · rw [h1]; simp [k3]
        · intro s; rw [h2 s]; simp [k1]
        · rw [h3]; simp [k2]
        · intro s hs
          rw [hp] at hq
          injection hq with _ hq
          exact h5 s (by rw [hq]; simp [hs])

theorem after_history (env : Env W) (i : Init) (st : Store) (w : W) (as : List (Action W)) {used : Str → Prop}
    (hu : ∀ s ∈ (runActions env as (start i st w)).parser.usedIds, used s) :
    After used i as (accepted env as (start i st w)) (runActions env as (start i st w)).parser := by
  obtain ⟨h1, h2, h3, _⟩ := history_flags env as (start i st w)
  refine ⟨?_, hu, ?_, ?_⟩
  · intro h
    rcases h1.1 h with h | h
    · cases h
    · exact h
  · intro h
    obtain ⟨name, hn⟩ := List.exists_mem_of_ne_nil _ h
    refine ⟨name, ?_⟩
    rcases (h2 name).1 hn with hn | hn
    · left
      have := (mem_addSubcommandsTo [] i.subcommands name).1 hn
      simpa using this
    · right
      obtain ⟨c, hc, hn⟩ := List.mem_flatMap.1 hn
      cases c with
      | addSubcommands ns => exact ⟨ns, hc, hn⟩
      | _ => simp [namesOf] at hn
  · intro h
    rw [h3] at h
    have h : (accepted env as (start i st w)).any isPositionalList = true := h
    obtain ⟨c, hc, hn⟩ := List.any_eq_true.1 h
    cases c with
    | addPositionalOption cfg x l ty v =>
      have : l = true := hn
      subst this
      exact ⟨_, _, _, _, hc⟩
    | _ => simp [isPositionalList] at hn

theorem mentioned_history (env : Env W) (i : Init) (st : Store) (w : W) (as : List (Action W)) :
    ∀ s ∈ (runActions env as (start i st w)).parser.usedIds, MentionedBefore as s := by
  intro s hs
  rcases used_mentioned env as _ s hs with h | ⟨a, ha, h⟩
  · left
    simpa [start, mkParser, builtinIds_eq] using h
  · right
    cases a with
    | parse => exact absurd trivial h
    | call c =>
      apply Classical.byContradiction
      intro hn
      apply h
      intro cfg hcfg t ht hts
      rw [List.mem_singleton] at hts
      subst hts
      exact hn ⟨c, cfg, ha, hcfg, ht⟩

/-- C71 (partial): a set-up call throws nothing but `design_error`, and the text gives a reason that is true of the call and the
calls before. Missing: an identifier "already used before" may come from a call that was refused, see
`C71_used_by_a_refused_call`. -/
theorem C71_setup_texts_partial (env : Env W) (i : Init) (st : Store) (w : W) (as : List (Action W)) (c : Call W) (e : Exn) (t : Str)
    (q : Parser W) (h : c.runT (runActions env as (start i st w)).parser = .err e t q) :
    e = .designError ∧ SetupExplained (MentionedBefore as) i as (accepted env as (start i st w)) c t :=
  runT_explained (after_history env i st w as (mentioned_history env i st w as)) h

/-- C71 (partial) in full for programs whose calls so far were accepted: then an identifier "already used before" is predefined or
belongs to an option or flag of the parser. Missing: programs that go on after a refused call. -/
theorem C71_setup_texts_without_refusals_partial (env : Env W) (i : Init) (st : Store) (w : W) (cs : List (Call W))
    (hacc : accepted env (cs.map .call) (start i st w) = cs) (c : Call W) (e : Exn) (t : Str) (q : Parser W)
    (h : c.runT (runActions env (cs.map .call) (start i st w)).parser = .err e t q) :
    e = .designError ∧ SetupExplained (InUse cs) i (cs.map .call) cs c t := by
  have := after_history env i st w (cs.map .call) (used := InUse cs) (by
    intro s hs
    rcases ((all_accepted env cs _ hacc).1 s).1 hs with h | h
    · left; simpa [start, mkParser, builtinIds_eq] using h
    · exact Or.inr h)
  rw [hacc] at this
  exact runT_explained this h

/-- C71: the text says "may only be used before calling parse()" for every call after `parse()` but `add_subcommands`, which is
not refused then. -/
theorem C71_late_calls (env : Env W) (i : Init) (st : Store) (w : W) (as : List (Action W)) (hp : Action.parse ∈ as) (c : Call W)
    (hc : ∀ ns, c ≠ .addSubcommands ns) :
    ∃ q, c.runT (runActions env as (start i st w)).parser =
      .err .designError (functionName c ++ " may only be used before calling parse().".toList) q := by
  have h1 := (history_flags env as (start i st w)).1.2 (Or.inr hp)
  cases c with
  | addSubcommands ns => exact absurd rfl (hc ns)
  | addOption cfg x l ty v =>
    exact ⟨_, by simp only [Call.runT, addOptionT, TM.bind, checkParseNotCalledT, if_pos h1]; rfl⟩
  | addFlag cfg x b =>
    exact ⟨_, by simp only [Call.runT, addFlagT, TM.bind, checkParseNotCalledT, if_pos h1]; rfl⟩
  | addPositionalOption cfg x l ty v =>
    exact ⟨_, by simp only [Call.runT, addPositionalOptionT, TM.bind, checkParseNotCalledT, if_pos h1]; rfl⟩
  | _ =>
    exact ⟨_, by simp only [Call.runT, addTextT, TM.bind, checkParseNotCalledT, if_pos h1]; rfl⟩

/-- C71: the texts of `is_option_set` give a true reason. -/
theorem C71_query_texts (env : Env W) (i : Init) (st : Store) (w : W) (as : List (Action W)) (id : Id) (e : Exn) (t : Str)
    (h : isOptionSetT (runActions env as (start i st w)).parser id = .error (e, t)) :
    e = .designError ∧ QueryExplained as (accepted env as (start i st w)) (idText id) (givenAsString id) t := by
  obtain ⟨h1, _, _, h4, h5⟩ := history_flags env as (start i st w)
  unfold isOptionSetT at h
  by_cases hp : (!(runActions env as (start i st w)).parser.parseWasCalled) = true
  · rw [if_pos hp] at h
    cases h
    refine ⟨rfl, .early fun hm => ?_⟩
    rw [h1.2 (Or.inr hm)] at hp
    cases hp
  rw [if_neg hp] at h
  have last : ∀ {s : Str} {l : Bool}, s ∉ (runActions env as (start i st w)).parser.usedIds →
      QueryExplained as (accepted env as (start i st w)) s l
        "You can only ask for option identifiers that you added with add_option() before.".toList := by
    intro s l hs
    refine .notAdded (fun hm => hs (h5 s ?_)) (fun hm => hs (h4 s hm))
    simpa [start, mkParser, builtinIds_eq] using hm
  cases id with
  | short c =>
    simp only [Bool.false_eq_true, if_false] at h
    by_cases hu : [c] ∉ (runActions env as (start i st w)).parser.usedIds
    · rw [if_pos hu] at h
      cases h
      exact ⟨rfl, last hu⟩
    · rw [if_neg hu] at h
      split at h <;> cases h
  | long s =>
    dsimp only at h
    by_cases hl : s.length == 1
    · rw [if_pos hl] at h
      cases h
      refine ⟨rfl, ?_⟩
      have := QueryExplained.oneCharacter (as := as) (done := accepted env as (start i st w)) (s := s) (long := true) rfl
        (by simpa using hl)
      rw [List.append_assoc ("Long option identifiers must be longer than one character! If ".toList ++ s)]
      exact this
    rw [if_neg hl] at h
    by_cases hu : s ∉ (runActions env as (start i st w)).parser.usedIds
    · rw [if_pos hu] at h
      cases h
      exact ⟨rfl, last hu⟩
    · rw [if_neg hu] at h
      split at h <;> cases h

/-! ### Counterexamples -/

/-- C71 fails after a refused call, in general: whatever the first call was refused for after its short identifier was noted, the
corrected call is refused because the identifier "was already used before", though no option or flag has it. -/
theorem C71_used_by_a_refused_call (env : Env W) (i : Init) (st : Store) (w : W) (c : Char) (hc : IsShortChar c) (hh : c ≠ 'h')
    (x : VarId) (l : Bool) (ty : ElemTy) (v : Val → W → Bool × W) :
    let wrong : Call W := .addOption { short := c, long := "n".toList } x l ty v
    let right : Call W := .addOption { short := c, long := "name".toList } x l ty v
    accepted env [.call wrong] (start i st w) = [] ∧
    (∃ q, right.runT (runActions env [.call wrong] (start i st w)).parser =
      .err .designError ("Short identifier '".toList ++ [c] ++ "' was already used before.".toList) q) ∧
    ¬ InUse (accepted env [.call wrong] (start i st w)) [c] := by
  intro wrong right
  have h0 : c ≠ '\x00' := by rintro rfl; revert hc; decide
  have hpre : [c] ∉ predefined := by
    intro h
    have : predefined = ["h".toList, "hh".toList, "help".toList, "advanced-help".toList, "export-help".toList, "version".toList,
      "copyright".toList] := rfl
    rw [this] at h
    simp at h
    exact hh h
  have hused : [c] ∉ (start i st w).parser.usedIds := by simpa [start, mkParser, builtinIds_eq] using hpre
  have hnot : ¬ Acceptable (start i st w).parser.situation wrong := by
    rintro ⟨_, ⟨_, _, h⟩, _⟩
    have hl : ¬ IsLongId "n".toList := by decide
    have hn : ("n".toList : Str) ≠ [] := by decide
    exact hl (h hn).1
  obtain ⟨p, hp, hr⟩ := Action.call_run_rejected env wrong (start i st w) hnot
  have hrun : wrong.run (start i st w).parser =
      .err .designError { (start i st w).parser with usedIds := [c] :: (start i st w).parser.usedIds } := by
    have hn : ("n".toList : Str) ≠ [] := by decide
    have hl : ¬ IsLongId "n".toList := by decide
    simp only [wrong, Call.run, Sharg.addOption, verifyOptionConfig, verifyIdentifiers, M.bind_run,
      checkParseNotCalled_false (start i st w).parser rfl, h0, false_and, if_false, verifyShort_run, hc, hused, not_false_eq_true,
      and_self, if_true, verifyLong_run, hn, hl]
  rw [hrun] at hp
  injection hp with _ hp
  subst hp
  have hacc : accepted env [.call wrong] (start i st w) = [] := by
    simp only [accepted, hr]
  refine ⟨hacc, ?_, ?_⟩
  · simp only [runActions, hr, right, Call.runT, addOptionT, TM.bind, checkParseNotCalledT]
    have hp0 : (start i st w).parser.parseWasCalled = false := rfl
    have h1 := (short_ok_iff c).2 hc
    simp only [hp0, Bool.false_eq_true, if_false, verifyOptionConfigT, TM.bind, verifyIdentifiersT, h0, false_and, verifyShortT, ne_eq,
      not_false_eq_true, if_true, h1, idExistsT, List.mem_cons, true_or, TM.throw]
    exact ⟨_, rfl⟩
  · rw [hacc]
    rintro (h | h)
    · exact hpre h
    · simp [allIds] at h

/-- C71 fails for `get_sub_parser`: before `parse()` it says that no subcommand was provided at the construction, whatever
subcommands were. -/
theorem C71_sub_parser_before_parse (env : Env W) (i : Init) (st : Store) (w : W) (cs : List (Call W)) :
    getSubParserT (runActions env (cs.map .call) (start i st w)).parser =
      .error (.designError, "No subcommand was provided at the construction of the argument parser!".toList) := by
  have : ∀ (cs : List (Call W)) (g : Prog W), g.parser.subParser = none →
      (runActions env (cs.map .call) g).parser.subParser = none := by
    intro cs
    induction cs with
    | nil => intro g h; exact h
    | cons c cs ih =>
      intro g h
      apply ih
      by_cases hc : Acceptable g.parser.situation c
      · rw [Action.call_run_acceptable env c g hc]; exact h
      · obtain ⟨l, os, hq, _⟩ := c.run_rejected g.parser hc
        simp only [Action.run, hq]
        exact h
  unfold getSubParserT
  rw [this cs _ rfl]

/-! ### Examples -/

/-- The text of a refused call after other calls. -/
def exRefused (cs : List (Call Unit)) (c : Call Unit) : Option Str :=
  match c.runT (runActions exEnv (cs.map .call) (start exInit exStore ())).parser with
  | .ok _ _ => none
  | .err _ t _ => some t

/-- Every kind of reason occurs. -/
example : exRefused [] (.addOption {} 0 false .string fun _ w => (true, w)) =
      some "Short and long identifiers may not both be empty.".toList ∧
    exRefused [] (exFlag '-' "") = some "Short identifiers may only contain alphanumeric characters, '_', or '@'.".toList ∧
    exRefused [] (exFlag 'h' "") = some "Short identifier 'h' was already used before.".toList ∧
    exRefused [exFlag 'v' "verbose"] (exOption 'v' "") = some "Short identifier 'v' was already used before.".toList ∧
    exRefused [] (exFlag 'v' "v") = some "Long identifiers must be either empty or longer than one character.".toList ∧
    exRefused [] (exFlag 'v' "-v") = some "Long identifiers may not use '-' as first character.".toList ∧
    exRefused [] (exFlag 'v' "v v") =
      some "Long identifiers may only contain alphanumeric characters, '_', '-', or '@'.".toList ∧
    exRefused [exFlag 'v' "verbose"] (exOption 'w' "verbose") = some "Long identifier 'verbose' was already used before.".toList :=
  by decide +kernel

example : exRefused [] (.addOption { short := 'o', required := true, defaultMessage := "no".toList } 0 false .string
        fun _ w => (true, w)) = some "A required option cannot have a default message.".toList ∧
    exRefused [] (.addFlag { short := 'o', defaultMessage := "no".toList } 0 false) =
      some "A flag may not have a default message because the default is always `false`.".toList ∧
    exRefused [] (.addFlag { short := 'o' } 0 true) = some "A flag's default value must be false.".toList ∧
    exRefused [exPositional true] (exPositional false) = some ("You added a positional option with a list value before so you "
      ++ "cannot add any other positional options.").toList ∧
    exRefused [.addSubcommands ["sub".toList]] (exPositional false) =
      some "You may only specify flags and options for the top-level parser.".toList := by decide +kernel

/-- The hypotheses of `C71_setup_texts_without_refusals_partial` are met. -/
example : accepted exEnv ([exFlag 'v' "verbose", exPositional true].map .call) (start exInit exStore ()) =
    [exFlag 'v' "verbose", exPositional true] := rfl

/-- The text about strings of one character lacks a quotation mark. -/
example : isOptionSetT (parse exEnv (exRun [] [])).2.parser (.long "v".toList) = .error (.designError,
    ("Long option identifiers must be longer than one character! If v' was meant to be a short identifier, "
      ++ "please pass it as a char ('') not a string (\"\")!").toList) := by decide +kernel

/-- A parser with subcommands that was not told yet to parse. -/
example : (mkParser { exInit with subcommands := ["build".toList] } : Parser Unit).subcommands = ["build".toList] := by decide +kernel

end Sharg
