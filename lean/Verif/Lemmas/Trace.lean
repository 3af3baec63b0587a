import Verif.Lemmas.Subcommands

/-! Two parsers that differ only in the used identifiers behave the same as long as these are avoided. -/

set_option linter.unusedSimpArgs false

namespace Sharg

open Spec

variable {W : Type}

/-- Equal up to the used identifiers in `B`. -/
def SameBut (B : List Str) (p q : Parser W) : Prop :=
  ∃ u, q = { p with usedIds := u } ∧ ∀ s, s ∉ B → (s ∈ p.usedIds ↔ s ∈ u)

/-- Same result on related states. -/
def Res.Sim {σ α : Type} (R : σ → σ → Prop) : Res σ α → Res σ α → Prop
  | .ok a s, .ok b t => a = b ∧ R s t
  | .err e s, .err f t => e = f ∧ R s t
  | _, _ => False

def M.Sim {σ α : Type} (R : σ → σ → Prop) (m : M σ α) : Prop := ∀ s t, R s t → Res.Sim R (m s) (m t)

theorem M.Sim.bind {σ α β : Type} {R : σ → σ → Prop} {m : M σ α} {f : α → M σ β} (hm : m.Sim R)
    (hf : ∀ a, (f a).Sim R) : (M.bind m f).Sim R := by
  intro s t h
  have := hm s t h
  simp only [M.bind_run]
  cases h1 : m s with
  | ok a s' =>
    cases h2 : m t with
    | ok b t' =>
      rw [h1, h2] at this
      obtain ⟨rfl, hr⟩ := this
      exact hf a s' t' hr
    | err e t' => rw [h1, h2] at this; exact this.elim
  | err e s' =>
    cases h2 : m t with
    | ok b t' => rw [h1, h2] at this; exact this.elim
    | err f t' => rw [h1, h2] at this; exact this

theorem M.Sim.throw {σ α : Type} {R : σ → σ → Prop} (e : Exn) : (M.throw e : M σ α).Sim R := fun _ _ h => ⟨rfl, h⟩

theorem M.Sim.pure {σ α : Type} {R : σ → σ → Prop} (a : α) : (M.pure a : M σ α).Sim R := fun _ _ h => ⟨rfl, h⟩

theorem M.Sim.ite {σ α : Type} {R : σ → σ → Prop} {c : Prop} [Decidable c] {m n : M σ α} (hm : m.Sim R)
    (hn : n.Sim R) : (if c then m else n).Sim R := by
  split <;> assumption

theorem sim_check (B : List Str) : (checkParseNotCalled : PM W Unit).Sim (SameBut B) := by
  rintro p q ⟨u, rfl, h⟩
  unfold checkParseNotCalled
  dsimp only
  split <;> exact ⟨rfl, u, rfl, h⟩

theorem sim_idExists (B : List Str) (id : Str) (hid : id ∉ B) : (idExists id : PM W Bool).Sim (SameBut B) := by
  rintro p q ⟨u, rfl, h⟩
  unfold idExists
  by_cases hp : id ∈ p.usedIds
  · rw [if_pos hp, if_pos ((h id hid).1 hp)]
    exact ⟨rfl, u, rfl, h⟩
  · rw [if_neg hp, if_neg (fun hq => hp ((h id hid).2 hq))]
    refine ⟨rfl, id :: u, rfl, fun s hs => ?_⟩
    simp [h s hs]

theorem sim_verifyIdentifiers (B : List Str) (cfg : Config) (h : ∀ s ∈ idsOf cfg, s ∉ B) :
    (verifyIdentifiers cfg.short cfg.long : PM W Unit).Sim (SameBut B) := by
  unfold verifyIdentifiers
  refine .ite (.throw _) (.bind ?_ fun _ => ?_)
  · unfold verifyShort
    by_cases hc : cfg.short = '\x00'
    · simp only [hc, ne_eq, not_true_eq_false, if_false]; exact .pure _
    · simp only [hc, ne_eq, not_false_eq_true, if_true]
      exact .ite (.throw _) (.bind (sim_idExists B _ (h _ ((mem_idsOf _ _).2 (Or.inl ⟨hc, rfl⟩)))) fun _ =>
        .ite (.throw _) (.pure _))
  · unfold verifyLong
    by_cases hc : cfg.long = []
    · simp only [hc, ne_eq, not_true_eq_false, if_false]; exact .pure _
    · simp only [hc, ne_eq, not_false_eq_true, if_true]
      exact .ite (.throw _) (.ite (.throw _) (.ite (.throw _)
        (.bind (sim_idExists B _ (h _ ((mem_idsOf _ _).2 (Or.inr ⟨hc, rfl⟩)))) fun _ =>
        .ite (.throw _) (.pure _))))

theorem sim_call (B : List Str) (c : Call W) (h : Avoids B (.call c)) : (c.run : PM W Unit).Sim (SameBut B) := by
  have push : ∀ e : Entry W, (pushOperation e : PM W Unit).Sim (SameBut B) := by
    rintro e p q ⟨u, rfl, hu⟩
    exact ⟨rfl, u, rfl, hu⟩
  cases c with
  | addOption cfg x l ty v =>
    simp only [Call.run, Sharg.addOption, verifyOptionConfig]
    refine .bind (sim_check B) fun _ => .bind (.bind (sim_verifyIdentifiers B cfg (h cfg rfl)) fun _ =>
      .bind ?_ fun _ => .ite (.throw _) (.pure _)) fun _ => push _
    rintro p q ⟨u, rfl, hu⟩
    exact ⟨rfl, u, rfl, hu⟩
  | addFlag cfg x b =>
    simp only [Call.run, Sharg.addFlag, verifyFlagConfig]
    exact .bind (sim_check B) fun _ => .bind (.bind (sim_verifyIdentifiers B cfg (h cfg rfl)) fun _ =>
      .ite (.throw _) (.pure _)) fun _ => .ite (.throw _) (push _)
  | addPositionalOption cfg x l ty v =>
    simp only [Call.run, Sharg.addPositionalOption]
    refine .bind (sim_check B) fun _ => .bind ?_ fun _ => .bind ?_ fun _ => push _
    · rintro p q ⟨u, rfl, hu⟩
      unfold verifyPositionalOptionConfig
      dsimp only
      repeat' split
      all_goals exact ⟨rfl, u, rfl, hu⟩
    · rintro p q ⟨u, rfl, hu⟩
      exact ⟨rfl, u, rfl, hu⟩
  | addSubcommands ns =>
    rintro p q ⟨u, rfl, hu⟩
    exact ⟨rfl, u, rfl, hu⟩
  | _ =>
    simp only [Call.run, addText]
    exact .bind (sim_check B) fun _ => push _

theorem sim_verifyNames (B : List Str) : (verifyAppAndSubcommandNames : PM W Unit).Sim (SameBut B) := by
  rintro p q ⟨u, rfl, hu⟩
  unfold verifyAppAndSubcommandNames
  dsimp only
  repeat' split
  all_goals exact ⟨rfl, u, rfl, hu⟩

theorem sim_determine (B : List Str) (nd : Bool) :
    (determineFormatAndSubcommand nd : PM W Format).Sim (SameBut B) := by
  rintro p q ⟨u, rfl, hu⟩
  unfold determineFormatAndSubcommand
  obtain ⟨x1, x2, x3, x4, x5, x6, x7, x8, x9, x10, x11, x12, x13⟩ := p
  dsimp only
  cases x10 with
  | nil => exact ⟨rfl, u, rfl, hu⟩
  | cons exe args =>
    dsimp only
    cases scanLoop x12 x7 args scanInit with
    | ok a s => exact ⟨rfl, u, rfl, hu⟩
    | err e s => exact ⟨rfl, u, rfl, hu⟩

theorem sim_parse (B : List Str) (env : Env W) (henv : PagesIgnoreUsedIds env) (p q : Parser W) (st : Store) (w : W)
    (h : SameBut B p q) :
    (parse env ⟨q, st, w⟩).1 = (parse env ⟨p, st, w⟩).1 ∧
    (parse env ⟨q, st, w⟩).2.store = (parse env ⟨p, st, w⟩).2.store ∧
    (parse env ⟨q, st, w⟩).2.world = (parse env ⟨p, st, w⟩).2.world ∧
    SameBut B (parse env ⟨p, st, w⟩).2.parser (parse env ⟨q, st, w⟩).2.parser := by
  unfold parse
  dsimp only
  obtain ⟨u, rfl, hu⟩ := h
  dsimp only
  by_cases hp : p.parseWasCalled = true
  · simp only [if_pos hp]; exact ⟨trivial, trivial, trivial, u, rfl, hu⟩
  · simp only [if_neg hp]
    have h1 := sim_verifyNames B { p with parseWasCalled := true } { p with usedIds := u, parseWasCalled := true }
      ⟨u, rfl, hu⟩
    cases hv : verifyAppAndSubcommandNames { p with parseWasCalled := true } with
    | err e p1 =>
      cases hv2 : verifyAppAndSubcommandNames { p with usedIds := u, parseWasCalled := true } with
      | ok _ q1 => rw [hv, hv2] at h1; exact h1.elim
      | err f q1 =>
        rw [hv, hv2] at h1; obtain ⟨rfl, h1⟩ := h1
        exact ⟨rfl, rfl, rfl, h1⟩
    | ok a p1 =>
      cases hv2 : verifyAppAndSubcommandNames { p with usedIds := u, parseWasCalled := true } with
      | err _ q1 => rw [hv, hv2] at h1; exact h1.elim
      | ok b q1 =>
        rw [hv, hv2] at h1; obtain ⟨_, h1⟩ := h1
        dsimp only
        have h2 := sim_determine B env.ndebug p1 q1 h1
        cases hd : determineFormatAndSubcommand env.ndebug p1 with
        | err e p2 =>
          cases hd2 : determineFormatAndSubcommand env.ndebug q1 with
          | ok _ q2 => rw [hd, hd2] at h2; exact h2.elim
          | err f q2 =>
            rw [hd, hd2] at h2; obtain ⟨rfl, h2⟩ := h2
            exact ⟨rfl, rfl, rfl, h2⟩
        | ok a p2 =>
          cases hd2 : determineFormatAndSubcommand env.ndebug q1 with
          | err _ q2 => rw [hd, hd2] at h2; exact h2.elim
          | ok b q2 =>
            rw [hd, hd2] at h2; obtain ⟨rfl, v, rfl, hv⟩ := h2
            dsimp only [checkAndParse]
            cases env.versionCheck p2.appName p2.notify p2.userDecision w with
            | mk e w1 =>
              cases e with
              | some e => exact ⟨rfl, rfl, rfl, v, rfl, hv⟩
              | none =>
                dsimp only [parseFormat]
                have hpg := fun f => henv f p2 v st w1
                split
                · cases formatParse env.ndebug (declsOf p2.operations) p2.formatArguments st w1 with
                  | ok a s => exact ⟨rfl, rfl, rfl, v, rfl, hv⟩
                  | err e s => exact ⟨rfl, rfl, rfl, v, rfl, hv⟩
                · rw [hpg]
                  split <;> exact ⟨rfl, rfl, rfl, v, rfl, hv⟩

theorem sim_observe (B : List Str) (env : Env W) (henv : PagesIgnoreUsedIds env) (as : List (Action W))
    (hav : ∀ a ∈ as, Avoids B a) (p q : Parser W) (st : Store) (w : W) (h : SameBut B p q) :
    observe env as ⟨q, st, w⟩ = observe env as ⟨p, st, w⟩ := by
  induction as generalizing p q st w with
  | nil => rfl
  | cons a as ih =>
    have ih := ih (fun a ha => hav a (by simp [ha]))
    cases a with
    | parse =>
      obtain ⟨h1, h2, h3, h4⟩ := sim_parse B env henv p q st w h
      simp only [observe, Action.run]
      rw [h1]
      have := ih _ _ (parse env ⟨p, st, w⟩).2.store (parse env ⟨p, st, w⟩).2.world h4
      have e : (parse env ⟨q, st, w⟩).2 =
          ⟨(parse env ⟨q, st, w⟩).2.parser, (parse env ⟨p, st, w⟩).2.store, (parse env ⟨p, st, w⟩).2.world⟩ := by
        rw [← h2, ← h3]
      rw [e, this]
    | call c =>
      have hc := sim_call B c (hav _ (by simp)) p q h
      simp only [observe, Action.run]
      cases h1 : c.run p with
      | ok a p' =>
        cases h2 : c.run q with
        | err _ q' => rw [h1, h2] at hc; exact hc.elim
        | ok b q' =>
          rw [h1, h2] at hc
          dsimp only
          rw [ih p' q' st w hc.2]
      | err e p' =>
        cases h2 : c.run q with
        | ok _ q' => rw [h1, h2] at hc; exact hc.elim
        | err b q' =>
          rw [h1, h2] at hc
          dsimp only
          rw [ih p' q' st w hc.2, hc.1]

/-! ### Accepted calls in their situation -/

theorem accepted_split (env : Env W) (as : List (Action W)) (g : Prog W) (a b : List (Call W)) (c : Call W)
    (h : accepted env as g = a ++ c :: b) :
    ∃ p : Parser W, Acceptable p.situation c ∧
      (∀ s, s ∈ p.subcommands ↔ s ∈ g.parser.subcommands ∨ s ∈ a.flatMap namesOf) ∧
      p.hasPositionalListOption = (g.parser.hasPositionalListOption || a.any isPositionalList) := by
  induction as generalizing g a with
  | nil => simp [accepted] at h
  | cons x as ih =>
    cases x with
    | parse =>
      simp only [accepted] at h
      obtain ⟨p, h1, h2, h3⟩ := ih _ _ h
      have hk := (parse_parser env g).1
      refine ⟨p, h1, ?_, ?_⟩
      · intro s; rw [h2 s, show (Action.parse.run env g).2.parser.subcommands = g.parser.subcommands from hk.subcommands]
      · rw [h3, show (Action.parse.run env g).2.parser.hasPositionalListOption = g.parser.hasPositionalListOption from
          hk.list]
    | call d =>
      simp only [accepted] at h
      by_cases hd : Acceptable g.parser.situation d
      · rw [Action.call_run_acceptable env d g hd] at h
        dsimp only at h
        cases a with
        | nil =>
          simp at h
          obtain ⟨rfl, _⟩ := h
          exact ⟨g.parser, hd, by simp, by simp⟩
        | cons e a =>
          simp at h
          obtain ⟨rfl, h⟩ := h
          obtain ⟨p, h1, h2, h3⟩ := ih _ _ h
          refine ⟨p, h1, ?_, ?_⟩
          · intro s
            rw [h2 s, List.flatMap_cons, List.mem_append]
            dsimp only
            rw [effect_subcommands_mem, or_assoc]
          · rw [h3]
            simp [Call.effect, Bool.or_assoc]
      · obtain ⟨p, hp, hr⟩ := Action.call_run_rejected env d g hd
        rw [hr] at h
        dsimp only at h
        obtain ⟨q, h1, h2, h3⟩ := ih _ _ h
        obtain ⟨_, k1, k2, _⟩ := reject_operations d _ _ _ hd hp
        refine ⟨q, h1, ?_, ?_⟩
        · intro s; rw [h2 s]; dsimp only; rw [k1]
        · rw [h3]; dsimp only; rw [k2]

end Sharg
