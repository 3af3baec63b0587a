import Verif.Spec.Independent
import Verif.Lemmas.Trace
import Verif.Lemmas.World
import Verif.Props.Moved
import Verif.Model.Pages

/-! Runs of `parse()` on stores and worlds that look the same (C87). -/

set_option linter.unusedSimpArgs false

namespace Sharg

open Spec

variable {W : Type}

/-- States of `format_parse` that look the same. -/
structure Looks (V : VarId → Prop) (R : W → W → Prop) (s t : FState W) : Prop where
  pre : s.pre = t.pre
  post : s.post = t.post
  store : AgreeOn V s.store t.store
  world : R s.world t.world

variable {V : VarId → Prop} {R : W → W → Prop}

theorem agree_set {st st' : Store} (h : AgreeOn V st st') (x : VarId) (v : Val) : AgreeOn V (st.set x v) (st'.set x v) := by
  intro y hy
  unfold Store.set
  split
  · rfl
  · exact h y hy

theorem looks_setPre (l : List Str) : (setPre l : FM W Unit).Sim (Looks V R) :=
  fun _ _ h => ⟨rfl, rfl, h.post, h.store, h.world⟩

theorem looks_setVar (x : VarId) (v : Val) : (setVar x v : FM W Unit).Sim (Looks V R) :=
  fun _ _ h => ⟨rfl, h.pre, h.post, agree_set h.store x v, h.world⟩

theorem looks_throwIf (e : Option Exn) : (throwIf e : FM W Unit).Sim (Looks V R) := by
  cases e with
  | none => exact .pure ()
  | some e => exact .throw e

theorem looks_assignScalar (nd : Bool) (ty : ElemTy) (x : VarId) (t : Str) : (assignScalar nd ty x t : FM W Unit).Sim (Looks V R) := by
  unfold assignScalar
  split
  · exact .throw _
  · dsimp only
    split
    · exact .bind (looks_setVar _ _) (fun _ => looks_throwIf _)
    · exact .bind (.pure ()) (fun _ => looks_throwIf _)

theorem looks_appendList (nd : Bool) (ty : ElemTy) {x : VarId} (hx : V x) (t : Str) : (appendList nd ty x t : FM W Unit).Sim (Looks V R) := by
  unfold appendList
  split
  · exact .throw _
  · dsimp only
    split
    · refine .bind (fun s s' h => ⟨rfl, h.pre, h.post, ?_, h.world⟩) (fun _ => looks_throwIf _)
      dsimp only
      rw [h.store x hx]
      exact agree_set h.store x _
    · exact looks_throwIf _

theorem looks_validate {v : Val → W → Bool × W} (hv : ∀ x w w', R w w' → (v x w).1 = (v x w').1 ∧ R (v x w).2 (v x w').2) {x : VarId}
    (hx : V x) : (validate v x).Sim (Looks V R) := by
  intro s t h
  have h1 := hv (s.store x) s.world t.world h.world
  unfold validate
  rw [← h.store x hx]
  revert h1
  cases v (s.store x) s.world with
  | mk a w =>
    cases v (s.store x) t.world with
    | mk b w' =>
      rintro ⟨h1, h2⟩
      dsimp only at h1 h2
      subst h1
      cases a
      · exact ⟨rfl, h.pre, h.post, h.store, h2⟩
      · exact ⟨rfl, h.pre, h.post, h.store, h2⟩

theorem looks_collect (nd : Bool) (ty : ElemTy) {x : VarId} (hx : V x) (id : Id) (n : Nat) :
    ∀ (l front : List Str), l.length ≤ n → (collect nd ty x id front l : FM W Unit).Sim (Looks V R) := by
  induction n with
  | zero =>
    intro l front hl
    cases l with
    | nil => exact looks_setPre front
    | cons a l => simp at hl
  | succ n ih =>
    intro l front hl
    cases l with
    | nil => exact looks_setPre front
    | cons a l =>
      unfold collect
      split
      · split
        · split
          · exact .throw _
          · exact .bind (looks_appendList nd ty hx _) (fun _ => ih l _ (by simpa using hl))
        · split
          · exact .throw _
          · refine .bind (looks_appendList nd ty hx _) (fun _ => ih _ _ ?_)
            simp at hl ⊢; omega
      · exact ih l _ (by simpa using hl)

theorem looks_getOptionById (nd : Bool) (d : OptDecl W) (hx : V d.var) (id : Id) : (getOptionById nd d id).Sim (Looks V R) := by
  unfold getOptionById
  split
  · intro s t h
    unfold getOptionByIdList
    rw [← h.pre]
    split
    · exact ⟨rfl, h⟩
    · exact M.Sim.bind (looks_setVar _ _) (fun _ => .bind (looks_collect nd d.ty hx id _ _ _ (Nat.le_refl _)) (fun _ => .pure _)) s t h
  · intro s t h
    unfold getOptionByIdScalar
    rw [← h.pre]
    split
    · exact ⟨rfl, h⟩
    · split
      · exact ⟨rfl, h⟩
      · refine M.Sim.bind (looks_setPre _) (fun _ => .bind (looks_assignScalar nd d.ty d.var _) (fun _ => ?_)) s t h
        split
        · exact .pure _
        · exact .throw _

theorem looks_getOption (nd : Bool) (d : OptDecl W) (hx : V d.var)
    (hv : ∀ x w w', R w w' → (d.validator x w).1 = (d.validator x w').1 ∧ R (d.validator x w).2 (d.validator x w').2) :
    (getOption nd d).Sim (Looks V R) := by
  unfold getOption
  refine .bind (looks_getOptionById nd d hx _) (fun a => .bind (looks_getOptionById nd d hx _) (fun b => ?_))
  exact .ite (.throw _) (.ite (looks_validate hv hx) (.ite (.throw _) (.pure _)))

theorem looks_getFlag (f : FlagDecl) : (getFlag f : FM W Unit).Sim (Looks V R) := by
  intro s t h
  unfold getFlag
  rw [← h.pre, ← h.post]
  split
  · exact ⟨rfl, rfl, rfl, agree_set h.store _ _, h.world⟩
  · split
    · exact ⟨rfl, rfl, rfl, agree_set h.store _ _, h.world⟩
    · split
      · exact ⟨rfl, rfl, rfl, agree_set h.store _ _, h.world⟩
      · exact ⟨rfl, h⟩

theorem looks_fillList (nd : Bool) (ty : ElemTy) {x : VarId} (hx : V x) (l : List Str) :
    ∀ front, (fillList nd ty x front l : FM W Unit).Sim (Looks V R) := by
  induction l with
  | nil => exact fun front => looks_setPre front
  | cons a l ih =>
    intro front
    unfold fillList
    split
    · exact ih _
    · exact .bind (looks_appendList nd ty hx a) (fun _ => ih _)

theorem looks_getPositional (nd last : Bool) (d : PosDecl W) (hx : V d.var)
    (hv : ∀ x w w', R w w' → (d.validator x w).1 = (d.validator x w').1 ∧ R (d.validator x w).2 (d.validator x w').2) :
    (getPositional nd last d).Sim (Looks V R) := by
  intro s t h
  unfold getPositional
  rw [← h.pre]
  split
  · exact ⟨rfl, h⟩
  · split
    · split
      · exact ⟨rfl, h⟩
      · exact M.Sim.bind (looks_setVar _ _) (fun _ => .bind (looks_fillList nd d.ty hx _ _) (fun _ => looks_validate hv hx)) s t h
    · exact M.Sim.bind (looks_assignScalar nd d.ty d.var _) (fun _ => .bind (looks_setPre _) (fun _ => looks_validate hv hx)) s t h

theorem looks_runPositionals (nd : Bool) (ds : List (PosDecl W)) (hx : ∀ d ∈ ds, V d.var)
    (hv : ∀ d ∈ ds, ∀ x w w', R w w' → (d.validator x w).1 = (d.validator x w').1 ∧ R (d.validator x w).2 (d.validator x w').2) :
    (runPositionals nd ds).Sim (Looks V R) := by
  induction ds with
  | nil => exact .pure _
  | cons d ds ih =>
    unfold runPositionals
    exact .bind (looks_getPositional nd _ d (hx d (by simp)) (hv d (by simp)))
      (fun _ => ih (fun e he => hx e (by simp [he])) (fun e he => hv e (by simp [he])))

theorem looks_forEach {α : Type} {f : α → FM W Unit} (l : List α) (h : ∀ a ∈ l, (f a).Sim (Looks V R)) :
    (M.forEach f l).Sim (Looks V R) := by
  induction l with
  | nil => exact .pure ()
  | cons a l ih =>
    rw [M.forEach_cons]
    exact .bind (h a (by simp)) (fun _ => ih (fun b hb => h b (by simp [hb])))

/-! ### Entries and declarations -/

theorem mem_declsOf_options {ops : List (Entry W)} {d : OptDecl W} (h : d ∈ (declsOf ops).options) :
    ∃ e ∈ ops, variableOf e = some d.var ∧ validatorOf e = some d.validator := by
  obtain ⟨e, he, hd⟩ := List.mem_filterMap.1 h
  cases e <;> simp at hd
  subst hd
  exact ⟨_, he, rfl, rfl⟩

theorem mem_declsOf_flags {ops : List (Entry W)} {d : FlagDecl} (h : d ∈ (declsOf ops).flags) :
    ∃ e ∈ ops, variableOf e = some d.var := by
  obtain ⟨e, he, hd⟩ := List.mem_filterMap.1 h
  cases e <;> simp at hd
  subst hd
  exact ⟨_, he, rfl⟩

theorem mem_declsOf_positionals {ops : List (Entry W)} {d : PosDecl W} (h : d ∈ (declsOf ops).positionals) :
    ∃ e ∈ ops, variableOf e = some d.var ∧ validatorOf e = some d.validator := by
  obtain ⟨e, he, hd⟩ := List.mem_filterMap.1 h
  cases e <;> simp at hd
  subst hd
  exact ⟨_, he, rfl, rfl⟩

theorem looks_formatParse (nd : Bool) (ops : List (Entry W)) (hown : ∀ e ∈ ops, Own V R e) (args : List Str) (st st' : Store) (w w' : W)
    (hst : AgreeOn V st st') (hw : R w w') :
    Res.Sim (Looks V R) (formatParse nd (declsOf ops) args st w) (formatParse nd (declsOf ops) args st' w') := by
  have h1 : ∀ d ∈ (declsOf ops).options, V d.var := fun d hd => by
    obtain ⟨e, he, h, -⟩ := mem_declsOf_options hd
    exact (hown e he).var _ h
  have h2 : ∀ d ∈ (declsOf ops).options, ∀ x w w', R w w' →
      (d.validator x w).1 = (d.validator x w').1 ∧ R (d.validator x w).2 (d.validator x w').2 := fun d hd => by
    obtain ⟨e, he, -, h⟩ := mem_declsOf_options hd
    exact (hown e he).validator _ h
  have h3 : ∀ d ∈ (declsOf ops).positionals, V d.var := fun d hd => by
    obtain ⟨e, he, h, -⟩ := mem_declsOf_positionals hd
    exact (hown e he).var _ h
  have h4 : ∀ d ∈ (declsOf ops).positionals, ∀ x w w', R w w' →
      (d.validator x w).1 = (d.validator x w').1 ∧ R (d.validator x w).2 (d.validator x w').2 := fun d hd => by
    obtain ⟨e, he, -, h⟩ := mem_declsOf_positionals hd
    exact (hown e he).validator _ h
  unfold formatParse parseBody
  refine M.Sim.bind (looks_forEach _ (fun d hd => looks_getOption nd d (h1 d hd) (h2 d hd))) (fun _ => ?_) _ _ ⟨rfl, rfl, hst, hw⟩
  refine .bind (looks_forEach _ (fun d _ => looks_getFlag d)) (fun _ => ?_)
  refine .bind (fun s t h => ?_) (fun _ => ?_)
  · unfold checkForUnknownIds
    rw [← h.pre]
    split <;> exact ⟨rfl, h⟩
  · refine .bind (fun s t h => ?_) (fun _ => .bind (looks_runPositionals nd _ h3 h4) (fun _ s t h => ?_))
    · refine ⟨rfl, ?_, rfl, h.store, h.world⟩
      dsimp only
      rw [h.pre, h.post]
    · unfold checkForLeftOverArgs
      rw [← h.pre]
      split <;> exact ⟨rfl, h⟩

/-- `parse()` on stores and worlds that look the same to the parser. -/
theorem looks_parse (env : Env W) (p : Parser W) (hsee : SeesOnly V R env p.appName p.notify) (hown : ∀ e ∈ p.operations, Own V R e)
    (st st' : Store) (w w' : W) (hst : AgreeOn V st st') (hw : R w w') :
    (parse env ⟨p, st, w⟩).1 = (parse env ⟨p, st', w'⟩).1 ∧
    (parse env ⟨p, st, w⟩).2.parser = (parse env ⟨p, st', w'⟩).2.parser ∧
    AgreeOn V (parse env ⟨p, st, w⟩).2.store (parse env ⟨p, st', w'⟩).2.store ∧
    R (parse env ⟨p, st, w⟩).2.world (parse env ⟨p, st', w'⟩).2.world := by
  unfold parse
  dsimp only
  by_cases hp : p.parseWasCalled = true
  · simp only [if_pos hp]; exact ⟨trivial, trivial, hst, hw⟩
  · simp only [if_neg hp]
    have h1 := verifyNames_parser { p with parseWasCalled := true }
    cases hv : verifyAppAndSubcommandNames { p with parseWasCalled := true } with
    | err e p1 => exact ⟨rfl, rfl, hst, hw⟩
    | ok u p1 =>
      rw [hv] at h1
      dsimp only [Res.state] at h1
      subst h1
      have h2 := (determine_parser env.ndebug { p with parseWasCalled := true }).1
      dsimp only
      cases hd : determineFormatAndSubcommand env.ndebug { p with parseWasCalled := true } with
      | err e p2 => exact ⟨rfl, rfl, hst, hw⟩
      | ok f p2 =>
        rw [hd] at h2
        have ha : p2.appName = p.appName := h2.appName
        have hn : p2.notify = p.notify := h2.notify
        have ho : p2.operations = p.operations := h2.operations
        dsimp only [checkAndParse]
        rw [ha, hn]
        have h3 := hsee.check p2.userDecision w w' hw
        revert h3
        cases env.versionCheck p.appName p.notify p2.userDecision w with
        | mk e w1 =>
          cases env.versionCheck p.appName p.notify p2.userDecision w' with
          | mk e' w1' =>
            rintro ⟨h3, h4⟩
            dsimp only at h3 h4
            subst h3
            cases e with
            | some e => exact ⟨rfl, rfl, hst, h4⟩
            | none =>
              dsimp only [parseFormat]
              split
              · have h5 := looks_formatParse env.ndebug p2.operations (by rw [ho]; exact hown) p2.formatArguments st st' w1 w1' hst h4
                revert h5
                cases formatParse env.ndebug (declsOf p2.operations) p2.formatArguments st w1 with
                | ok a s =>
                  cases formatParse env.ndebug (declsOf p2.operations) p2.formatArguments st' w1' with
                  | ok b t => exact fun h => ⟨rfl, rfl, h.2.store, h.2.world⟩
                  | err b t => exact fun h => h.elim
                | err a s =>
                  cases formatParse env.ndebug (declsOf p2.operations) p2.formatArguments st' w1' with
                  | ok b t => exact fun h => h.elim
                  | err b t => exact fun h => ⟨by rw [h.1], rfl, h.2.store, h.2.world⟩
              · rename_i hf
                have h5 := hsee.page f p2 st st' w1 w1' (by rw [ho]; exact fun e he => (hown e he).var) hst h4
                revert h5
                cases env.printPage f p2 st w1 with
                | mk a v =>
                  cases env.printPage f p2 st' w1' with
                  | mk b v' =>
                    rintro ⟨h5, h6⟩
                    dsimp only at h5 h6
                    subst h5
                    cases a
                    · exact ⟨rfl, rfl, hst, h6⟩
                    · exact ⟨rfl, rfl, hst, h6⟩

/-- `parse()` does not change the variables that are not registered. -/
theorem parse_keeps (env : Env W) (g : Prog W) (x : VarId) (h : ∀ e ∈ g.parser.operations, variableOf e ≠ some x) :
    (parse env g).2.store x = g.store x := by
  rcases parse_steps env g with ⟨e, p, hp⟩ | ⟨-, -, f, p, hs, hp⟩
  · rw [hp]
  · rw [hp]
    have ho : p.operations = g.parser.operations := hs.operations
    unfold checkAndParse
    split
    · rfl
    · rename_i w' _
      unfold parseFormat
      split
      · dsimp only
        have hk := keeps_formatParse env.ndebug (declsOf p.operations) p.formatArguments g.store w' x
          (fun d hd => by
            obtain ⟨e, he, hv, -⟩ := mem_declsOf_options hd
            rintro rfl
            exact h e (ho ▸ he) hv)
          (fun d hd => by
            obtain ⟨e, he, hv⟩ := mem_declsOf_flags hd
            rintro rfl
            exact h e (ho ▸ he) hv)
          (fun d hd => by
            obtain ⟨e, he, hv, -⟩ := mem_declsOf_positionals hd
            rintro rfl
            exact h e (ho ▸ he) hv)
        split
        · rename_i s hf; rw [hf] at hk; exact hk
        · rename_i s hf; rw [hf] at hk; exact hk
      · split <;> rfl

/-! ### Set-up calls -/

/-- The code keeps the names. -/
def KeepsNames {α : Type} (m : PM W α) : Prop := ∀ p, (m p).state.appName = p.appName ∧ (m p).state.notify = p.notify

theorem KeepsNames.bind {α β : Type} {m : PM W α} {f : α → PM W β} (h1 : KeepsNames m) (h2 : ∀ a, KeepsNames (f a)) :
    KeepsNames (M.bind m f) := by
  intro p
  rw [M.bind_run]
  have := h1 p
  cases hm : m p with
  | ok a p' =>
    rw [hm] at this
    exact ⟨(h2 a p').1.trans this.1, (h2 a p').2.trans this.2⟩
  | err e p' => rw [hm] at this; exact this

theorem KeepsNames.ite {α : Type} {c : Prop} [Decidable c] {m n : PM W α} (hm : KeepsNames m) (hn : KeepsNames n) :
    KeepsNames (if c then m else n) := by
  split <;> assumption

theorem KeepsNames.throw {α : Type} (e : Exn) : KeepsNames (M.throw e : PM W α) := fun _ => ⟨rfl, rfl⟩
theorem KeepsNames.pure {α : Type} (a : α) : KeepsNames (M.pure a : PM W α) := fun _ => ⟨rfl, rfl⟩

theorem keepsNames_check : KeepsNames (checkParseNotCalled : PM W Unit) := by
  intro p
  unfold checkParseNotCalled
  split <;> exact ⟨rfl, rfl⟩

theorem keepsNames_idExists (id : Str) : KeepsNames (idExists id : PM W Bool) := by
  intro p
  unfold idExists
  split <;> exact ⟨rfl, rfl⟩

theorem keepsNames_identifiers (c : Char) (s : Str) : KeepsNames (verifyIdentifiers c s : PM W Unit) := by
  unfold verifyIdentifiers verifyShort verifyLong
  refine .ite (.throw _) (.bind (.ite (.ite (.throw _) (.bind (keepsNames_idExists _) fun _ => .ite (.throw _) (.pure _))) (.pure _)) fun _ => ?_)
  exact .ite (.ite (.throw _) (.ite (.throw _) (.ite (.throw _) (.bind (keepsNames_idExists _) fun _ => .ite (.throw _) (.pure _))))) (.pure _)

theorem keepsNames_call (c : Call W) : KeepsNames (c.run : PM W Unit) := by
  have hpush : ∀ e : Entry W, KeepsNames (pushOperation e) := fun e p => ⟨rfl, rfl⟩
  have htext : ∀ e : Entry W, KeepsNames (addText e) := fun e => .bind keepsNames_check fun _ => hpush e
  cases c with
  | addOption cfg x l ty v =>
    refine .bind keepsNames_check fun _ => .bind (.bind (keepsNames_identifiers _ _) fun _ => .bind (fun p => ⟨rfl, rfl⟩) fun _ => ?_) fun _ => hpush _
    exact .ite (.throw _) (.pure _)
  | addFlag cfg x b =>
    refine .bind keepsNames_check fun _ => .bind (.bind (keepsNames_identifiers _ _) fun _ => .ite (.throw _) (.pure _)) fun _ => ?_
    exact .ite (.throw _) (hpush _)
  | addPositionalOption cfg x l ty v =>
    refine .bind keepsNames_check fun _ => .bind (fun p => ?_) fun _ => .bind (fun p => ⟨rfl, rfl⟩) fun _ => hpush _
    unfold verifyPositionalOptionConfig
    repeat' split
    all_goals exact ⟨rfl, rfl⟩
  | addSection t a => exact htext _
  | addSubsection t a => exact htext _
  | addLine t b a => exact htext _
  | addListItem k d a => exact htext _
  | addSubcommands ns => exact fun p => ⟨rfl, rfl⟩

/-- What a call registers. -/
theorem call_registers (c : Call W) (p : Parser W) (st : Store) (w : W) (env : Env W) :
    (c.run p).state.operations = p.operations ∨ ∃ e, entryOf c = some e ∧ (c.run p).state.operations = p.operations ++ [e] := by
  have h := operations_history env [.call c] ⟨p, st, w⟩
  rw [runActions, runActions, call_state] at h
  dsimp only at h
  have he : entryOf c = c.entry? := by cases c <;> rfl
  rw [h, he]
  have ha : accepted env [.call c] ⟨p, st, w⟩ = [c] ∨ accepted env [.call c] ⟨p, st, w⟩ = [] := by
    rw [accepted]
    split
    · exact Or.inl rfl
    · exact Or.inr rfl
  rcases ha with ha | ha
  · rw [ha]
    cases hc : c.entry? with
    | none => exact Or.inl (by simp [hc])
    | some e => exact Or.inr ⟨e, rfl, by simp [hc]⟩
  · rw [ha]
    exact Or.inl (by simp)

/-! ### Objects -/

variable {P : Str → Bool → Prop}

/-- Two programs, one with many parsers, the other one with object `k` only, look the same to object `k`. -/
structure Together (V : VarId → Prop) (R : W → W → Prop) (P : Str → Bool → Prop) (k : Nat) (o : Object W) (s t : Objects W) : Prop where
  sep : Separated V R P k o s
  here : t.slots[k]? = some (.object o)
  store : AgreeOn V t.store s.store
  world : R t.world s.world

theorem own_operations_mem {k : Nat} {o : Object W} {e : Entry W} (h : e ∈ o.ownOperations k) : e ∈ o.parser.operations := by
  unfold Object.ownOperations at h
  obtain ⟨⟨j, e'⟩, hm, he⟩ := List.mem_filterMap.1 h
  dsimp only at he
  split at he
  · cases he
    exact (List.of_mem_zip hm).2
  · cases he

theorem not_dangling {k : Nat} {o : Object W} (h : ∀ j ∈ o.owners, j = k) {slots : List (Slot W)} {o' : Object W}
    (hk : slots[k]? = some (.object o')) : o.dangling slots = false := by
  unfold Object.dangling
  rw [List.any_eq_false]
  intro j hj
  rw [h j hj, hk]
  simp

/-- What `parse()` of an object keeps. -/
theorem object_parse_parser (env : Env W) (slots : List (Slot W)) (k : Nat) (o : Object W) (st : Store) (w : W) :
    (o.parse env slots k st w).2.parser.appName = o.parser.appName ∧ (o.parse env slots k st w).2.parser.notify = o.parser.notify ∧
      (o.parse env slots k st w).2.parser.operations = o.parser.operations := by
  unfold Object.parse
  dsimp only
  split
  · exact ⟨rfl, rfl, rfl⟩
  · have h1 := verifyNames_parser { o.parser with parseWasCalled := true }
    cases hv : verifyAppAndSubcommandNames { o.parser with parseWasCalled := true } with
    | err e p =>
      rw [hv] at h1
      dsimp only [Res.state] at h1
      subst h1
      exact ⟨rfl, rfl, rfl⟩
    | ok u p =>
      rw [hv] at h1
      dsimp only [Res.state] at h1
      subst h1
      have h2 := (determine_parser env.ndebug { o.parser with parseWasCalled := true }).1
      dsimp only
      cases hd : determineFormatAndSubcommand env.ndebug { o.parser with parseWasCalled := true } with
      | err e p => rw [hd] at h2; exact ⟨h2.appName, h2.notify, h2.operations⟩
      | ok f p =>
        rw [hd] at h2
        dsimp only
        split
        · exact ⟨h2.appName, h2.notify, h2.operations⟩
        · have hp : ∀ g : Prog W, (checkAndParse env f g).2.parser = g.parser := by
            intro g
            unfold checkAndParse
            split
            · rfl
            · rw [parseFormat_parser]
          dsimp only
          rw [hp]
          exact ⟨h2.appName, h2.notify, rfl⟩

/-- `parse()` of an object of another parser. -/
theorem foreign_parse (env : Env W) (hun : Unseen R env P) (slots : List (Slot W)) (k : Nat) (o : Object W)
    (hf : ∀ e ∈ o.parser.operations, Foreign V R e) (hP : P o.parser.appName o.parser.notify) (st : Store) (w w₀ : W) (hw : R w₀ w) :
    AgreeOn V st (o.parse env slots k st w).2.store ∧ R w₀ (o.parse env slots k st w).2.world := by
  by_cases hd : o.dangling slots = true
  · have h : (o.parse env slots k st w).2.store = st ∧ (o.parse env slots k st w).2.world = w := by
      unfold Object.parse
      dsimp only
      simp only [hd, if_true]
      repeat' split
      all_goals exact ⟨rfl, rfl⟩
    rw [h.1, h.2]
    exact ⟨fun _ _ => rfl, hw⟩
  · have hd' : o.dangling slots = false := by simpa using hd
    rw [object_parse_eq env slots k o st w hd']
    constructor
    · intro x hx
      have := parse_keeps env ⟨{ o.parser with operations := o.ownOperations k }, st, w⟩ x (fun e he hv =>
        (hf e (own_operations_mem he)).var x hv hx)
      exact this.symm
    · refine parse_guards (P := fun v => R w₀ v) env ⟨{ o.parser with operations := o.ownOperations k }, st, w⟩
        (fun u v hv => hun.check _ _ u _ _ hP hv) (fun f p st v hv => hun.page f p st _ _ hv) ?_ ?_ hw
      · intro d hdm x v hv
        obtain ⟨e, he, -, hval⟩ := mem_declsOf_options hdm
        exact (hf e (own_operations_mem he)).validator _ hval x _ _ hv
      · intro d hdm x v hv
        obtain ⟨e, he, -, hval⟩ := mem_declsOf_positionals hdm
        exact (hf e (own_operations_mem he)).validator _ hval x _ _ hv

/-- An action that is not on object `k`. -/
theorem together_foreign (env : Env W) (hun : Unseen R env P) {k : Nat} {o : Object W} {s t : Objects W} (h : Together V R P k o s t)
    (a : ObjectAction W) (hl : Leaves k a) (hs : Separate V R P k a) (ha : ActsOn k a = false) :
    Together V R P k o (a.run env s).2 t := by
  obtain ⟨⟨hk, hown, hop, hoth⟩, ht, hst, hw⟩ := h
  have hlt := lt_of_some hk
  cases a with
  | construct i =>
    refine ⟨⟨?_, hown, hop, ?_⟩, ht, hst, hw⟩
    · simp only [ObjectAction.run]
      rw [List.getElem?_append_left hlt, hk]
    · intro j o' hj ho'
      simp only [ObjectAction.run] at ho'
      rcases Nat.lt_or_ge j s.slots.length with hjl | hjl
      · rw [List.getElem?_append_left hjl] at ho'
        exact hoth j o' hj ho'
      · rw [List.getElem?_append_right hjl] at ho'
        cases hm : j - s.slots.length with
        | zero =>
          rw [hm] at ho'
          cases ho'
          exact ⟨(fun e he => by cases he), hs⟩
        | succ m => rw [hm] at ho'; cases ho'
  | call j c =>
    have hj : j ≠ k := by simpa [ActsOn] using ha
    have hs : ∀ e, entryOf c = some e → Foreign V R e := fun e he => by
      have := hs e he
      rwa [if_neg hj] at this
    cases hsj : s.slots[j]? with
    | none => simp only [ObjectAction.run, hsj]; exact ⟨⟨hk, hown, hop, hoth⟩, ht, hst, hw⟩
    | some sl =>
      cases sl with
      | movedFrom => simp only [ObjectAction.run, hsj]; exact ⟨⟨hk, hown, hop, hoth⟩, ht, hst, hw⟩
      | destroyed => simp only [ObjectAction.run, hsj]; exact ⟨⟨hk, hown, hop, hoth⟩, ht, hst, hw⟩
      | object oj =>
        rw [call_run_state env c s j oj hsj]
        refine ⟨⟨?_, hown, hop, ?_⟩, ht, hst, hw⟩
        · dsimp only
          rw [List.getElem?_set_ne hj, hk]
        · intro i o' hi ho'
          dsimp only at ho'
          by_cases hij : j = i
          · subst hij
            rw [List.getElem?_set_self (lt_of_some hsj)] at ho'
            cases ho'
            obtain ⟨h1, h2⟩ := hoth j oj hj hsj
            have hn := keepsNames_call c oj.parser
            refine ⟨?_, ?_⟩
            · intro e he
              simp only [Object.afterCall] at he
              rcases call_registers c oj.parser s.store s.world env with hc | ⟨e', he', hc⟩
              · rw [hc] at he; exact h1 e he
              · rw [hc] at he
                rcases List.mem_append.1 he with he | he
                · exact h1 e he
                · rw [List.mem_singleton.1 he]; exact hs e' he'
            · simp only [Object.afterCall, hn.1, hn.2]
              exact h2
          · rw [List.getElem?_set_ne hij] at ho'
            exact hoth i o' hi ho'
  | parse j =>
    have hj : j ≠ k := by simpa [ActsOn] using ha
    cases hsj : s.slots[j]? with
    | none => simp only [ObjectAction.run, hsj]; exact ⟨⟨hk, hown, hop, hoth⟩, ht, hst, hw⟩
    | some sl =>
      cases sl with
      | movedFrom => simp only [ObjectAction.run, hsj]; exact ⟨⟨hk, hown, hop, hoth⟩, ht, hst, hw⟩
      | destroyed => simp only [ObjectAction.run, hsj]; exact ⟨⟨hk, hown, hop, hoth⟩, ht, hst, hw⟩
      | object oj =>
        obtain ⟨h1, h2⟩ := hoth j oj hj hsj
        obtain ⟨h3, h4⟩ := foreign_parse env hun s.slots j oj h1 h2 s.store s.world t.world hw
        obtain ⟨h5, h6, h7⟩ := object_parse_parser env s.slots j oj s.store s.world
        simp only [ObjectAction.run, hsj]
        refine ⟨⟨?_, hown, hop, ?_⟩, ht, fun x hx => (hst x hx).trans (h3 x hx), h4⟩
        · dsimp only
          rw [List.getElem?_set_ne hj, hk]
        · intro i o' hi ho'
          dsimp only at ho'
          by_cases hij : j = i
          · subst hij
            rw [List.getElem?_set_self (lt_of_some hsj)] at ho'
            cases ho'
            dsimp only
            rw [h5, h6, h7]
            exact ⟨h1, h2⟩
          · rw [List.getElem?_set_ne hij] at ho'
            exact hoth i o' hi ho'
  | move j =>
    have hj : j ≠ k := hl
    cases hsj : s.slots[j]? with
    | none => simp only [ObjectAction.run, hsj]; exact ⟨⟨hk, hown, hop, hoth⟩, ht, hst, hw⟩
    | some sl =>
      cases sl with
      | movedFrom => simp only [ObjectAction.run, hsj]; exact ⟨⟨hk, hown, hop, hoth⟩, ht, hst, hw⟩
      | destroyed => simp only [ObjectAction.run, hsj]; exact ⟨⟨hk, hown, hop, hoth⟩, ht, hst, hw⟩
      | object oj =>
        simp only [ObjectAction.run, hsj]
        refine ⟨⟨?_, hown, hop, ?_⟩, ht, hst, hw⟩
        · dsimp only
          rw [List.getElem?_append_left (by rw [List.length_set]; exact hlt), List.getElem?_set_ne hj, hk]
        · intro i o' hi ho'
          dsimp only at ho'
          rcases Nat.lt_or_ge i s.slots.length with hil | hil
          · rw [List.getElem?_append_left (by rw [List.length_set]; exact hil)] at ho'
            by_cases hij : j = i
            · subst hij
              rw [List.getElem?_set_self hil] at ho'
              cases ho'
            · rw [List.getElem?_set_ne hij] at ho'
              exact hoth i o' hi ho'
          · rw [List.getElem?_append_right (by rw [List.length_set]; exact hil), List.length_set] at ho'
            cases hm : i - s.slots.length with
            | zero =>
              rw [hm] at ho'
              cases ho'
              exact hoth j oj hj hsj
            | succ m => rw [hm] at ho'; cases ho'
  | assign j l =>
    obtain ⟨hj, hlk⟩ := hl
    have hsame : Together V R P k o s t := ⟨⟨hk, hown, hop, hoth⟩, ht, hst, hw⟩
    have key : ∀ oj, s.slots[j]? = some (.object oj) → l < s.slots.length →
        Together V R P k o ⟨(s.slots.set j .movedFrom).set l (.object oj), s.store, s.world⟩ t := by
      intro oj hsj hll
      refine ⟨⟨?_, hown, hop, ?_⟩, ht, hst, hw⟩
      · dsimp only
        rw [List.getElem?_set_ne hlk, List.getElem?_set_ne hj, hk]
      · intro i o' hi ho'
        dsimp only at ho'
        by_cases hil : l = i
        · subst hil
          rw [List.getElem?_set_self (by rw [List.length_set]; exact hll)] at ho'
          cases ho'
          exact hoth j oj hj hsj
        · rw [List.getElem?_set_ne hil] at ho'
          by_cases hij : j = i
          · subst hij
            rw [List.getElem?_set_self (lt_of_some hsj)] at ho'
            cases ho'
          · rw [List.getElem?_set_ne hij] at ho'
            exact hoth i o' hi ho'
    cases hsj : s.slots[j]? with
    | none => simp only [ObjectAction.run, hsj]; exact hsame
    | some sl =>
      cases sl with
      | movedFrom => simp only [ObjectAction.run, hsj]; exact hsame
      | destroyed => simp only [ObjectAction.run, hsj]; exact hsame
      | object oj =>
        cases hsl : s.slots[l]? with
        | none => simp only [ObjectAction.run, hsj, hsl]; exact hsame
        | some tl =>
          have hk' := key oj hsj (lt_of_some hsl)
          cases tl with
          | destroyed => simp only [ObjectAction.run, hsj, hsl]; exact hsame
          | movedFrom =>
            simp only [ObjectAction.run, hsj, hsl]
            split
            · exact hsame
            · exact hk'
          | object ol =>
            simp only [ObjectAction.run, hsj, hsl]
            split
            · exact hsame
            · exact hk'
  | destroy j =>
    have hj : j ≠ k := hl
    refine ⟨⟨?_, hown, hop, ?_⟩, ht, hst, hw⟩
    · simp only [ObjectAction.run]
      rw [List.getElem?_set_ne hj, hk]
    · intro i o' hi ho'
      simp only [ObjectAction.run] at ho'
      by_cases hij : j = i
      · subst hij
        by_cases hjl : j < s.slots.length
        · rw [List.getElem?_set_self hjl] at ho'
          cases ho'
        · rw [List.getElem?_eq_none (by rw [List.length_set]; omega)] at ho'
          cases ho'
      · rw [List.getElem?_set_ne hij] at ho'
        exact hoth i o' hi ho'

/-- An action on object `k`. -/
theorem together_own (env : Env W) {k : Nat} {o : Object W} (hsee : SeesOnly V R env o.parser.appName o.parser.notify) {s t : Objects W}
    (h : Together V R P k o s t) (a : ObjectAction W) (hs : Separate V R P k a) (ha : ActsOn k a = true) :
    (a.run env s).1 = (a.run env t).1 ∧ ∃ o', o'.parser.appName = o.parser.appName ∧ o'.parser.notify = o.parser.notify ∧
      Together V R P k o' (a.run env s).2 (a.run env t).2 := by
  obtain ⟨⟨hk, hown, hop, hoth⟩, ht, hst, hw⟩ := h
  have hothers : ∀ (sl : Slot W) i o', i ≠ k → (s.slots.set k sl)[i]? = some (.object o') →
      (∀ e ∈ o'.parser.operations, Foreign V R e) ∧ P o'.parser.appName o'.parser.notify := by
    intro sl i o' hi ho'
    rw [List.getElem?_set_ne (Ne.symm hi)] at ho'
    exact hoth i o' hi ho'
  cases a with
  | call j c =>
    have hj : j = k := by simpa [ActsOn] using ha
    subst hj
    have hs : ∀ e, entryOf c = some e → Own V R e := fun e he => by
      have := hs e he
      rwa [if_pos rfl] at this
    have hout : ((ObjectAction.call j c).run env s).1 = ((ObjectAction.call j c).run env t).1 := by
      simp only [ObjectAction.run, hk, ht]
      cases c.run o.parser <;> rfl
    have hn := keepsNames_call c o.parser
    refine ⟨hout, o.afterCall j (c.run o.parser).state, hn.1, hn.2, ?_⟩
    rw [call_run_state env c s j o hk, call_run_state env c t j o ht]
    refine ⟨⟨?_, ?_, ?_, hothers _⟩, ?_, hst, hw⟩
    · exact List.getElem?_set_self (lt_of_some hk)
    · intro i hi
      rcases List.mem_append.1 hi with hi | hi
      · exact hown i hi
      · exact List.eq_of_mem_replicate hi
    · intro e he
      simp only [Object.afterCall] at he
      rcases call_registers c o.parser s.store s.world env with hc | ⟨e', he', hc⟩
      · rw [hc] at he; exact hop e he
      · rw [hc] at he
        rcases List.mem_append.1 he with he | he
        · exact hop e he
        · rw [List.mem_singleton.1 he]; exact hs e' he'
    · exact List.getElem?_set_self (lt_of_some ht)
  | parse j =>
    have hj : j = k := by simpa [ActsOn] using ha
    subst hj
    have e1 := object_parse_eq env s.slots j o s.store s.world (not_dangling hown hk)
    have e2 := object_parse_eq env t.slots j o t.store t.world (not_dangling hown ht)
    obtain ⟨h1, h2, h3, h4⟩ := looks_parse env { o.parser with operations := o.ownOperations j } hsee
      (fun e he => hop e (own_operations_mem he)) t.store s.store t.world s.world hst hw
    obtain ⟨h5, h6, h7⟩ := object_parse_parser env s.slots j o s.store s.world
    have hp : (o.parse env t.slots j t.store t.world).2.parser = (o.parse env s.slots j s.store s.world).2.parser := by
      rw [e1, e2]
      unfold withOperations
      dsimp only
      rw [h2]
    simp only [ObjectAction.run, hk, ht]
    refine ⟨?_, { o with parser := (o.parse env s.slots j s.store s.world).2.parser }, h5, h6, ⟨⟨?_, hown, ?_, ?_⟩, ?_, ?_, ?_⟩⟩
    · rw [e1, e2]; exact h1.symm
    · exact List.getElem?_set_self (lt_of_some hk)
    · dsimp only; rw [h7]; exact hop
    · exact hothers _
    · dsimp only
      rw [List.getElem?_set_self (lt_of_some ht), hp]
    · dsimp only
      rw [e1, e2]; exact h3
    · dsimp only
      rw [e1, e2]; exact h4
  | construct i => cases ha
  | move j => cases ha
  | assign j l => cases ha
  | destroy j => cases ha

theorem together_history (env : Env W) (hun : Unseen R env P) (k : Nat) (as : List (ObjectAction W)) (hl : ∀ a ∈ as, Leaves k a)
    (hs : ∀ a ∈ as, Separate V R P k a) : ∀ (o : Object W) (s t : Objects W), SeesOnly V R env o.parser.appName o.parser.notify →
    Together V R P k o s t →
    outcomesOf env k as s = outcomesOf env k (as.filter (ActsOn k)) t ∧
    ∃ o', Together V R P k o' (runObjects env as s) (runObjects env (as.filter (ActsOn k)) t) := by
  induction as with
  | nil => exact fun o s t _ h => ⟨rfl, o, h⟩
  | cons a as ih =>
    intro o s t hsee h
    have ih := ih (fun b hb => hl b (by simp [hb])) (fun b hb => hs b (by simp [hb]))
    cases ha : ActsOn k a with
    | true =>
      obtain ⟨h1, o', h2, h3, h4⟩ := together_own env hsee h a (hs a (by simp)) ha
      obtain ⟨h5, h6⟩ := ih o' _ _ (by rw [h2, h3]; exact hsee) h4
      rw [List.filter_cons_of_pos ha]
      simp only [outcomesOf, ha, if_true, h1, h5, runObjects]
      exact ⟨trivial, h6⟩
    | false =>
      obtain ⟨h5, h6⟩ := ih o _ _ hsee (together_foreign env hun h a (hl a (by simp)) (hs a (by simp)) ha)
      rw [List.filter_cons_of_neg (by simp [ha])]
      simp only [outcomesOf, ha, Bool.false_eq_true, if_false, List.nil_append, h5, runObjects]
      exact ⟨trivial, h6⟩

/-! ### Pages -/

theorem setUpCall_agree (te : TypeEnv) {st st' : Store} (h : AgreeOn V st st') (adv : Bool) (e : Entry W)
    (he : ∀ x, variableOf e = some x → V x) : setUpCall te st adv e = setUpCall te st' adv e := by
  cases e with
  | option cfg x l ty v => simp only [setUpCall, optionItem, h x (he x rfl)]
  | _ => rfl

theorem positionalCalls_agree (te : TypeEnv) {st st' : Store} (h : AgreeOn V st st') (es : List (Entry W)) :
    ∀ (n : Nat), (∀ e ∈ es, ∀ x, variableOf e = some x → V x) → positionalCalls te st n es = positionalCalls te st' n es := by
  induction es with
  | nil => intro n _; rfl
  | cons e es ih =>
    intro n he
    have ih := fun n => ih n (fun e' he' => he e' (by simp [he']))
    cases e with
    | positional cfg x l ty v => simp only [positionalCalls, positionalItem, ih]; rw [h x (he (.positional cfg x l ty v) (by simp) x rfl)]
    | _ => simp only [positionalCalls, ih]

theorem tdlCall_agree (te : TypeEnv) {st st' : Store} (h : AgreeOn V st st') (e : Entry W)
    (he : ∀ x, variableOf e = some x → V x) : tdlCall te st e = tdlCall te st' e := by
  cases e with
  | option cfg x l ty v => simp only [tdlCall, tdlOption, h x (he x rfl)]
  | flag cfg x => simp only [tdlCall, tdlFlag, h x (he x rfl)]
  | _ => rfl

theorem tdlPositionals_agree (te : TypeEnv) {st st' : Store} (h : AgreeOn V st st') (es : List (Entry W)) :
    ∀ (n : Nat), (∀ e ∈ es, ∀ x, variableOf e = some x → V x) → tdlPositionals te st n es = tdlPositionals te st' n es := by
  induction es with
  | nil => intro n _; rfl
  | cons e es ih =>
    intro n he
    have ih := fun n => ih n (fun e' he' => he e' (by simp [he']))
    cases e with
    | positional cfg x l ty v => simp only [tdlPositionals, ih]; rw [h x (he (.positional cfg x l ty v) (by simp) x rfl)]
    | _ => simp only [tdlPositionals, ih]

theorem flatMap_agree {α β : Type} {f g : α → List β} {l : List α} (h : ∀ a ∈ l, f a = g a) : l.flatMap f = l.flatMap g := by
  induction l with
  | nil => rfl
  | cons a l ih => rw [List.flatMap_cons, List.flatMap_cons, h a (by simp), ih (fun b hb => h b (by simp [hb]))]

/-- The pages show registered variables only. -/
theorem pageOf_agree (pe : PageEnv) (f : Format) (p : Parser W) {st st' : Store} (hp : ∀ e ∈ p.operations, ∀ x, variableOf e = some x → V x)
    (h : AgreeOn V st st') : pageOf pe f p st = pageOf pe f p st' := by
  have h1 : ∀ adv, p.operations.flatMap (setUpCall pe.types st adv) = p.operations.flatMap (setUpCall pe.types st' adv) :=
    fun adv => flatMap_agree fun e he => setUpCall_agree pe.types h adv e (hp e he)
  have h2 := positionalCalls_agree pe.types h p.operations 0 hp
  have h3 : ∀ adv (bold : Str → Str), pageSteps (pe.input adv p st) bold = pageSteps (pe.input adv p st') bold := by
    intro adv bold
    unfold pageSteps pageStart startBlocks entryBlocks endBlocks PageEnv.input
    dsimp only
    rw [h1, h2]
  have h4 : ∀ {σ : Type} (pr : Printer σ) adv, printFullPage pr (pe.input adv p st) = printFullPage pr (pe.input adv p st') := by
    intro σ pr adv
    unfold printFullPage
    rw [h3]
  have h5 : p.operations.flatMap (fun e => (tdlCall pe.types st e).1) = p.operations.flatMap (fun e => (tdlCall pe.types st' e).1) :=
    flatMap_agree fun e he => by rw [tdlCall_agree pe.types h e (hp e he)]
  have h6 : p.operations.flatMap (fun e => (tdlCall pe.types st e).2) = p.operations.flatMap (fun e => (tdlCall pe.types st' e).2) :=
    flatMap_agree fun e he => by rw [tdlCall_agree pe.types h e (hp e he)]
  have h7 := tdlPositionals_agree pe.types h p.operations 0 hp
  unfold pageOf
  cases f with
  | parse => rfl
  | help adv => dsimp only; rw [h4]
  | shortHelp => rfl
  | version => rfl
  | copyright => rfl
  | html => dsimp only; rw [h4]
  | man => dsimp only; rw [h4]
  | tdl cwl => simp only [toolInfo, h5, h6, h7]

end Sharg
