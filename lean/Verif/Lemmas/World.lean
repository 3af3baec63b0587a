import Verif.Lemmas.Returned

/-!
# What `parse()` can do to the world

The world is changed only by the version check, by the page, and by validators: whatever these three keep is kept.
-/

namespace Sharg

open Spec

variable {W : Type}

/-- The code keeps the invariant of the world, whether it throws or not. -/
def Guards {α : Type} (P : W → Prop) (m : FM W α) : Prop := ∀ s, P s.world → P (m s).state.world

theorem guards_bind {α β : Type} {P : W → Prop} {m : FM W α} {f : α → FM W β} (h1 : Guards P m) (h2 : ∀ a, Guards P (f a)) :
    Guards P (M.bind m f) := by
  intro s hs
  rw [M.bind_run]
  have := h1 s hs
  cases hm : m s with
  | ok a s' => rw [hm] at this; exact h2 a s' this
  | err e s' => rw [hm] at this; exact this

/-- Code that does not touch the world. -/
theorem guards_same {α : Type} {P : W → Prop} {m : FM W α} (h : ∀ s, (m s).state.world = s.world) : Guards P m :=
  fun s hs => (h s).symm ▸ hs

theorem guards_pure {α : Type} (P : W → Prop) (a : α) : Guards P (M.pure a) := guards_same fun _ => rfl
theorem guards_throw {α : Type} (P : W → Prop) (e : Exn) : Guards (α := α) P (M.throw e) := guards_same fun _ => rfl
theorem guards_setPre (P : W → Prop) (l : List Str) : Guards P (setPre l) := guards_same fun _ => rfl
theorem guards_setVar (P : W → Prop) (x : VarId) (v : Val) : Guards P (setVar x v) := guards_same fun _ => rfl
theorem guards_throwIf (P : W → Prop) (e : Option Exn) : Guards P (throwIf e) := by
  cases e <;> exact guards_same fun _ => rfl

theorem guards_forEach {α : Type} {P : W → Prop} {f : α → FM W Unit} (l : List α) (h : ∀ a ∈ l, Guards P (f a)) :
    Guards P (M.forEach f l) := by
  induction l with
  | nil => exact guards_pure P ()
  | cons a l ih =>
    rw [M.forEach_cons]
    exact guards_bind (h a (by simp)) (fun _ => ih (fun b hb => h b (by simp [hb])))

theorem guards_assignScalar (P : W → Prop) (nd : Bool) (ty : ElemTy) (y : VarId) (t : Str) :
    Guards P (assignScalar nd ty y t) := by
  unfold assignScalar
  split
  · exact guards_throw P _
  · dsimp only
    split
    · exact guards_bind (guards_setVar P _ _) (fun _ => guards_throwIf P _)
    · exact guards_bind (guards_pure P ()) (fun _ => guards_throwIf P _)

theorem guards_appendList (P : W → Prop) (nd : Bool) (ty : ElemTy) (y : VarId) (t : Str) :
    Guards P (appendList nd ty y t) := by
  unfold appendList
  split
  · exact guards_throw P _
  · dsimp only
    split
    · exact guards_bind (guards_same fun _ => rfl) (fun _ => guards_throwIf P _)
    · exact guards_throwIf P _

/-- A validator keeps the invariant. -/
def ValidatorKeeps (P : W → Prop) (v : Val → W → Bool × W) : Prop := ∀ x w, P w → P (v x w).2

theorem guards_validate {P : W → Prop} {v : Val → W → Bool × W} (h : ValidatorKeeps P v) (y : VarId) : Guards P (validate v y) := by
  intro s hs
  have := h (s.store y) s.world hs
  unfold validate
  split
  · rename_i w hw; rw [hw] at this; exact this
  · rename_i w hw; rw [hw] at this; exact this

theorem guards_collect (P : W → Prop) (nd : Bool) (ty : ElemTy) (y : VarId) (id : Id) (n : Nat) :
    ∀ (l front : List Str), l.length ≤ n → Guards P (collect nd ty y id front l) := by
  induction n with
  | zero =>
    intro l front hl
    cases l with
    | nil => exact guards_setPre P front
    | cons a l => simp at hl
  | succ n ih =>
    intro l front hl
    cases l with
    | nil => exact guards_setPre P front
    | cons a l =>
      unfold collect
      split
      · split
        · split
          · exact guards_throw P _
          · exact guards_bind (guards_appendList P nd ty y _) (fun _ => ih l _ (by simpa using hl))
        · split
          · exact guards_throw P _
          · refine guards_bind (guards_appendList P nd ty y _) (fun _ => ih _ _ ?_)
            simp at hl ⊢; omega
      · exact ih l _ (by simpa using hl)

theorem guards_getOptionById (P : W → Prop) (nd : Bool) (d : OptDecl W) (id : Id) : Guards P (getOptionById nd d id) := by
  unfold getOptionById
  split
  · intro s hs
    unfold getOptionByIdList
    split
    · exact hs
    · exact guards_bind (guards_setVar P _ _) (fun _ => guards_bind (guards_collect P nd d.ty d.var id _ _ _ (Nat.le_refl _))
        (fun _ => guards_pure P _)) s hs
  · intro s hs
    unfold getOptionByIdScalar
    split
    · exact hs
    · split
      · exact hs
      · refine guards_bind (guards_setPre P _) (fun _ => guards_bind (guards_assignScalar P nd d.ty d.var _) (fun _ => ?_)) s hs
        split
        · exact guards_pure P _
        · exact guards_throw P _

theorem guards_getOption {P : W → Prop} (nd : Bool) (d : OptDecl W) (h : ValidatorKeeps P d.validator) : Guards P (getOption nd d) := by
  unfold getOption
  refine guards_bind (guards_getOptionById P nd d _) (fun a => guards_bind (guards_getOptionById P nd d _) (fun b => ?_))
  split
  · exact guards_throw P _
  · split
    · exact guards_validate h _
    · split
      · exact guards_throw P _
      · exact guards_pure P _

theorem guards_getFlag (P : W → Prop) (f : FlagDecl) : Guards P (getFlag f) := by
  intro s hs
  unfold getFlag
  split
  · exact hs
  · split
    · exact hs
    · split <;> exact hs

theorem guards_fillList (P : W → Prop) (nd : Bool) (ty : ElemTy) (y : VarId) (l : List Str) :
    ∀ front, Guards P (fillList nd ty y front l) := by
  induction l with
  | nil => exact fun front => guards_setPre P front
  | cons a l ih =>
    intro front
    unfold fillList
    split
    · exact ih _
    · exact guards_bind (guards_appendList P nd ty y a) (fun _ => ih _)

theorem guards_getPositional {P : W → Prop} (nd last : Bool) (d : PosDecl W) (h : ValidatorKeeps P d.validator) :
    Guards P (getPositional nd last d) := by
  intro s hs
  unfold getPositional
  split
  · exact hs
  · split
    · split
      · exact hs
      · exact guards_bind (guards_setVar P _ _) (fun _ => guards_bind (guards_fillList P nd d.ty d.var _ _)
          (fun _ => guards_validate h _)) s hs
    · exact guards_bind (guards_assignScalar P nd d.ty d.var _) (fun _ => guards_bind (guards_setPre P _)
        (fun _ => guards_validate h _)) s hs

theorem guards_runPositionals {P : W → Prop} (nd : Bool) (ds : List (PosDecl W)) (h : ∀ d ∈ ds, ValidatorKeeps P d.validator) :
    Guards P (runPositionals nd ds) := by
  induction ds with
  | nil => exact guards_pure P _
  | cons d ds ih =>
    unfold runPositionals
    exact guards_bind (guards_getPositional nd _ d (h d (by simp))) (fun _ => ih (fun e he => h e (by simp [he])))

theorem guards_formatParse {P : W → Prop} (nd : Bool) (D : Decls W) (args : List Str) (st : Store) (w : W)
    (h1 : ∀ d ∈ D.options, ValidatorKeeps P d.validator) (h3 : ∀ d ∈ D.positionals, ValidatorKeeps P d.validator) (hw : P w) :
    P (formatParse nd D args st w).state.world := by
  unfold formatParse parseBody
  refine guards_bind (guards_forEach _ (fun d hd => guards_getOption nd d (h1 d hd))) (fun _ => ?_) _ hw
  refine guards_bind (guards_forEach _ (fun d _ => guards_getFlag P d)) (fun _ => ?_)
  refine guards_bind (guards_same fun s => by unfold checkForUnknownIds; split <;> rfl) (fun _ => ?_)
  refine guards_bind (guards_same fun s => rfl) (fun _ => ?_)
  exact guards_bind (guards_runPositionals nd _ h3) (fun _ => guards_same fun s => by unfold checkForLeftOverArgs; split <;> rfl)

theorem guards_parseFormat {P : W → Prop} (env : Env W) (f : Format) (g : Prog W)
    (hp : ∀ f p st w, P w → P (env.printPage f p st w).2)
    (h1 : ∀ d ∈ (declsOf g.parser.operations).options, ValidatorKeeps P d.validator)
    (h2 : ∀ d ∈ (declsOf g.parser.operations).positionals, ValidatorKeeps P d.validator) (hw : P g.world) :
    P (parseFormat env f g).2.world := by
  unfold parseFormat
  split
  · have := guards_formatParse env.ndebug _ g.parser.formatArguments g.store g.world h1 h2 hw
    split
    · rename_i h; rw [h] at this; exact this
    · rename_i h; rw [h] at this; exact this
  · have := hp f g.parser g.store g.world hw
    split
    · rename_i h; rw [h] at this; exact this
    · rename_i h; rw [h] at this; exact this

/-- The steps of `parse()`: it fails before the version check, with the variables and the world as they were, or the check is
called with the name, which is clean, and the developer's decision, and `parse_format` follows on a parser with the same
set-up. -/
theorem parse_steps (env : Env W) (g : Prog W) :
    (∃ e p, parse env g = (.threw e, { g with parser := p })) ∨
    (g.parser.parseWasCalled = false ∧ CleanName g.parser.appName ∧ ∃ f p, g.parser.SameSetup p ∧
      parse env g = checkAndParse env f { g with parser := p }) := by
  unfold parse
  by_cases h : g.parser.parseWasCalled = true
  · rw [if_pos h]; exact Or.inl ⟨_, _, rfl⟩
  · rw [if_neg h]
    have h1 := verifyNames_parser { g.parser with parseWasCalled := true }
    cases hv : verifyAppAndSubcommandNames { g.parser with parseWasCalled := true } with
    | err e p => exact Or.inl ⟨_, _, rfl⟩
    | ok u p =>
      rw [hv] at h1
      dsimp only [Res.state] at h1
      subst h1
      have hc : CleanName g.parser.appName := by
        rw [← matchesNameRegex_iff]
        unfold verifyAppAndSubcommandNames at hv
        dsimp only at hv
        by_cases ha : matchesNameRegex g.parser.appName = false
        · rw [if_pos ha] at hv; cases hv
        · simpa using ha
      have h2 := (determine_parser env.ndebug { g.parser with parseWasCalled := true }).1
      dsimp only
      cases hd : determineFormatAndSubcommand env.ndebug { g.parser with parseWasCalled := true } with
      | err e p => exact Or.inl ⟨_, _, rfl⟩
      | ok f p =>
        rw [hd] at h2
        refine Or.inr ⟨by simpa using h, hc, f, p, ?_, rfl⟩
        exact ⟨h2.appName, h2.list, h2.notify, h2.subcommands, h2.usedIds, h2.arguments, h2.options, h2.operations⟩

/-- Whatever the version check, the pages and the validators keep is kept by `parse()`. -/
theorem parse_guards {P : W → Prop} (env : Env W) (g : Prog W)
    (hc : ∀ u w, P w → P (env.versionCheck g.parser.appName g.parser.notify u w).2)
    (hp : ∀ f p st w, P w → P (env.printPage f p st w).2)
    (h1 : ∀ d ∈ (declsOf g.parser.operations).options, ValidatorKeeps P d.validator)
    (h2 : ∀ d ∈ (declsOf g.parser.operations).positionals, ValidatorKeeps P d.validator) (hw : P g.world) :
    P (parse env g).2.world := by
  rcases parse_steps env g with ⟨e, p, h⟩ | ⟨-, -, f, p, hs, h⟩
  · rw [h]; exact hw
  · rw [h]
    unfold checkAndParse
    have := hc p.userDecision g.world hw
    rw [← hs.appName, ← hs.notify] at this
    dsimp only
    split
    · rename_i hh; rw [hh] at this; exact this
    · rename_i hh
      rw [hh] at this
      exact guards_parseFormat env f _ hp (by rw [hs.operations]; exact h1) (by rw [hs.operations]; exact h2) this

end Sharg
