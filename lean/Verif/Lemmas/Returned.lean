import Verif.Lemmas.AccountFlags
import Verif.Lemmas.ParseLine

/-!
# Which variables a run can change, and runs of `parse()` that return
-/

set_option linter.unusedSimpArgs false

namespace Sharg

open Spec

variable {W : Type}

/-! ### Frame -/

/-- The code leaves the variable alone, whether it throws or not. -/
def Keeps {α : Type} (x : VarId) (m : FM W α) : Prop := ∀ s, (m s).state.store x = s.store x

theorem keeps_bind {α β : Type} {x : VarId} {m : FM W α} {f : α → FM W β} (h1 : Keeps x m) (h2 : ∀ a, Keeps x (f a)) :
    Keeps x (M.bind m f) := by
  intro s
  rw [M.bind_run]
  have := h1 s
  cases hm : m s with
  | ok a s' => rw [hm] at this; simp only [Res.state] at this; rw [← this]; exact h2 a s'
  | err e s' => rw [hm] at this; exact this

theorem keeps_pure {α : Type} (x : VarId) (a : α) : Keeps (W := W) x (M.pure a) := fun _ => rfl
theorem keeps_throw {α : Type} (x : VarId) (e : Exn) : Keeps (W := W) (α := α) x (M.throw e) := fun _ => rfl
theorem keeps_setPre (x : VarId) (l : List Str) : Keeps (W := W) x (setPre l) := fun _ => rfl
theorem keeps_throwIf (x : VarId) (e : Option Exn) : Keeps (W := W) x (throwIf e) := by
  cases e <;> exact fun _ => rfl

theorem keeps_setVar {x y : VarId} (h : x ≠ y) (v : Val) : Keeps (W := W) x (setVar y v) := by
  intro s
  simp only [setVar, M.modify, Res.state, Store.set]
  rw [if_neg h]

theorem keeps_forEach {α : Type} {x : VarId} {f : α → FM W Unit} (l : List α) (h : ∀ a ∈ l, Keeps x (f a)) :
    Keeps x (M.forEach f l) := by
  induction l with
  | nil => exact keeps_pure x ()
  | cons a l ih =>
    rw [M.forEach_cons]
    exact keeps_bind (h a (by simp)) (fun _ => ih (fun b hb => h b (by simp [hb])))

theorem keeps_assignScalar {x y : VarId} (h : x ≠ y) (nd : Bool) (ty : ElemTy) (t : Str) :
    Keeps (W := W) x (assignScalar nd ty y t) := by
  unfold assignScalar
  split
  · exact keeps_throw x _
  · dsimp only
    split
    · exact keeps_bind (keeps_setVar h _) (fun _ => keeps_throwIf x _)
    · exact keeps_bind (keeps_pure x ()) (fun _ => keeps_throwIf x _)

theorem keeps_appendList {x y : VarId} (h : x ≠ y) (nd : Bool) (ty : ElemTy) (t : Str) :
    Keeps (W := W) x (appendList nd ty y t) := by
  unfold appendList
  split
  · exact keeps_throw x _
  · dsimp only
    split
    · refine keeps_bind ?_ (fun _ => keeps_throwIf x _)
      intro s
      simp only [M.modify, Res.state, Store.set]
      rw [if_neg h]
    · exact keeps_throwIf x _

theorem keeps_validate (x y : VarId) (v : Val → W → Bool × W) : Keeps x (validate v y) := by
  intro s
  unfold validate
  split <;> rfl

theorem keeps_collect {x y : VarId} (h : x ≠ y) (nd : Bool) (ty : ElemTy) (id : Id) (n : Nat) :
    ∀ (l front : List Str), l.length ≤ n → Keeps (W := W) x (collect nd ty y id front l) := by
  induction n with
  | zero =>
    intro l front hl
    cases l with
    | nil => exact keeps_setPre x front
    | cons a l => simp at hl
  | succ n ih =>
    intro l front hl
    cases l with
    | nil => exact keeps_setPre x front
    | cons a l =>
      unfold collect
      split
      · split
        · split
          · exact keeps_throw x _
          · exact keeps_bind (keeps_appendList h nd ty _) (fun _ => ih l _ (by simpa using hl))
        · split
          · exact keeps_throw x _
          · refine keeps_bind (keeps_appendList h nd ty _) (fun _ => ih _ _ ?_)
            simp at hl ⊢; omega
      · exact ih l _ (by simpa using hl)

theorem keeps_getOptionById {x : VarId} (nd : Bool) (d : OptDecl W) (h : x ≠ d.var) (id : Id) :
    Keeps x (getOptionById nd d id) := by
  unfold getOptionById
  split
  · intro s
    unfold getOptionByIdList
    split
    · rfl
    · exact keeps_bind (keeps_setVar h _) (fun _ => keeps_bind (keeps_collect h nd d.ty id _ _ _ (Nat.le_refl _))
        (fun _ => keeps_pure x _)) s
  · intro s
    unfold getOptionByIdScalar
    split
    · rfl
    · split
      · rfl
      · refine keeps_bind (keeps_setPre x _) (fun _ => keeps_bind (keeps_assignScalar h nd d.ty _) (fun _ => ?_)) s
        split
        · exact keeps_pure x _
        · exact keeps_throw x _

theorem keeps_getOption {x : VarId} (nd : Bool) (d : OptDecl W) (h : x ≠ d.var) : Keeps x (getOption nd d) := by
  unfold getOption
  refine keeps_bind (keeps_getOptionById nd d h _) (fun a => keeps_bind (keeps_getOptionById nd d h _) (fun b => ?_))
  split
  · exact keeps_throw x _
  · split
    · exact keeps_validate x _ _
    · split
      · exact keeps_throw x _
      · exact keeps_pure x _

theorem keeps_getFlag {x : VarId} (f : FlagDecl) (h : x ≠ f.var) : Keeps (W := W) x (getFlag f) := by
  intro s
  unfold getFlag
  split
  · simp only [Res.state, Store.set]; rw [if_neg h]
  · split
    · simp only [Res.state, Store.set]; rw [if_neg h]
    · split
      · simp only [Res.state, Store.set]; rw [if_neg h]
      · rfl

theorem keeps_fillList {x y : VarId} (h : x ≠ y) (nd : Bool) (ty : ElemTy) (l : List Str) :
    ∀ front, Keeps (W := W) x (fillList nd ty y front l) := by
  induction l with
  | nil => exact fun front => keeps_setPre x front
  | cons a l ih =>
    intro front
    unfold fillList
    split
    · exact ih _
    · exact keeps_bind (keeps_appendList h nd ty a) (fun _ => ih _)

theorem keeps_getPositional {x : VarId} (nd last : Bool) (d : PosDecl W) (h : x ≠ d.var) :
    Keeps x (getPositional nd last d) := by
  intro s
  unfold getPositional
  split
  · rfl
  · split
    · split
      · rfl
      · exact keeps_bind (keeps_setVar h _) (fun _ => keeps_bind (keeps_fillList h nd d.ty _ _)
          (fun _ => keeps_validate x _ _)) s
    · exact keeps_bind (keeps_assignScalar h nd d.ty _) (fun _ => keeps_bind (keeps_setPre x _)
        (fun _ => keeps_validate x _ _)) s

theorem keeps_runPositionals {x : VarId} (nd : Bool) (ds : List (PosDecl W)) (h : ∀ d ∈ ds, x ≠ d.var) :
    Keeps x (runPositionals nd ds) := by
  induction ds with
  | nil => exact keeps_pure x _
  | cons d ds ih =>
    unfold runPositionals
    exact keeps_bind (keeps_getPositional nd _ d (h d (by simp))) (fun _ => ih (fun e he => h e (by simp [he])))

theorem keeps_leftOver (x : VarId) : Keeps (W := W) x checkForLeftOverArgs := by
  intro s
  unfold checkForLeftOverArgs
  split <;> rfl

theorem keeps_formatParse (nd : Bool) (D : Decls W) (args : List Str) (st : Store) (w : W) (x : VarId)
    (h1 : ∀ d ∈ D.options, x ≠ d.var) (h2 : ∀ f ∈ D.flags, x ≠ f.var) (h3 : ∀ d ∈ D.positionals, x ≠ d.var) :
    (formatParse nd D args st w).state.store x = st x := by
  unfold formatParse parseBody
  refine keeps_bind (keeps_forEach _ (fun d hd => keeps_getOption nd d (h1 d hd))) (fun _ => ?_) _
  refine keeps_bind (keeps_forEach _ (fun d hd => keeps_getFlag d (h2 d hd))) (fun _ => ?_)
  refine keeps_bind (fun s => by unfold checkForUnknownIds; split <;> rfl) (fun _ => ?_)
  refine keeps_bind (fun s => rfl) (fun _ => ?_)
  exact keeps_bind (keeps_runPositionals nd _ h3) (fun _ => keeps_leftOver x)

/-! ### What a changed variable implies -/

theorem options_changed (nd : Bool) (x : VarId) (ds : List (OptDecl W)) (l : List Str) :
    ∀ (s s' : FState W) (u : Unit), (∀ a ∈ s.pre, a = [] ∨ a ∈ l) → M.forEach (getOption nd) ds s = .ok u s' →
      s'.store x ≠ s.store x → ∃ d ∈ ds, d.var = x ∧ ∃ a ∈ l, Names d a := by
  induction ds with
  | nil => intro s s' u _ h hne; cases h; exact absurd rfl hne
  | cons d ds ih =>
    intro s s' u hl h hne
    rw [M.forEach_cons, M.bind_eq_ok] at h
    obtain ⟨u1, s1, h1, h2⟩ := h
    obtain ⟨v1, l1, v2, l2, e1, e2, h3⟩ := (getOption_ok nd d s s1 u1).1 h1
    rcases h3 with ⟨_, _, _, rfl⟩ | ⟨hf, val, w, _, _, rfl⟩
    · obtain ⟨e, he, hr⟩ := ih s1 s' u hl h2 hne
      exact ⟨e, by simp [he], hr⟩
    · by_cases hv : d.var = x
      · obtain ⟨a, ha, hn⟩ := found_named e1 e2 hf
        refine ⟨d, by simp, hv, a, ?_, hn⟩
        rcases hl a ha with rfl | h
        · exact absurd hn (not_names_nil d)
        · exact h
      · have hl2 : ∀ a ∈ l2, a = [] ∨ a ∈ l := by
          intro a ha
          rcases consumeId_mem _ e2 a ha with h | h
          · exact Or.inl h
          · rcases consumeId_mem _ e1 a h with h | h
            · exact Or.inl h
            · exact hl a h
        obtain ⟨e, he, hr⟩ := ih _ s' u hl2 h2 (by simp only [Store.set]; rw [if_neg (fun h => hv h.symm)]; exact hne)
        exact ⟨e, by simp [he], hr⟩

theorem pointwise_mem {α β : Type} {R : α → β → Prop} {l : List α} {m : List β} (h : Pointwise R l m) :
    ∀ b ∈ m, ∃ a ∈ l, R a b := by
  induction h with
  | nil => simp
  | cons h1 _ ih =>
    intro b hb
    rcases List.mem_cons.1 hb with rfl | hb
    · exact ⟨_, by simp, h1⟩
    · obtain ⟨a, ha, hr⟩ := ih b hb
      exact ⟨a, by simp [ha], hr⟩

theorem shrinks_mem {D : Decls W} {t rest : Str} (h : Shrinks D t rest) {c : Char} (hc : c ∈ rest) : c ∈ t := by
  obtain ⟨_, _, _, hs⟩ := h
  exact hs.subset hc

theorem flagged_short {D : Decls W} {f : FlagDecl} (hc : f.short ≠ '-') {a b b' : Str} (h : Becomes D a b)
    (hb : flagCell f.short b = some b') : InGroup f a := by
  obtain ⟨y, t, rfl, hy, hmem, _⟩ := flagCell_spec _ hc _ _ hb
  cases h with
  | same => exact ⟨y :: t, rfl, by simpa using hy, hmem⟩
  | shrink h1 h2 h3 => exact ⟨_, rfl, h2, shrinks_mem h3 hmem⟩

theorem flagged_long {D : Decls W} {f : FlagDecl} {a : Str} (h : Becomes D a ('-' :: '-' :: f.long)) :
    FlagSeen D f a := by
  cases h with
  | same => exact Or.inl rfl
  | shrink h1 h2 h3 => exact Or.inr (Or.inr ⟨_, rfl, h2, h3⟩)

theorem flags_changed {D : Decls W} (hD : IdsOk D) (x : VarId) {l m : List Str} (fs : List FlagDecl) :
    ∀ (s s' : FState W) (u : Unit), (∀ f ∈ fs, f ∈ D.flags) → Pointwise (Becomes D) l s.pre →
      Pointwise (Becomes D) m s.post → M.forEach getFlag fs s = .ok u s' → s'.store x ≠ s.store x →
      ∃ f ∈ fs, f.var = x ∧ s'.store x = .one (.bool true) ∧ ((∃ a ∈ l, FlagSeen D f a) ∨ ∃ a ∈ m, InGroup f a) := by
  induction fs with
  | nil => intro s s' u _ _ _ h hne; cases h; exact absurd rfl hne
  | cons f fs ih =>
    intro s s' u hsub h1 h2 h hne
    rw [M.forEach_cons, M.bind_eq_ok] at h
    obtain ⟨u1, s1, e1, e2⟩ := h
    have hf := hsub f (by simp)
    have hc := flag_short_dash hD hf
    obtain ⟨a1, a2, _⟩ := getFlag_becomes hf hc s s1 u1 h1 h2 e1
    by_cases hx : s'.store x = s1.store x
    · have hx1 : s1.store x ≠ s.store x := fun e => hne (hx.trans e)
      have hv : f.var = x := by
        apply Classical.byContradiction
        intro hv
        have := keeps_getFlag (W := W) f (x := x) (fun e => hv e.symm) s
        rw [e1] at this
        exact hx1 this
      refine ⟨f, by simp, hv, ?_, ?_⟩
      · rw [hx]
        unfold getFlag at e1
        split at e1
        · cases e1; simp [Store.set, hv]
        · split at e1
          · cases e1; simp [Store.set, hv]
          · split at e1
            · cases e1; simp [Store.set, hv]
            · cases e1; exact absurd rfl hx1
      · unfold getFlag at e1
        split at e1
        · rename_i pre' hp
          obtain ⟨y, b, b', z, e3, _, e5, _⟩ := flagShort_spec _ _ _ hp
          obtain ⟨a, ha, hab⟩ := pointwise_mem h1 b (by rw [e3]; simp)
          exact Or.inl ⟨a, ha, Or.inr (Or.inl (flagged_short hc hab e5))⟩
        · split at e1
          · rename_i post' hp
            obtain ⟨y, b, b', z, e3, _, e5, _⟩ := flagShort_spec _ _ _ hp
            obtain ⟨a, ha, hab⟩ := pointwise_mem h2 b (by rw [e3]; simp)
            exact Or.inr ⟨a, ha, flagged_short hc hab e5⟩
          · split at e1
            · rename_i pre' hp
              obtain ⟨y, z, e3, _⟩ := flagLong_spec _ _ _ hp
              obtain ⟨a, ha, hab⟩ := pointwise_mem h1 ('-' :: '-' :: f.long) (by rw [e3]; simp)
              exact Or.inl ⟨a, ha, flagged_long hab⟩
            · cases e1; exact absurd rfl hx1
    · obtain ⟨g, hg, hr⟩ := ih s1 s' u (fun g hg => hsub g (by simp [hg])) a1 a2 e2 hx
      exact ⟨g, by simp [hg], hr⟩

theorem not_inGroup_nil (f : FlagDecl) : ¬ InGroup f [] := by rintro ⟨t, h, _⟩; cases h

theorem not_flagSeen_nil (D : Decls W) (f : FlagDecl) : ¬ FlagSeen D f [] := by
  rintro (h | h | ⟨t, h, _⟩)
  · cases h
  · exact not_inGroup_nil f h
  · cases h

theorem dropWhile_endMarker (args : List Str) :
    args.dropWhile (· ≠ endMarker) = [] ∨ args.dropWhile (· ≠ endMarker) = endMarker :: behind args := by
  unfold behind
  have hh : ∀ l : List Str, l.dropWhile (fun a => decide (a ≠ ['-', '-'])) = [] ∨
      l.dropWhile (fun a => decide (a ≠ ['-', '-'])) =
        ['-', '-'] :: (l.dropWhile (fun a => decide (a ≠ ['-', '-']))).drop 1 := by
    intro l
    induction l with
    | nil => simp
    | cons a l ih =>
      by_cases h : a = ['-', '-']
      · subst h; right; simp [List.dropWhile_cons]
      · rw [List.dropWhile_cons, if_pos (by simp [h])]; exact ih
  exact hh args

theorem formatParse_changed (nd : Bool) {D : Decls W} (hD : IdsOk D) (args : List Str) (st : Store) (w : W)
    (s : FState W) (u : Unit) (h : formatParse nd D args st w = .ok u s) (x : VarId) (hne : s.store x ≠ st x) :
    (∃ d ∈ D.options, d.var = x ∧ ∃ a ∈ before args, Names d a) ∨
    (∃ f ∈ D.flags, f.var = x ∧ ((∃ a ∈ before args, FlagSeen D f a) ∨ ∃ a ∈ behind args, InGroup f a)) ∨
    (∃ d ∈ D.positionals, d.var = x) := by
  obtain ⟨ph⟩ := phases nd hD args st w s u h
  by_cases h1 : ph.opt.store x = st x
  · by_cases h2 : ph.flg.store x = ph.opt.store x
    · right; right
      apply Classical.byContradiction
      intro hno
      have := keeps_bind (keeps_runPositionals nd D.positionals
        (fun d hd e => hno ⟨d, hd, e.symm⟩)) (fun _ => keeps_leftOver x)
        { ph.flg with pre := ph.flg.pre ++ blankHead ph.flg.post, post := [] }
      rw [ph.posRun] at this
      exact hne (this.trans (h2.trans h1))
    · right; left
      obtain ⟨f, hf, hv, _, hseen⟩ := flags_changed hD x D.flags ph.opt ph.flg () (fun _ h => h)
        (forall2_refl .same _) (forall2_refl .same _) ph.flgRun h2
      refine ⟨f, hf, hv, ?_⟩
      rcases hseen with ⟨a, ha, hs⟩ | ⟨a, ha, hs⟩
      · rcases ph.optDone.mem a ha with rfl | hm
        · exact absurd hs (not_flagSeen_nil D f)
        · exact Or.inl ⟨a, hm, hs⟩
      · rw [ph.optPost] at ha
        rcases dropWhile_endMarker args with e | e
        · rw [e] at ha; cases ha
        · rw [e] at ha
          rcases List.mem_cons.1 ha with rfl | ha
          · obtain ⟨t, ht, hh, _⟩ := hs
            unfold endMarker at ht
            simp at ht
            rw [← ht] at hh
            simp at hh
          · exact Or.inr ⟨a, ha, hs⟩
  · left
    exact options_changed nd x D.options (before args) _ _ _ (fun a ha => Or.inr ha) ph.optRun h1

/-! ### `parse()` -/

theorem parse_returned (env : Env W) (g g' : Prog W) (h : parse env g = (.returned, g')) :
    Ready g.parser ∧ g'.parser.operations = g.parser.operations ∧
    (∃ exe args toks stop, g.parser.arguments = exe :: args ∧
      Reading g.parser.options g.parser.subcommands args toks stop ∧ stop.exn? = none ∧ lastRequest toks = none ∧
      g'.parser = scannedParser g.parser exe toks stop) ∧
    ∃ w₁ s, env.versionCheck g.parser.appName g.parser.notify g'.parser.userDecision g.world = (none, w₁) ∧
      formatParse env.ndebug (declsOf g.parser.operations) g'.parser.formatArguments g.store w₁ = .ok () s ∧
      g'.store = s.store ∧ g'.world = s.world := by
  by_cases hp : Ready g.parser
  · refine ⟨hp, ?_⟩
    cases ha : g.parser.arguments with
    | nil => rw [parse_no_arguments env g hp ha] at h; simp at h
    | cons exe args =>
      obtain ⟨toks, stop, hr⟩ := reading_exists g.parser.options g.parser.subcommands args
      rw [parse_reading env g hp exe args ha toks stop hr] at h
      cases he : stop.exn? with
      | some e => rw [he] at h; simp at h
      | none =>
        rw [he] at h
        dsimp only at h
        have hd : decided toks stop = .parse := by
          apply Classical.byContradiction
          intro hd
          have := (checkAndParse_page env _ hd { g with parser := scannedParser g.parser exe toks stop }).1
          rw [h] at this
          exact this rfl
        have hl : lastRequest toks = none := by
          cases hl : lastRequest toks with
          | none => rfl
          | some f =>
            have := (lastRequest_special _ _ toks hr.toksOk f hl).2
            unfold decided at hd
            rw [hl] at hd
            exact absurd hd this
        rw [hd] at h
        unfold checkAndParse at h
        split at h
        · simp at h
        · rename_i w1 hv
          unfold parseFormat at h
          simp only at h
          split at h
          · rename_i s hs
            simp only [Prod.mk.injEq, true_and] at h
            subst h
            exact ⟨rfl, ⟨exe, args, toks, stop, rfl, hr, he, hl, rfl⟩, w1, s, hv, hs, rfl, rfl⟩
          · simp at h
  · rw [parse_not_ready env g hp] at h; simp at h

/-- The whole situation of a successful `parse()` of a program. -/
theorem returned_run (env : Env W) (i : Init) (as : List (Action W)) (st : Store) (w : W) (g' : Prog W)
    (h : parse env (runActions env as (start i st w)) = (.returned, g')) :
    Inv (runActions env as (start i st w)).parser ∧ IdsOk (declsOf g'.parser.operations) ∧
    g'.parser.operations = (runActions env as (start i st w)).parser.operations ∧
    ∃ w₁ s, formatParse env.ndebug (declsOf g'.parser.operations) g'.parser.formatArguments
        (runActions env as (start i st w)).store w₁ = .ok () s ∧
      g'.store = s.store ∧ g'.world = s.world := by
  obtain ⟨_, h2, _, w1, s, _, h3, h4, h5⟩ := parse_returned env _ g' h
  have hi := inv_history env as (start i st w) (inv_start i)
  exact ⟨hi, by rw [h2]; exact idsOk_of_inv hi, h2, w1, s, by rw [h2]; exact h3, h4, h5⟩

end Sharg
