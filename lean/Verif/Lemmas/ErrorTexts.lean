import Verif.Model.ErrorTexts
import Verif.Lemmas.Throws
import Verif.Lemmas.Text

/-!
# The parser with texts is the parser when the texts are forgotten
-/

set_option linter.unusedSimpArgs false

namespace Sharg

open Spec

variable {W : Type}

/-- Forget the text. -/
def TRes.forget {σ α : Type} : TRes σ α → Res σ α
  | .ok a s => .ok a s
  | .err e _ s => .err e s

/-- Forget the texts. -/
def TM.forget {σ α : Type} (m : TM σ α) : M σ α := fun s => (m s).forget

theorem forget_bind {σ α β : Type} (m : TM σ α) (f : α → TM σ β) :
    (TM.bind m f).forget = M.bind m.forget (fun a => (f a).forget) := by
  funext s
  show (TM.bind m f s).forget = M.bind m.forget (fun a => (f a).forget) s
  unfold TM.bind M.bind TM.forget
  cases m s <;> rfl

theorem forget_pure {σ α : Type} (a : α) : (TM.pure a : TM σ α).forget = M.pure a := rfl

theorem forget_throw {σ α : Type} (e : Exn) (t : Str) : (TM.throw e t : TM σ α).forget = M.throw e := rfl

theorem forget_modify {σ : Type} (f : σ → σ) : (TM.modify f).forget = M.modify f := rfl

theorem forget_forEach {σ α β : Type} {f : α → TM σ Unit} {g : β → M σ Unit} {h : α → β} (hf : ∀ a, (f a).forget = g (h a))
    (l : List α) : (TM.forEach f l).forget = M.forEach g (l.map h) := by
  induction l with
  | nil => rfl
  | cons a l ih =>
    show (TM.bind (f a) fun _ => TM.forEach f l).forget = _
    rw [forget_bind, hf, List.map_cons, M.forEach_cons]
    simp only [ih]

theorem parseElemT_forget (ty : ElemTy) (s : Str) :
    parseElem ty s = match parseElemT ty s with
      | .ok r => .ok r
      | .error (e, _) => .error e := by
  cases ty with
  | enumeration names =>
    simp only [parseElem, parseEnum, parseElemT]
    cases names.lookup s with
    | some tag => rfl
    | none => dsimp only; split <;> rfl
  | _ => simp only [parseElem, parseElemT]

theorem throwOnInputErrorT_forget (wd : Wording) (nd l : Bool) (ty : ElemTy) (res : ParseRes) (name text : Str) :
    (throwOnInputErrorT wd nd l ty res name text).map Prod.fst = throwOnInputError nd (!l && ty.isArithmetic) res := by
  cases res with
  | success => rfl
  | error => rfl
  | overflowError =>
    simp only [throwOnInputErrorT, throwOnInputError]
    split
    · rfl
    · split <;> rfl

theorem throwIfT_forget (o : Option (Exn × Str)) : (throwIfT (W := W) o).forget = throwIf (o.map Prod.fst) := by
  cases o with
  | none => rfl
  | some p => rfl

theorem assignScalarT_forget (wd : Wording) (nd : Bool) (ty : ElemTy) (x : VarId) (name text : Str) :
    (assignScalarT (W := W) wd nd ty x name text).forget = assignScalar nd ty x text := by
  unfold assignScalarT assignScalar
  rw [parseElemT_forget]
  cases parseElemT ty text with
  | error p => rfl
  | ok p =>
    obtain ⟨res, written⟩ := p
    dsimp only
    rw [forget_bind]
    simp only [throwIfT_forget, throwOnInputErrorT_forget, Bool.not_false, Bool.true_and]
    cases written <;> rfl

theorem appendListT_forget (wd : Wording) (nd : Bool) (ty : ElemTy) (x : VarId) (name text : Str) :
    (appendListT (W := W) wd nd ty x name text).forget = appendList nd ty x text := by
  unfold appendListT appendList
  rw [parseElemT_forget]
  cases parseElemT ty text with
  | error p => rfl
  | ok p =>
    obtain ⟨res, written⟩ := p
    dsimp only
    rw [forget_bind]
    simp only [throwIfT_forget, throwOnInputErrorT_forget, Bool.not_true, Bool.false_and]
    by_cases h : res = .success
    · rw [if_pos h, if_pos h]; rfl
    · rw [if_neg h, if_neg h]; rfl

theorem getOptionByIdScalarT_forget (wd : Wording) (nd : Bool) (ty : ElemTy) (x : VarId) (id : Id) :
    (getOptionByIdScalarT (W := W) wd nd ty x id).forget = getOptionByIdScalar nd ty x id := by
  funext s
  unfold TM.forget getOptionByIdScalarT getOptionByIdScalar
  split
  · rename_i h; simp only [h]; rfl
  · rename_i front a rest h
    simp only [h]
    cases retrieve id a rest with
    | error e => rfl
    | ok p =>
      obtain ⟨text, blanks, rest'⟩ := p
      dsimp only
      refine congrFun (f := TM.forget _) ?_ s
      rw [forget_bind]
      simp only [forget_bind, assignScalarT_forget]
      refine congrArg (M.bind _) (funext fun _ => congrArg (M.bind _) (funext fun _ => ?_))
      cases findOptionId id rest' with
      | mk u v => cases v <;> rfl

theorem collectT_forget (wd : Wording) (nd : Bool) (ty : ElemTy) (x : VarId) (id : Id) :
    ∀ (n : Nat) (l front : List Str), l.length ≤ n →
      (collectT (W := W) wd nd ty x id front l).forget = collect nd ty x id front l := by
  intro n
  induction n with
  | zero =>
    intro l front hl
    have : l = [] := by simpa using hl
    subst this
    rfl
  | succ n ih =>
    intro l front hl
    cases l with
    | nil => rfl
    | cons a rest =>
      unfold collectT collect
      by_cases h1 : id.hits a = true
      · rw [if_pos h1, if_pos h1]
        by_cases h2 : id.dashed.length < a.length
        · rw [if_pos h2, if_pos h2]
          cases retrieve id a rest with
          | error e => rfl
          | ok p =>
            dsimp only
            rw [forget_bind, appendListT_forget]
            exact congrArg (M.bind _) (funext fun _ => ih rest _ (by simpa using hl))
        · rw [if_neg h2, if_neg h2]
          cases rest with
          | nil => rfl
          | cons v rest' =>
            dsimp only
            rw [forget_bind, appendListT_forget]
            exact congrArg (M.bind _) (funext fun _ => ih rest' _ (by simp at hl; omega))
      · rw [if_neg h1, if_neg h1]
        exact ih rest _ (by simpa using hl)

theorem getOptionByIdListT_forget (wd : Wording) (nd : Bool) (ty : ElemTy) (x : VarId) (id : Id) :
    (getOptionByIdListT (W := W) wd nd ty x id).forget = getOptionByIdList nd ty x id := by
  funext s
  unfold TM.forget getOptionByIdListT getOptionByIdList
  split
  · rename_i h; simp only [h]; rfl
  · rename_i h
    simp only [h]
    refine congrFun (f := TM.forget _) ?_ s
    rw [forget_bind]
    simp only [forget_bind, collectT_forget wd nd ty x id _ _ _ (Nat.le_refl _)]
    rfl

theorem getOptionByIdT_forget (wd : Wording) (nd : Bool) (d : OptDecl W) (id : Id) :
    (getOptionByIdT wd nd d id).forget = getOptionById nd d id := by
  unfold getOptionByIdT getOptionById
  split
  · exact getOptionByIdListT_forget wd nd d.ty d.var id
  · exact getOptionByIdScalarT_forget wd nd d.ty d.var id

theorem validateT_forget (v : Val → W → Bool × W) (why : Val → W → Str) (name : Str) (x : VarId) :
    (validateT v why name x).forget = validate v x := by
  funext s
  unfold TM.forget validateT validate
  split
  · rename_i h; simp only [h]; rfl
  · rename_i h; simp only [h]; rfl

theorem getOptionT_forget (wd : Wording) (nd : Bool) (d : TOptDecl W) : (getOptionT wd nd d).forget = getOption nd d.decl := by
  unfold getOptionT getOption
  simp only [forget_bind, getOptionByIdT_forget]
  refine congrArg (M.bind _) (funext fun a => congrArg (M.bind _) (funext fun b => ?_))
  split
  · rfl
  · split
    · exact validateT_forget _ _ _ _
    · split <;> rfl

theorem getFlagT_forget (d : FlagDecl) : (getFlagT (W := W) d).forget = getFlag d := by
  funext s
  unfold TM.forget getFlagT
  cases getFlag d s <;> rfl

/-- An argument that is reported as unknown has a text. -/
theorem unknownText_ok {arg : Str} (h : looksLikeId arg = true) : ∃ t, unknownText arg = .ok t := by
  unfold unknownText
  split
  · rename_i hc
    unfold looksLikeId at h
    split at h
    · rename_i y t
      cases t with
      | nil => simp at hc
      | cons z t =>
        have hne : y :: z :: t ≠ [] := by simp
        have hg : ('-' :: y :: z :: t).head? = some '-' := rfl
        have : ∃ r, expandMultipleFlags ('-' :: y :: z :: t) = .ok r := by
          have := expandMultipleFlags_eq (y :: (z :: t).dropLast) ((z :: t).getLast (by simp)) (by simp)
          rw [List.cons_append, List.dropLast_concat_getLast] at this
          exact ⟨_, this⟩
        obtain ⟨r, hr⟩ := this
        rw [hr]
        exact ⟨_, rfl⟩
    · cases h
  · exact ⟨_, rfl⟩

theorem checkForUnknownIdsT_forget : (checkForUnknownIdsT (W := W)).forget = checkForUnknownIds := by
  funext s
  unfold TM.forget checkForUnknownIdsT checkForUnknownIds
  cases hf : s.pre.find? looksLikeId with
  | none =>
    have : s.pre.any looksLikeId = false := by
      rw [List.find?_eq_none] at hf
      simpa using hf
    simp [this, TRes.forget]
  | some a =>
    have h1 := List.find?_some hf
    have h2 := List.mem_of_find?_eq_some hf
    have : s.pre.any looksLikeId = true := List.any_eq_true.2 ⟨a, h2, h1⟩
    obtain ⟨t, ht⟩ := unknownText_ok h1
    simp only [ht, this, if_true]
    rfl

/-- The two results are the same up to the text; the values are related. -/
inductive Sim {σ α β : Type} (P : α → β → Prop) : TRes σ α → Res σ β → Prop where
  | ok {a : α} {b : β} (s : σ) : P a b → Sim P (.ok a s) (.ok b s)
  | err (e : Exn) (t : Str) (s : σ) : Sim P (.err e t s) (.err e s)

theorem sim_bind {σ α β α' β' : Type} {P : α → β → Prop} {Q : α' → β' → Prop} {m : TM σ α} {n : M σ β} {f : α → TM σ α'}
    {g : β → M σ β'} {s : σ} (h : Sim P (m s) (n s)) (h2 : ∀ a b s, P a b → Sim Q (f a s) (g b s)) :
    Sim Q (TM.bind m f s) (M.bind n g s) := by
  unfold TM.bind M.bind
  revert h
  generalize m s = x
  generalize n s = y
  intro h
  cases h with
  | ok s hp => exact h2 _ _ s hp
  | err e t s => exact .err e t s

theorem sim_forget {σ α : Type} {m : TM σ α} {n : M σ α} (h : m.forget = n) (s : σ) : Sim Eq (m s) (n s) := by
  rw [← h]
  unfold TM.forget
  cases m s with
  | ok a s => exact .ok s rfl
  | err e t s => exact .err e t s

theorem Sim.mono {σ α β : Type} {P Q : α → β → Prop} {x : TRes σ α} {y : Res σ β} (h : Sim P x y) (hq : ∀ a b, P a b → Q a b) :
    Sim Q x y := by
  cases h with
  | ok s hp => exact .ok s (hq _ _ hp)
  | err e t s => exact .err e t s

theorem fillListT_sim (wd : Wording) (nd : Bool) (ty : ElemTy) (x : VarId) (l : List Str) :
    ∀ (n : Nat) (front : List Str) (s : FState W),
      Sim (fun _ _ => True) (fillListT wd nd ty x n front l s) (fillList nd ty x front l s) := by
  induction l with
  | nil => intro n front s; exact .ok _ trivial
  | cons a l ih =>
    intro n front s
    unfold fillListT fillList
    by_cases h : a = []
    · rw [if_pos h, if_pos h]; exact ih _ _ _
    · rw [if_neg h, if_neg h]
      exact sim_bind (sim_forget (appendListT_forget wd nd ty x _ a) s) (fun _ _ s _ => ih _ _ s)

/-- `count` and the number of options that follow belong together, unless a list is not the last one (then the code stops
at the `assert`, or in a release build does not look). -/
theorem getPositionalT_sim (wd : Wording) (nd : Bool) (total count : Nat) (d : TPosDecl W) (last : Bool)
    (hlast : nd = false → (count == total) = last) (s : FState W) :
    Sim (fun k _ => (d.decl.isList = false → k = count) ∧ (d.decl.isList = true → nd = false → last = true))
      (getPositionalT wd nd total count d s) (getPositional nd last d.decl s) := by
  unfold getPositionalT getPositional
  cases s.pre.dropWhile (fun a => a = []) with
  | nil => exact .err _ _ _
  | cons a rest =>
    dsimp only
    by_cases hl : d.decl.isList = true
    · rw [if_pos hl, if_pos hl]
      have hc : (!nd && !(count == total)) = (!nd && !last) := by
        cases nd with
        | true => rfl
        | false => rw [hlast rfl]
      rw [hc]
      by_cases hb : (!nd && !last) = true
      · rw [if_pos hb, if_pos hb]; exact .err _ _ _
      · rw [if_neg hb, if_neg hb]
        refine sim_bind (sim_forget (forget_modify _) s) (fun _ _ s _ => sim_bind (fillListT_sim wd nd _ _ _ _ _ s)
          (fun k _ s _ => ?_))
        have hv := sim_forget (validateT_forget d.decl.validator d.why ("positional option ".toList ++ showNat k) d.decl.var) s
        unfold TM.bind
        revert hv
        generalize validateT d.decl.validator d.why ("positional option ".toList ++ showNat k) d.decl.var s = x
        generalize validate d.decl.validator d.decl.var s = y
        intro hv
        cases hv with
        | err e t s => exact .err e t s
        | ok s _ =>
          refine .ok s ⟨fun h => absurd hl (by simp [h]), fun _ hnd => ?_⟩
          subst hnd
          simpa using hb
    · rw [if_neg hl, if_neg hl]
      refine sim_bind (sim_forget (assignScalarT_forget wd nd _ _ _ a) s) (fun _ _ s _ =>
        sim_bind (sim_forget (forget_modify _) s) (fun _ _ s _ => ?_))
      have hv := sim_forget (validateT_forget d.decl.validator d.why ("positional option ".toList ++ showNat count) d.decl.var) s
      unfold TM.bind
      revert hv
      generalize validateT d.decl.validator d.why ("positional option ".toList ++ showNat count) d.decl.var s = x
      generalize validate d.decl.validator d.decl.var s = y
      intro hv
      cases hv with
      | err e t s => exact .err e t s
      | ok s _ => exact .ok s ⟨fun _ => rfl, fun h => absurd h hl⟩

theorem runPositionalsT_sim (wd : Wording) (nd : Bool) (total : Nat) (ds : List (TPosDecl W)) :
    ∀ (count : Nat) (_ : nd = false → ds ≠ [] → count + ds.length = total) (s : FState W),
      Sim Eq (runPositionalsT wd nd total count ds s) (runPositionals nd (ds.map (·.decl)) s) := by
  induction ds with
  | nil => intro count _ s; exact .ok s rfl
  | cons d ds ih =>
    intro count hcount s
    have hlast : nd = false → (count + 1 == total) = (ds.map (·.decl)).isEmpty := by
      intro hnd
      have := hcount hnd (by simp)
      cases ds with
      | nil => simp at this ⊢; omega
      | cons d' ds => simp at this ⊢; omega
    refine sim_bind (getPositionalT_sim wd nd total (count + 1) d _ hlast s) (fun k _ s h => ih k (fun hnd hne => ?_) s)
    cases hl : d.decl.isList with
    | false =>
      rw [h.1 hl]
      have := hcount hnd (by simp)
      simp at this
      omega
    | true =>
      have := h.2 hl hnd
      cases ds with
      | nil => exact absurd rfl hne
      | cons d' ds => simp at this

theorem forget_sim {σ α : Type} {m : TM σ α} {n : M σ α} (h : ∀ s, Sim Eq (m s) (n s)) : m.forget = n := by
  funext s
  have := h s
  unfold TM.forget
  revert this
  generalize m s = x
  generalize n s = y
  intro h
  cases h with
  | ok s h => rw [h]; rfl
  | err e t s => rfl

/-- The parser with texts is the parser. -/
theorem formatParseT_forget (wd : Wording) (nd : Bool) (D : TDecls W) (args : List Str) (st : Store) (w : W) :
    (formatParseT wd nd D args st w).forget = formatParse nd D.forget args st w := by
  unfold formatParseT formatParse
  generalize ({ pre := args.takeWhile (fun a => a ≠ endMarker), post := args.dropWhile (fun a => a ≠ endMarker),
                store := st, world := w } : FState W) = s
  refine congrFun (f := (parseBodyT wd nd D).forget) ?_ s
  unfold parseBodyT parseBody
  simp only [forget_bind, forget_forEach (getOptionT_forget wd nd), checkForUnknownIdsT_forget]
  have hflags : (TM.forEach (getFlagT (W := W)) D.flags).forget = M.forEach getFlag D.forget.flags := by
    rw [forget_forEach (h := id) getFlagT_forget, List.map_id]; rfl
  rw [hflags]
  have hpos : (runPositionalsT wd nd D.positionals.length 0 D.positionals).forget = runPositionals nd D.forget.positionals :=
    forget_sim fun s => runPositionalsT_sim wd nd _ _ 0 (fun _ _ => by simp) s
  rw [hpos]
  have hleft : (checkForLeftOverArgsT (W := W)).forget = checkForLeftOverArgs := by
    funext s
    unfold TM.forget checkForLeftOverArgsT checkForLeftOverArgs
    split <;> rfl
  rw [hleft]
  rfl

/-! ### `parse()` -/

theorem ite_forget {σ α : Type} {c : Prop} [Decidable c] {m1 m2 : TM σ α} {n1 n2 : M σ α} (h1 : m1.forget = n1)
    (h2 : m2.forget = n2) : (if c then m1 else m2).forget = if c then n1 else n2 := by
  split
  · exact h1
  · exact h2

theorem bind_forget {σ α β : Type} {m : TM σ α} {f : α → TM σ β} {n : M σ α} {g : α → M σ β} (h1 : m.forget = n)
    (h2 : ∀ a, (f a).forget = g a) : (TM.bind m f).forget = M.bind n g := by
  rw [forget_bind, h1]
  congr 1
  funext a
  exact h2 a

theorem scanLoopT_forget (options subs : List Str) : ∀ (n : Nat) (l : List Str), l.length ≤ n →
    (scanLoopT options subs l).forget = scanLoop options subs l := by
  intro n
  induction n with
  | zero =>
    intro l hn
    have : l = [] := by simpa using hn
    subst this
    rfl
  | succ n ih =>
    intro l hn
    cases l with
    | nil => rfl
    | cons a rest =>
      have hn' : rest.length ≤ n := by simpa using hn
      have hrest := ih rest hn'
      have hbehind : ∀ v rest', rest = v :: rest' → (scanLoopT options subs rest').forget = scanLoop options subs rest' := by
        rintro v rest' rfl
        exact ih rest' (by simp at hn'; omega)
      rw [scanLoopT.eq_def, scanLoop.eq_def]
      dsimp only
      refine ite_forget (bind_forget (forget_modify _) fun _ => ?_) (ite_forget (forget_modify _)
        (ite_forget (forget_throw _ _) (ite_forget (bind_forget (forget_modify _) fun _ => hrest)
        (ite_forget (bind_forget (forget_modify _) fun _ => hrest) (ite_forget (bind_forget (forget_modify _) fun _ => hrest)
        (ite_forget (bind_forget (forget_modify _) fun _ => hrest) (ite_forget ?_ (ite_forget ?_ (ite_forget ?_
        (bind_forget (forget_modify _) fun _ => hrest))))))))))
      · cases rest with
        | nil => rfl
        | cons v rest' => exact bind_forget (forget_modify _) fun _ => hbehind v rest' rfl
      · cases rest with
        | nil => rfl
        | cons v rest' =>
          dsimp only
          cases exportFormat v with
          | error e => rfl
          | ok f => exact bind_forget (forget_modify _) fun _ => hbehind v rest' rfl
      · cases exportFormat (a.drop (sExportHelp.length + 1)) with
        | error e => rfl
        | ok f => exact bind_forget (forget_modify _) fun _ => hrest
      · cases rest with
        | nil => rfl
        | cons v rest' =>
          dsimp only
          cases versionCheckValue v with
          | error e => rfl
          | ok f => exact bind_forget (forget_modify _) fun _ => hbehind v rest' rfl

theorem textDeclsOf_forget (why : Entry W → Val → W → Str) (ops : List (Entry W)) :
    (textDeclsOf why ops).forget = declsOf ops := by
  unfold textDeclsOf TDecls.forget declsOf
  simp only [List.map_filterMap]
  congr 1
  · congr 1; funext e; cases e <;> rfl
  · congr 1; funext e; cases e <;> rfl

theorem verifyNamesT_forget (p : Parser W) : (verifyNamesT p).forget = verifyAppAndSubcommandNames p := by
  unfold verifyNamesT verifyAppAndSubcommandNames
  split
  · rfl
  · split <;> rfl

theorem determineFormatT_forget (nd : Bool) (p : Parser W) :
    (determineFormatT nd p).forget = determineFormatAndSubcommand nd p := by
  unfold determineFormatT determineFormatAndSubcommand
  cases p.arguments with
  | nil => rfl
  | cons exe args =>
    dsimp only
    have h := congrFun (scanLoopT_forget p.options p.subcommands _ args (Nat.le_refl _)) scanInit
    unfold TM.forget at h
    rw [← h]
    cases scanLoopT p.options p.subcommands args scanInit <;> rfl

/-- Without the text. -/
def TOutcome.forget : TOutcome → Outcome
  | .returned => .returned
  | .exited f => .exited f
  | .threw e _ => .threw e

/-- `parseT` is `parse` with texts. -/
theorem parseT_forget (env : Env W) (wd : Wording) (why : Entry W → Val → W → Str) (g : Prog W) :
    ((parseT env wd why g).1.forget, (parseT env wd why g).2) = parse env g := by
  unfold parseT parse
  by_cases hc : g.parser.parseWasCalled = true
  · rw [if_pos hc, if_pos hc]; rfl
  · rw [if_neg hc, if_neg hc, ← verifyNamesT_forget]
    cases verifyNamesT { g.parser with parseWasCalled := true } with
    | err e t p => rfl
    | ok u p =>
      dsimp only [TRes.forget]
      rw [← determineFormatT_forget]
      cases determineFormatT env.ndebug p with
      | err e t p => rfl
      | ok f p =>
        dsimp only [TRes.forget]
        unfold checkAndParseT checkAndParse
        dsimp only
        cases hv : env.versionCheck p.appName p.notify p.userDecision g.world with
        | mk o w =>
          cases o with
          | some e => rfl
          | none =>
            dsimp only
            have hpage : ∀ f, ((match env.printPage f p g.store w with
                | (some e, w) => ((TOutcome.threw e none, { parser := p, store := g.store, world := w }) : TOutcome × Prog W)
                | (none, w) => (TOutcome.exited f, { parser := p, store := g.store, world := w })).1.forget,
                (match env.printPage f p g.store w with
                | (some e, w) => ((TOutcome.threw e none, { parser := p, store := g.store, world := w }) : TOutcome × Prog W)
                | (none, w) => (TOutcome.exited f, { parser := p, store := g.store, world := w })).2) =
                (match env.printPage f p g.store w with
                | (some e, w) => ((Outcome.threw e, { parser := p, store := g.store, world := w }) : Outcome × Prog W)
                | (none, w) => (Outcome.exited f, { parser := p, store := g.store, world := w })) := by
              intro f
              cases env.printPage f p g.store w with
              | mk o w => cases o <;> rfl
            cases f with
            | parse =>
              unfold parseFormatT parseFormat
              dsimp only
              rw [← textDeclsOf_forget why p.operations, ← formatParseT_forget wd]
              cases formatParseT wd env.ndebug (textDeclsOf why p.operations) p.formatArguments g.store w <;> rfl
            | _ => exact hpage _

end Sharg
