import Verif.Lemmas.Success

/-!
# Which exceptions the option parser can throw
-/

set_option linter.unusedSimpArgs false

namespace Sharg

open Spec

variable {W : Type}

/-- The code only throws exceptions with a property. -/
def Throws {α : Type} (P : Exn → Prop) (m : FM W α) : Prop := ∀ s e s', m s = .err e s' → P e

theorem throws_bind {α β : Type} {P : Exn → Prop} {m : FM W α} {f : α → FM W β} (h1 : Throws P m) (h2 : ∀ a, Throws P (f a)) :
    Throws P (M.bind m f) := by
  intro s e s' h
  rw [M.bind_run] at h
  cases hm : m s with
  | ok a s1 => rw [hm] at h; exact h2 a s1 e s' h
  | err e1 s1 => rw [hm] at h; injection h with h _; subst h; exact h1 _ _ _ hm

theorem throws_pure {α : Type} (P : Exn → Prop) (a : α) : Throws (W := W) P (M.pure a) := by
  intro s e s' h; cases h

theorem throws_throw {α : Type} {P : Exn → Prop} {e : Exn} (h : P e) : Throws (W := W) (α := α) P (M.throw e) := by
  intro s e s' h'; cases h'; exact h

theorem throws_modify (P : Exn → Prop) (f : FState W → FState W) : Throws P (M.modify f) := by
  intro s e s' h; cases h

theorem throws_forEach {α : Type} {P : Exn → Prop} {f : α → FM W Unit} (l : List α) (h : ∀ a ∈ l, Throws P (f a)) :
    Throws P (M.forEach f l) := by
  induction l with
  | nil => exact throws_pure P ()
  | cons a l ih =>
    rw [M.forEach_cons]
    exact throws_bind (h a (by simp)) (fun _ => ih (fun b hb => h b (by simp [hb])))

theorem throws_throwIf {P : Exn → Prop} {e : Option Exn} (h : ∀ x, e = some x → P x) : Throws (W := W) P (throwIf e) := by
  cases e with
  | none => exact throws_pure P ()
  | some x => exact throws_throw (h x rfl)

/-- The errors of a user: the parser exceptions other than `design_error`. -/
def Exn.isUserError : Exn → Bool
  | .designError => false
  | e => e.isParserError

theorem Exn.isParserError_of_user {e : Exn} (h : e.isUserError = true) : e.isParserError = true := by
  cases e <;> first | rfl | cases h

/-- Exceptions besides errors of the user that reading a value of the type can throw: `std::out_of_range` for
enumerations without names; a failed assertion for lists of numbers. -/
def ValueExn (nd : Bool) (isList : Bool) (ty : ElemTy) (e : Exn) : Prop :=
  e.isUserError = true ∨ (e = .outOfRange ∧ ty = .enumeration []) ∨
    (e = .assertFailed ∧ nd = false ∧ isList = true ∧ ∃ t, OutOfRange ty t)

theorem parseElem_exn {nd l : Bool} {ty : ElemTy} {t : Str} {e : Exn} (h : parseElem ty t = .error e) : ValueExn nd l ty e := by
  cases ty with
  | enumeration names =>
    simp only [parseElem, parseEnum] at h
    split at h
    · simp at h
    · split at h
      · rename_i he
        simp at he h
        subst he h
        exact Or.inr (Or.inl ⟨rfl, rfl⟩)
      · simp at h; subst h; exact Or.inl rfl
  | _ => simp [parseElem] at h

theorem throws_assignScalar (nd : Bool) (ty : ElemTy) (x : VarId) (t : Str) :
    Throws (W := W) (ValueExn nd false ty) (assignScalar nd ty x t) := by
  unfold assignScalar
  split
  · rename_i e he; exact throws_throw (parseElem_exn he)
  · rename_i res written he
    have ht : ∀ y, throwOnInputError nd ty.isArithmetic res = some y → ValueExn nd false ty y := by
      intro y hy
      cases res with
      | success => simp [throwOnInputError] at hy
      | error => simp [throwOnInputError] at hy; subst hy; exact Or.inl rfl
      | overflowError =>
        simp [throwOnInputError, parseElem_overflow ty t written he] at hy; subst hy; exact Or.inl rfl
    dsimp only
    split
    · exact throws_bind (throws_modify _ _) (fun _ => throws_throwIf ht)
    · exact throws_bind (throws_pure _ _) (fun _ => throws_throwIf ht)

theorem throws_appendList (nd : Bool) (ty : ElemTy) (x : VarId) (t : Str) :
    Throws (W := W) (ValueExn nd true ty) (appendList nd ty x t) := by
  unfold appendList
  split
  · rename_i e he; exact throws_throw (parseElem_exn he)
  · rename_i res written he
    have ht : ∀ y, throwOnInputError nd false res = some y → ValueExn nd true ty y := by
      intro y hy
      cases res with
      | success => simp [throwOnInputError] at hy
      | error => simp [throwOnInputError] at hy; subst hy; exact Or.inl rfl
      | overflowError =>
        cases nd with
        | true => simp [throwOnInputError] at hy
        | false =>
          simp [throwOnInputError] at hy
          subst hy
          exact Or.inr (Or.inr ⟨rfl, rfl, rfl, t, (parseElem_outOfRange ty t).1 ⟨written, he⟩⟩)
    by_cases hr : res = .success
    · dsimp only
      rw [if_pos hr]
      exact throws_bind (throws_modify _ _) (fun _ => throws_throwIf ht)
    · dsimp only
      rw [if_neg hr]
      exact throws_throwIf ht

theorem throws_validate {P : Exn → Prop} (hp : P .validationError) (v : Val → W → Bool × W) (x : VarId) :
    Throws P (validate v x) := by
  intro s e s' h
  unfold validate at h
  split at h
  · cases h
  · cases h; exact hp

theorem retrieve_exn {id : Id} {a : Str} {rest : List Str} {e : Exn} (h : retrieve id a rest = .error e) :
    e = .tooFewArguments := by
  unfold retrieve at h
  split at h
  · split at h
    · split at h
      · simpa using h.symm
      · simp at h
    · simp at h
  · split at h
    · simpa using h.symm
    · simp at h

theorem throws_collect (nd : Bool) (ty : ElemTy) (x : VarId) (id : Id) (n : Nat) :
    ∀ (l front : List Str), l.length ≤ n → Throws (W := W) (ValueExn nd true ty) (collect nd ty x id front l) := by
  induction n with
  | zero =>
    intro l front hl
    cases l with
    | nil => exact throws_modify _ _
    | cons a l => simp at hl
  | succ n ih =>
    intro l front hl
    cases l with
    | nil => exact throws_modify _ _
    | cons a rest =>
      unfold collect
      split
      · split
        · split
          · rename_i e he
            exact throws_throw (Or.inl (by rw [retrieve_exn he]; rfl))
          · exact throws_bind (throws_appendList nd ty x _) (fun _ => ih rest _ (by simpa using hl))
        · split
          · exact throws_throw (Or.inl rfl)
          · exact throws_bind (throws_appendList nd ty x _) (fun _ => ih _ _ (by simp at hl; omega))
      · exact ih rest _ (by simpa using hl)

theorem throws_getOptionById (nd : Bool) (d : OptDecl W) (id : Id) :
    Throws (ValueExn nd d.isList d.ty) (getOptionById nd d id) := by
  unfold getOptionById
  split
  · rename_i hl
    rw [hl]
    intro s e s' h
    unfold getOptionByIdList at h
    split at h
    · cases h
    · exact throws_bind (throws_modify _ _) (fun _ => throws_bind (throws_collect nd d.ty d.var id _ _ _ (Nat.le_refl _))
        (fun _ => throws_pure _ _)) s e s' h
  · rename_i hl
    rw [show d.isList = false by simpa using hl]
    intro s e s' h
    unfold getOptionByIdScalar at h
    split at h
    · cases h
    · split at h
      · rename_i a rest _ _ he
        cases h
        exact Or.inl (by rw [retrieve_exn he]; rfl)
      · refine throws_bind (throws_modify _ _) (fun _ => throws_bind (throws_assignScalar nd d.ty d.var _) (fun _ => ?_)) s e s' h
        split
        · exact throws_pure _ _
        · exact throws_throw (Or.inl rfl)

theorem throws_getOption (nd : Bool) (d : OptDecl W) : Throws (ValueExn nd d.isList d.ty) (getOption nd d) := by
  unfold getOption
  refine throws_bind (throws_getOptionById nd d _) (fun a => throws_bind (throws_getOptionById nd d _) (fun b => ?_))
  split
  · exact throws_throw (Or.inl rfl)
  · split
    · exact throws_validate (Or.inl rfl) _ _
    · split
      · exact throws_throw (Or.inl rfl)
      · exact throws_pure _ _

theorem throws_fillList (nd : Bool) (ty : ElemTy) (x : VarId) (l : List Str) :
    ∀ front, Throws (W := W) (ValueExn nd true ty) (fillList nd ty x front l) := by
  induction l with
  | nil => exact fun front => throws_modify _ _
  | cons a l ih =>
    intro front
    unfold fillList
    split
    · exact ih _
    · exact throws_bind (throws_appendList nd ty x a) (fun _ => ih _)

theorem throws_getPositional (nd last : Bool) (d : PosDecl W) (h : d.isList = true → last = true) :
    Throws (ValueExn nd d.isList d.ty) (getPositional nd last d) := by
  intro s e s' hs
  unfold getPositional at hs
  split at hs
  · cases hs; exact Or.inl rfl
  · cases hl : d.isList with
    | true =>
      rw [hl, h hl] at hs
      simp only [Bool.not_true, Bool.and_false, Bool.false_eq_true, if_false, if_true] at hs
      exact throws_bind (throws_modify _ _) (fun _ => throws_bind (throws_fillList nd d.ty d.var _ _) (fun _ =>
        throws_validate (Or.inl rfl) _ _)) s e s' hs
    | false =>
      rw [hl] at hs
      simp only [Bool.false_eq_true, if_false] at hs
      exact throws_bind (throws_assignScalar nd d.ty d.var _) (fun _ => throws_bind (throws_modify _ _) (fun _ =>
        throws_validate (Or.inl rfl) _ _)) s e s' hs

/-- Exceptions the option parser can throw. -/
def ParseExn (nd : Bool) (D : Decls W) (e : Exn) : Prop :=
  e.isUserError = true ∨ (∃ d ∈ D.options, ValueExn nd d.isList d.ty e) ∨ (∃ d ∈ D.positionals, ValueExn nd d.isList d.ty e)

theorem throws_runPositionals {P : Exn → Prop} (nd : Bool) (ds : List (PosDecl W)) (hlist : ∀ d ∈ ds.dropLast, d.isList = false)
    (hP : ∀ d ∈ ds, ∀ e, ValueExn nd d.isList d.ty e → P e) : Throws P (runPositionals nd ds) := by
  induction ds with
  | nil => exact throws_pure _ _
  | cons d ds ih =>
    unfold runPositionals
    refine throws_bind ?_ (fun _ => ih ?_ (fun e he => hP e (by simp [he])))
    · intro s e s' h
      refine hP d (by simp) e (throws_getPositional nd _ d ?_ s e s' h)
      intro hl
      cases ds with
      | nil => rfl
      | cons x xs => rw [hlist d (by simp)] at hl; cases hl
    · intro e he
      apply hlist
      cases ds with
      | nil => simp at he
      | cons x xs => simp only [List.dropLast_cons_cons, List.mem_cons]; exact Or.inr he

theorem throws_formatParse (nd : Bool) (D : Decls W) (hlist : ∀ d ∈ D.positionals.dropLast, d.isList = false)
    (args : List Str) (st : Store) (w : W) (e : Exn) (s : FState W) (h : formatParse nd D args st w = .err e s) :
    ParseExn nd D e := by
  unfold formatParse at h
  revert h
  apply (show Throws (ParseExn nd D) (parseBody nd D) from ?_)
  unfold parseBody
  refine throws_bind (throws_forEach _ fun d hd => ?_) (fun _ => throws_bind (throws_forEach _ fun f hf => ?_) (fun _ => ?_))
  · intro s e s' h
    exact Or.inr (Or.inl ⟨d, hd, throws_getOption nd d s e s' h⟩)
  · intro s e s' h
    unfold getFlag at h
    split at h
    · cases h
    · split at h
      · cases h
      · split at h <;> cases h
  · refine throws_bind ?_ (fun _ => throws_bind (throws_modify _ _) (fun _ => throws_bind ?_ (fun _ => ?_)))
    · intro s e s' h
      unfold checkForUnknownIds at h
      split at h
      · cases h; exact Or.inl rfl
      · cases h
    · exact throws_runPositionals nd D.positionals hlist (fun d hd e he => Or.inr (Or.inr ⟨d, hd, he⟩))
    · intro s e s' h
      unfold checkForLeftOverArgs at h
      split at h
      · cases h; exact Or.inl rfl
      · cases h

end Sharg
