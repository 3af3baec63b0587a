import Verif.Model.FormatParse

/-!
# Lemmas about the monad and about finding option identifiers
-/

namespace Sharg

@[simp] theorem M.pure_run {σ α : Type} (a : α) (s : σ) : M.pure a s = .ok a s := rfl
@[simp] theorem M.throw_run {σ α : Type} (e : Exn) (s : σ) : (M.throw e : M σ α) s = .err e s := rfl
@[simp] theorem M.modify_run {σ : Type} (f : σ → σ) (s : σ) : M.modify f s = .ok () (f s) := rfl
theorem M.bind_run {σ α β : Type} (m : M σ α) (f : α → M σ β) (s : σ) :
    M.bind m f s = match m s with
      | .ok a s' => f a s'
      | .err e s' => .err e s' := rfl

@[simp] theorem M.bind_eq_ok {σ α β : Type} (m : M σ α) (f : α → M σ β) (s : σ) (b : β) (s' : σ) :
    M.bind m f s = .ok b s' ↔ ∃ a s₁, m s = .ok a s₁ ∧ f a s₁ = .ok b s' := by
  unfold M.bind
  cases h : m s with
  | ok a s₁ =>
    constructor
    · intro h; exact ⟨a, s₁, rfl, h⟩
    · rintro ⟨a', s', h1, h2⟩; cases h1; exact h2
  | err e s₁ => simp

theorem M.do_bind {σ α β : Type} (m : M σ α) (f : α → M σ β) : (m >>= f) = M.bind m f := rfl
theorem M.do_pure {σ α : Type} (a : α) : (pure a : M σ α) = M.pure a := rfl

@[simp] theorem M.forEach_nil {σ α : Type} (f : α → M σ Unit) : M.forEach f [] = M.pure () := rfl
@[simp] theorem M.forEach_cons {σ α : Type} (f : α → M σ Unit) (a : α) (l : List α) :
    M.forEach f (a :: l) = M.bind (f a) fun _ => M.forEach f l := rfl

@[simp] theorem Store.set_self (st : Store) (x : VarId) (v : Val) : st.set x v x = v := by
  simp [Store.set]

theorem Store.set_ne (st : Store) {x y : VarId} (v : Val) (h : y ≠ x) : st.set x v y = st y := by
  simp [Store.set, h]

@[simp] theorem Store.set_set (st : Store) (x : VarId) (v w : Val) : (st.set x v).set x w = st.set x w := by
  funext y; by_cases h : y = x <;> simp [Store.set, h]

@[simp] theorem throwIf_ok {W : Type} (o : Option Exn) (s s' : FState W) (u : Unit) :
    throwIf o s = .ok u s' ↔ o = none ∧ s = s' := by
  cases o <;> simp [throwIf]

@[simp] theorem setPre_run {W : Type} (l : List Str) (s : FState W) :
    setPre l s = .ok () { s with pre := l } := rfl

@[simp] theorem setVar_run {W : Type} (x : VarId) (v : Val) (s : FState W) :
    setVar x v s = .ok () { s with store := s.store.set x v } := rfl

/-! ### Identifiers -/

theorem Id.dashed_ne_nil (id : Id) : id.dashed ≠ [] := by cases id <;> simp [Id.dashed]

theorem Id.hits_take (id : Id) (a : Str) (h : id.hits a = true) : a.take id.dashed.length = id.dashed := by
  cases id <;> simp_all [Id.hits]

theorem Id.hits_length (id : Id) (a : Str) (h : id.hits a = true) : id.dashed.length ≤ a.length := by
  have := congrArg List.length (Id.hits_take id a h)
  simp at this; omega

theorem Id.hits_decomp (id : Id) (a : Str) (h : id.hits a = true) :
    a = id.dashed ++ a.drop id.dashed.length := by
  conv => lhs; rw [← List.take_append_drop id.dashed.length a, Id.hits_take id a h]

@[simp] theorem Id.not_hits_nil (id : Id) : id.hits [] = false := by
  cases id <;> simp [Id.hits, Id.dashed]

/-- A found argument is either exactly the identifier or longer. -/
theorem Id.hits_exact (id : Id) (a : Str) (h : id.hits a = true) (hl : ¬ id.dashed.length < a.length) :
    a = id.dashed := by
  have h1 := Id.hits_decomp id a h
  have h2 : a.drop id.dashed.length = [] := by
    apply List.drop_eq_nil_of_le; omega
  rw [h2] at h1; simpa using h1

theorem Id.hits_dashed (id : Id) : id.hits id.dashed = true := by
  cases id <;> simp [Id.hits]

theorem Id.hits_short_append (c : Char) (v : Str) : (Id.short c).hits ((Id.short c).dashed ++ v) = true := by
  simp [Id.hits, Id.dashed]

theorem Id.hits_eq_append (id : Id) (v : Str) : id.hits (id.dashed ++ '=' :: v) = true := by
  cases id <;> simp [Id.hits, Id.dashed]

theorem findOptionId_nil_iff (id : Id) (l : List Str) :
    (findOptionId id l).2 = [] ↔ id.isEmpty = true ∨ ∀ a ∈ l, id.hits a = false := by
  unfold findOptionId
  split
  · simp [*]
  · rename_i h
    simp only [h, false_or, Bool.false_eq_true]
    induction l with
    | nil => simp
    | cons a l ih =>
      by_cases ha : id.hits a = true
      · simp [ha]
      · simp at ha; simp [ha, ih]

theorem findOptionId_append (id : Id) (l : List Str) : (findOptionId id l).1 ++ (findOptionId id l).2 = l := by
  unfold findOptionId
  split <;> simp [List.takeWhile_append_dropWhile]

theorem findOptionId_cons (id : Id) (a : Str) (l : List Str) (h : id.isEmpty = false) :
    findOptionId id (a :: l) =
      if id.hits a then ([], a :: l) else (a :: (findOptionId id l).1, (findOptionId id l).2) := by
  unfold findOptionId
  by_cases ha : id.hits a = true
  · simp [h, ha]
  · simp at ha; simp [h, ha]

end Sharg
