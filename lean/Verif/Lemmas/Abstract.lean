import Verif.Lemmas.Positional

/-!
# Parsing without cells

`absOption` is what `get_option` does to the variables and the world, including exceptions, as a function of the texts
found for the two identifiers. The other phases depend only on the non-empty remaining arguments.
-/

set_option linter.unusedSimpArgs false

namespace Sharg

open Spec

variable {W : Type}

/-- Variables and world. -/
abbrev Core (W : Type) := Store × W

def FState.core (s : FState W) : Core W := (s.store, s.world)

def Res.core {α : Type} : Res (FState W) α → Res (Core W) α
  | .ok a s => .ok a s.core
  | .err e s => .err e s.core

/-- Run something that does not look at the arguments. -/
def lift {α : Type} (m : FM W α) : M (Core W) α := fun c => (m ⟨[], [], c.1, c.2⟩).core

theorem assignScalar_core (nd : Bool) (ty : ElemTy) (x : VarId) (t : Str) (s : FState W) :
    (assignScalar nd ty x t s).core = lift (assignScalar nd ty x t) s.core := by
  unfold lift assignScalar FState.core
  cases parseElem ty t with
  | error e => rfl
  | ok r =>
    obtain ⟨res, written⟩ := r
    cases written <;> simp only [M.do_bind, M.bind_run, setVar_run, M.pure_run] <;>
      cases throwOnInputError nd ty.isArithmetic res <;> rfl

theorem assignScalar_state (nd : Bool) (ty : ElemTy) (x : VarId) (t : Str) (s s' : FState W) (u : Unit)
    (h : assignScalar nd ty x t s = .ok u s') : s'.pre = s.pre ∧ s'.post = s.post := by
  obtain ⟨e, _, rfl⟩ := (assignScalar_ok nd ty x t s s' u).1 h
  exact ⟨rfl, rfl⟩

theorem appendList_core (nd : Bool) (ty : ElemTy) (x : VarId) (t : Str) (s : FState W) :
    (appendList nd ty x t s).core = lift (appendList nd ty x t) s.core := by
  unfold lift appendList FState.core
  cases parseElem ty t with
  | error e => rfl
  | ok r =>
    obtain ⟨res, written⟩ := r
    simp only [M.do_bind, M.bind_run]
    cases res <;> simp only [if_true, if_false, M.modify_run, M.do_pure, M.pure_run, reduceCtorEq] <;>
      cases nd <;> rfl

theorem appendList_state (nd : Bool) (ty : ElemTy) (x : VarId) (t : Str) (s s' : FState W) (u : Unit)
    (h : appendList nd ty x t s = .ok u s') : s'.pre = s.pre ∧ s'.post = s.post := by
  unfold appendList at h
  cases hp : parseElem ty t with
  | error e => simp [hp] at h
  | ok r =>
    obtain ⟨res, written⟩ := r
    simp only [hp, M.do_bind] at h
    cases res <;> cases nd <;> simp [throwOnInputError, throwIf, M.do_pure, M.bind_run] at h <;>
      rw [← h] <;> exact ⟨rfl, rfl⟩

theorem validate_state (f : Val → W → Bool × W) (x : VarId) (s s' : FState W) (u : Unit)
    (h : validate f x s = .ok u s') : s'.pre = s.pre ∧ s'.post = s.post := by
  obtain ⟨w, _, rfl⟩ := (validate_ok f x s s' u).1 h
  exact ⟨rfl, rfl⟩

theorem validate_core (f : Val → W → Bool × W) (x : VarId) (s : FState W) :
    (validate f x s).core = lift (validate f x) s.core := by
  unfold lift validate FState.core
  dsimp only
  cases f (s.store x) s.world with
  | mk b w => cases b <;> rfl

theorem core_bind {α β : Type} (m : FM W α) (f : α → FM W β) (s : FState W) (m' : M (Core W) α) (f' : α → M (Core W) β)
    (h1 : (m s).core = m' s.core) (h2 : ∀ a s', m s = .ok a s' → (f a s').core = f' a s'.core) :
    (M.bind m f s).core = M.bind m' f' s.core := by
  rw [M.bind_run, M.bind_run, ← h1]
  cases hm : m s with
  | ok a s' => simp only [Res.core]; exact h2 a s' hm
  | err e s' => rfl

/-- What a scalar option does with the texts found for one identifier. -/
def absScalar (nd : Bool) (ty : ElemTy) (x : VarId) : List Str → M (Core W) Bool
  | [] => M.pure false
  | [v] => M.bind (lift (assignScalar nd ty x v)) fun _ => M.pure true
  | v :: _ :: _ => M.bind (lift (assignScalar nd ty x v)) fun _ => M.throw .optionDeclaredMultipleTimes

/-- The same for a list option. -/
def absList (nd : Bool) (ty : ElemTy) (x : VarId) : List Str → M (Core W) Bool
  | [] => M.pure false
  | v :: vs => M.bind (lift (setVar x (.many []))) fun _ =>
      M.bind (M.forEach (fun t => lift (appendList nd ty x t)) (v :: vs)) fun _ => M.pure true

def absById (nd : Bool) (d : OptDecl W) (vals : List Str) : M (Core W) Bool :=
  if d.isList then absList nd d.ty d.var vals else absScalar nd d.ty d.var vals

/-- What `get_option` does with the texts found for the short and the long identifier. -/
def absOption (nd : Bool) (d : OptDecl W) (v1 v2 : List Str) : M (Core W) Unit :=
  M.bind (absById nd d v1) fun a =>
  M.bind (absById nd d v2) fun b =>
  if a && b && !d.isList then M.throw .optionDeclaredMultipleTimes
  else if a || b then lift (validate d.validator d.var)
  else if d.required then M.throw .requiredOptionMissing
  else M.pure ()

theorem scalar_core (nd : Bool) (ty : ElemTy) (x : VarId) (id : Id) (s : FState W) (vals l' : List Str)
    (hc : consumeId id s.pre = some (vals, l')) :
    (getOptionByIdScalar nd ty x id s).core = absScalar nd ty x vals s.core := by
  unfold getOptionByIdScalar
  cases hf : findOptionId id s.pre with
  | mk front back =>
    obtain ⟨hl, hfront, hback⟩ := findOptionId_spec id s.pre front back hf
    cases back with
    | nil =>
      have hc' : consumeId id s.pre = some ([], s.pre) := by
        unfold consumeId
        split
        · rfl
        · rename_i he
          apply consumeAll_none_hit
          simp at he
          rw [hl]
          simpa using hfront he
      rw [hc] at hc'
      simp only [Option.some.injEq, Prod.mk.injEq] at hc'
      obtain ⟨rfl, rfl⟩ := hc'
      rfl
    | cons a rest =>
      obtain ⟨he, ha⟩ := hback a rfl
      have hc' : consumeId id s.pre = (consumeAll id (a :: rest)).map fun p => (p.1, front ++ p.2) := by
        unfold consumeId
        simp only [he, Bool.false_eq_true, if_false]
        conv => lhs; rw [hl]
        exact consumeAll_skip id front _ (hfront he)
      rw [hc', consumeAll_hit id a rest ha] at hc
      dsimp only
      cases hr : retrieve id a rest with
      | error e => simp [hr] at hc
      | ok r =>
        obtain ⟨text, blanks, rest'⟩ := r
        simp only [hr, Option.map_eq_some_iff] at hc
        obtain ⟨_, ⟨⟨vs, l2⟩, h3, rfl⟩, h4⟩ := hc
        simp only [Prod.mk.injEq] at h4
        obtain ⟨rfl, rfl⟩ := h4
        dsimp only
        rw [M.bind_run, setPre_run]
        dsimp only
        cases vs with
        | nil =>
          obtain ⟨rfl, hno⟩ := consumeAll_vals_nil id _ _ h3
          have : (findOptionId id l2).2 = [] := (findOptionId_nil_iff id l2).2 (Or.inr hno)
          simp only [absScalar]
          refine core_bind _ _ _ _ _ (assignScalar_core nd ty x text _) (fun u s' h => ?_)
          cases hf2 : findOptionId id l2 with
          | mk front2 back2 =>
            rw [hf2] at this
            simp at this
            subst this
            rfl
        | cons v vs =>
          have : (findOptionId id rest').2 ≠ [] := by
            intro h
            rcases (findOptionId_nil_iff id rest').1 h with h | h
            · rw [he] at h; cases h
            · rw [consumeAll_none_hit id rest' h] at h3
              simp at h3
          simp only [absScalar]
          refine core_bind _ _ _ _ _ (assignScalar_core nd ty x text _) (fun u s' h => ?_)
          cases hf2 : findOptionId id rest' with
          | mk front2 back2 =>
            rw [hf2] at this
            cases back2 with
            | nil => exact absurd rfl this
            | cons b2 r2 => rfl

theorem collect_core (nd : Bool) (ty : ElemTy) (x : VarId) (id : Id) :
    ∀ (n : Nat) (l front : List Str) (s : FState W) (vals l' : List Str), l.length ≤ n →
      consumeAll id l = some (vals, l') →
      (collect nd ty x id front l s).core = M.forEach (fun t => lift (appendList nd ty x t)) vals s.core := by
  intro n
  induction n with
  | zero =>
    intro l front s vals l' hn hc
    have : l = [] := by simpa using hn
    subst this
    simp [consumeAll] at hc
    obtain ⟨rfl, rfl⟩ := hc
    rfl
  | succ n ih =>
    intro l front s vals l' hn hc
    cases l with
    | nil =>
      simp [consumeAll] at hc
      obtain ⟨rfl, rfl⟩ := hc
      rfl
    | cons a rest =>
      have hr : rest.length ≤ n := by simpa using hn
      rw [collect.eq_def]
      rw [consumeAll.eq_def] at hc
      by_cases hh : id.hits a = true
      · simp only [hh, if_true] at hc ⊢
        by_cases hl : id.dashed.length < a.length
        · simp only [hl, if_true] at hc ⊢
          rw [retrieve_inline id a rest hl]
          cases hi : inlineVal id a with
          | none => simp [hi] at hc
          | some v =>
            simp only [hi, Option.map_eq_some_iff] at hc
            obtain ⟨⟨vs, l''⟩, hc, hp⟩ := hc
            simp only [Prod.mk.injEq] at hp
            obtain ⟨rfl, rfl⟩ := hp
            exact core_bind _ _ _ _ _ (appendList_core nd ty x v s) (fun u s' h => ih rest _ _ _ _ hr hc)
        · simp only [hl, if_false] at hc ⊢
          cases rest with
          | nil => simp at hc
          | cons v rest' =>
            have hr' : rest'.length ≤ n := by simp at hr; omega
            simp only [Option.map_eq_some_iff] at hc
            obtain ⟨⟨vs, l''⟩, hc, hp⟩ := hc
            simp only [Prod.mk.injEq] at hp
            obtain ⟨rfl, rfl⟩ := hp
            exact core_bind _ _ _ _ _ (appendList_core nd ty x v s) (fun u s' h => ih rest' _ _ _ _ hr' hc)
      · simp only [hh] at hc ⊢
        simp only [Bool.false_eq_true, if_false, Option.map_eq_some_iff] at hc ⊢
        obtain ⟨⟨vs, l''⟩, hc, hp⟩ := hc
        simp only [Prod.mk.injEq] at hp
        obtain ⟨rfl, rfl⟩ := hp
        exact ih rest _ _ _ _ hr hc

theorem list_core (nd : Bool) (ty : ElemTy) (x : VarId) (id : Id) (s : FState W) (vals l' : List Str)
    (hc : consumeId id s.pre = some (vals, l')) :
    (getOptionByIdList nd ty x id s).core = absList nd ty x vals s.core := by
  unfold getOptionByIdList
  cases hf : findOptionId id s.pre with
  | mk front back =>
    obtain ⟨hl, hfront, hback⟩ := findOptionId_spec id s.pre front back hf
    cases back with
    | nil =>
      have hc' : consumeId id s.pre = some ([], s.pre) := by
        unfold consumeId
        split
        · rfl
        · rename_i he
          apply consumeAll_none_hit
          simp at he
          rw [hl]
          simpa using hfront he
      rw [hc] at hc'
      simp only [Option.some.injEq, Prod.mk.injEq] at hc'
      obtain ⟨rfl, rfl⟩ := hc'
      rfl
    | cons a rest =>
      obtain ⟨he, ha⟩ := hback a rfl
      have hc' : consumeAll id s.pre = some (vals, l') := by
        unfold consumeId at hc
        simpa [he] using hc
      cases vals with
      | nil =>
        have := (consumeAll_vals_nil id _ _ hc').2 a (by rw [hl]; simp)
        simp [ha] at this
      | cons v vs =>
        simp only [absList]
        refine core_bind _ _ _ _ _ rfl (fun u s' h => ?_)
        rw [setVar_run] at h
        cases h
        exact core_bind _ _ _ _ _ (collect_core nd ty x id _ _ _ _ _ _ (Nat.le_refl _) hc') (fun u s' h => rfl)

theorem byId_core (nd : Bool) (d : OptDecl W) (id : Id) (s : FState W) (vals l' : List Str)
    (hc : consumeId id s.pre = some (vals, l')) :
    (getOptionById nd d id s).core = absById nd d vals s.core := by
  unfold getOptionById absById
  split
  · exact list_core nd d.ty d.var id s vals l' hc
  · exact scalar_core nd d.ty d.var id s vals l' hc

theorem byId_pre (nd : Bool) (d : OptDecl W) (id : Id) (s s' : FState W) (b : Bool) (vals l' : List Str)
    (hc : consumeId id s.pre = some (vals, l')) (h : getOptionById nd d id s = .ok b s') :
    s'.pre = l' ∧ s'.post = s.post := by
  obtain ⟨vals', l2, hc', h'⟩ := (getOptionById_ok nd d id b s s').1 h
  rw [hc] at hc'
  simp only [Option.some.injEq, Prod.mk.injEq] at hc'
  obtain ⟨rfl, rfl⟩ := hc'
  rcases h' with ⟨rfl, _, rfl⟩ | ⟨val, _, _, _, rfl⟩
  · exact ⟨(consumeId_vals_nil _ _ _ hc).symm, rfl⟩
  · exact ⟨rfl, rfl⟩

/-- `get_option` in terms of the texts found. -/
theorem getOption_core (nd : Bool) (d : OptDecl W) (s : FState W) (v1 l1 v2 l2 : List Str)
    (h1 : consumeId (.short d.short) s.pre = some (v1, l1)) (h2 : consumeId (.long d.long) l1 = some (v2, l2)) :
    (getOption nd d s).core = absOption nd d v1 v2 s.core ∧
    ∀ u s', getOption nd d s = .ok u s' → s'.pre = l2 ∧ s'.post = s.post := by
  constructor
  · unfold getOption absOption
    refine core_bind _ _ _ _ _ (byId_core nd d _ s v1 l1 h1) (fun a s1 hs1 => ?_)
    obtain ⟨p1, _⟩ := byId_pre nd d _ s s1 a v1 l1 h1 hs1
    refine core_bind _ _ _ _ _ (byId_core nd d _ s1 v2 l2 (by rw [p1]; exact h2)) (fun b s2 hs2 => ?_)
    split
    · rfl
    · split
      · exact validate_core _ _ _
      · split <;> rfl
  · intro u s' h
    obtain ⟨v1', l1', v2', l2', e1, e2, h3⟩ := (getOption_ok nd d s s' u).1 h
    rw [h1] at e1
    simp only [Option.some.injEq, Prod.mk.injEq] at e1
    obtain ⟨rfl, rfl⟩ := e1
    rw [h2] at e2
    simp only [Option.some.injEq, Prod.mk.injEq] at e2
    obtain ⟨rfl, rfl⟩ := e2
    rcases h3 with ⟨rfl, rfl, _, rfl⟩ | ⟨_, val, w, _, _, rfl⟩
    · rw [← consumeId_vals_nil _ _ _ h1, ← consumeId_vals_nil _ _ _ h2]; exact ⟨rfl, rfl⟩
    · exact ⟨rfl, rfl⟩

/-! ### The phases behind the options depend on the non-empty arguments only -/

/-- The same up to empty arguments. -/
structure Alike (s t : FState W) : Prop where
  pre : remaining s.pre = remaining t.pre
  post : s.post = t.post
  store : s.store = t.store
  world : s.world = t.world

theorem Alike.core {s t : FState W} (h : Alike s t) : s.core = t.core := by
  unfold FState.core; rw [h.store, h.world]

/-- Results are the same up to empty arguments. -/
def AlikeRes {α : Type} : Res (FState W) α → Res (FState W) α → Prop
  | .ok a s, .ok b t => a = b ∧ Alike s t
  | .err e s, .err f t => e = f ∧ s.core = t.core
  | _, _ => False

theorem AlikeRes.core {α : Type} {r q : Res (FState W) α} (h : AlikeRes r q) : r.core = q.core := by
  cases r <;> cases q <;> simp only [AlikeRes] at h
  · obtain ⟨rfl, h⟩ := h; simp [Res.core, h.core]
  · obtain ⟨rfl, h⟩ := h; simp [Res.core, h]

theorem alike_bind {α β : Type} (m : FM W α) (f : α → FM W β) (s t : FState W) (h1 : AlikeRes (m s) (m t))
    (h2 : ∀ a s' t', Alike s' t' → AlikeRes (f a s') (f a t')) : AlikeRes (M.bind m f s) (M.bind m f t) := by
  rw [M.bind_run, M.bind_run]
  cases hs : m s <;> cases ht : m t <;> rw [hs, ht] at h1 <;> simp only [AlikeRes] at h1
  · obtain ⟨rfl, h⟩ := h1; exact h2 _ _ _ h
  · exact h1

theorem remaining_cons_nil (l : List Str) : remaining ([] :: l) = remaining l := by simp [remaining]
theorem remaining_cons (a : Str) (l : List Str) (h : a ≠ []) : remaining (a :: l) = a :: remaining l := by
  simp [remaining, h]

theorem flagShort_remaining (c : Char) (l : List Str) :
    (flagShort c l).map remaining = (flagShort c (remaining l)).map remaining := by
  induction l with
  | nil => rfl
  | cons a l ih =>
    by_cases ha : a = []
    · subst ha
      rw [remaining_cons_nil, ← ih]
      simp only [flagShort, flagCell]
      cases flagShort c l <;> simp [remaining_cons_nil]
    · rw [remaining_cons a l ha]
      simp only [flagShort]
      cases hc : flagCell c a with
      | some a' =>
        have : remaining (remaining l) = remaining l := by simp [remaining]
        by_cases ha' : a' = []
        · subst ha'; simp [remaining_cons_nil, this]
        · simp [remaining_cons _ _ ha', this]
      | none =>
        cases h1 : flagShort c l <;> cases h2 : flagShort c (remaining l) <;> rw [h1, h2] at ih <;>
          simp at ih ⊢
        rw [remaining_cons _ _ ha, remaining_cons _ _ ha, ih]

theorem flagLong_remaining (s : Str) (l : List Str) :
    (flagLong s l).map remaining = (flagLong s (remaining l)).map remaining := by
  induction l with
  | nil => rfl
  | cons a l ih =>
    by_cases ha : a = []
    · subst ha
      rw [remaining_cons_nil, ← ih]
      simp only [flagLong]
      rw [if_neg (by simp [Id.dashed])]
      cases flagLong s l <;> simp [remaining_cons_nil]
    · rw [remaining_cons a l ha]
      simp only [flagLong]
      split
      · have : remaining (remaining l) = remaining l := by simp [remaining]
        simp [remaining_cons_nil, this]
      · cases h1 : flagLong s l <;> cases h2 : flagLong s (remaining l) <;> rw [h1, h2] at ih <;>
          simp at ih ⊢
        rw [remaining_cons _ _ ha, remaining_cons _ _ ha, ih]

theorem getFlag_alike (f : FlagDecl) (s t : FState W) (h : Alike s t) : AlikeRes (getFlag f s) (getFlag f t) := by
  have h1 : (flagShort f.short s.pre).map remaining = (flagShort f.short t.pre).map remaining := by
    rw [flagShort_remaining, h.pre, ← flagShort_remaining]
  have h2 : (flagLong f.long s.pre).map remaining = (flagLong f.long t.pre).map remaining := by
    rw [flagLong_remaining, h.pre, ← flagLong_remaining]
  unfold getFlag
  cases e1 : flagShort f.short s.pre <;> cases e2 : flagShort f.short t.pre <;> rw [e1, e2] at h1 <;> simp at h1
  · dsimp only
    rw [h.post]
    cases e3 : flagShort f.short t.post with
    | some post' => exact ⟨rfl, h.pre, rfl, by rw [h.store], h.world⟩
    | none =>
      dsimp only
      cases e4 : flagLong f.long s.pre <;> cases e5 : flagLong f.long t.pre <;> rw [e4, e5] at h2 <;> simp at h2
      · exact ⟨rfl, h⟩
      · exact ⟨rfl, h2, rfl, by rw [h.store], h.world⟩
  · exact ⟨rfl, h1, h.post, by rw [h.store], h.world⟩

theorem flags_alike (fs : List FlagDecl) (s t : FState W) (h : Alike s t) :
    AlikeRes (M.forEach getFlag fs s) (M.forEach getFlag fs t) := by
  induction fs generalizing s t with
  | nil => exact ⟨rfl, h⟩
  | cons f fs ih =>
    rw [M.forEach_cons]
    exact alike_bind _ _ _ _ (getFlag_alike f s t h) (fun _ s' t' h' => ih s' t' h')

theorem any_looksLikeId_remaining (l : List Str) : l.any looksLikeId = (remaining l).any looksLikeId := by
  induction l with
  | nil => rfl
  | cons a l ih =>
    by_cases ha : a = []
    · subst ha; rw [remaining_cons_nil, ← ih]; simp [looksLikeId]
    · rw [remaining_cons _ _ ha]; simp [ih]

theorem checkForUnknownIds_alike (s t : FState W) (h : Alike s t) :
    AlikeRes (checkForUnknownIds s) (checkForUnknownIds t) := by
  unfold checkForUnknownIds
  rw [any_looksLikeId_remaining s.pre, any_looksLikeId_remaining t.pre, h.pre]
  split
  · exact ⟨rfl, h.core⟩
  · exact ⟨rfl, h⟩

theorem fillList_alike (nd : Bool) (ty : ElemTy) (x : VarId) (l : List Str) :
    ∀ (front : List Str) (s : FState W),
      (fillList nd ty x front l s).core =
        M.forEach (fun t => lift (appendList nd ty x t)) (remaining l) s.core ∧
      ∀ u s', fillList nd ty x front l s = .ok u s' → remaining s'.pre = remaining front ∧ s'.post = s.post := by
  induction l with
  | nil =>
    intro front s
    refine ⟨rfl, ?_⟩
    intro u s' h
    simp only [fillList, setPre_run] at h
    cases h
    exact ⟨rfl, rfl⟩
  | cons a l ih =>
    intro front s
    unfold fillList
    by_cases ha : a = []
    · subst ha
      rw [if_pos rfl, remaining_cons_nil]
      refine ⟨(ih _ s).1, fun u s' h => ?_⟩
      obtain ⟨h1, h2⟩ := (ih _ s).2 u s' h
      exact ⟨by rw [h1, remaining_append]; simp [remaining], h2⟩
    · rw [if_neg ha, remaining_cons _ _ ha, M.forEach_cons]
      constructor
      · exact core_bind _ _ _ _ _ (appendList_core nd ty x a s) (fun u s' h => (ih _ s').1)
      · intro u s' h
        rw [M.bind_eq_ok] at h
        obtain ⟨u1, s1, h1, h2⟩ := h
        obtain ⟨h3, h4⟩ := (ih _ s1).2 u s' h2
        refine ⟨by rw [h3, remaining_append]; simp [remaining], ?_⟩
        rw [h4]
        exact (appendList_state nd ty x a s s1 u1 h1).2

/-- `get_positional_option` in terms of the remaining arguments. -/
def absPositional (nd last : Bool) (d : PosDecl W) : List Str → M (Core W) Unit
  | [] => M.throw .tooFewArguments
  | t :: ts =>
    if d.isList then
      if !nd && !last then M.throw .assertFailed
      else
        M.bind (lift (setVar d.var (.many []))) fun _ =>
        M.bind (M.forEach (fun t => lift (appendList nd d.ty d.var t)) (t :: ts)) fun _ =>
        lift (validate d.validator d.var)
    else M.bind (lift (assignScalar nd d.ty d.var t)) fun _ => lift (validate d.validator d.var)

theorem getPositional_core (nd last : Bool) (d : PosDecl W) (s : FState W) :
    (getPositional nd last d s).core = absPositional nd last d (remaining s.pre) s.core ∧
    ∀ u s', getPositional nd last d s = .ok u s' →
      remaining s'.pre = (if d.isList then [] else (remaining s.pre).drop 1) ∧ s'.post = s.post := by
  rcases dropWhile_blank s.pre with ⟨h1, h2⟩ | ⟨a, rest, h1, h2, h3⟩
  · unfold getPositional
    rw [h1, h2]
    exact ⟨rfl, fun u s' h => by simp at h⟩
  · cases hl : d.isList with
    | true =>
      constructor
      · unfold getPositional absPositional
        rw [h1, h3]
        simp only [hl, if_true]
        cases hb : (!nd && !last) with
        | true => rfl
        | false =>
          simp only [Bool.false_eq_true, if_false]
          refine core_bind _ _ _ _ _ rfl (fun u s1 hs1 => ?_)
          have := (fillList_alike nd d.ty d.var s.pre [] s1).1
          rw [h3] at this
          refine core_bind _ _ _ _ _ this (fun u s2 hs2 => validate_core _ _ _)
      · intro u s' h
        obtain ⟨_, _, es, w, _, _, rfl⟩ := (getPositional_list_ok nd last d hl s s' u).1 h
        simp [remaining_blanks]
    | false =>
      constructor
      · unfold getPositional absPositional
        rw [h1, h3]
        simp only [hl, Bool.false_eq_true, if_false]
        refine core_bind _ _ _ _ _ (assignScalar_core nd d.ty d.var a s) (fun u s1 hs1 => ?_)
        rw [M.bind_run, setPre_run]
        exact validate_core _ _ _
      · intro u s' h
        obtain ⟨t, ts, e, w, pre', h4, _, _, _, hrem, rfl⟩ := (getPositional_scalar_ok nd last d hl s s' u).1 h
        rw [h4]
        exact ⟨by simpa using hrem, rfl⟩

/-- The positional options and the check for left-over arguments, in terms of the remaining arguments. -/
def absPositionals (nd : Bool) : List (PosDecl W) → List Str → M (Core W) Unit
  | [], [] => M.pure ()
  | [], _ :: _ => M.throw .tooManyArguments
  | d :: ds, ts => M.bind (absPositional nd ds.isEmpty d ts) fun _ =>
      absPositionals nd ds (if d.isList then [] else ts.drop 1)

theorem leftOver_core (s : FState W) :
    (checkForLeftOverArgs s).core = absPositionals false [] (remaining s.pre) s.core := by
  unfold checkForLeftOverArgs
  cases h : remaining s.pre with
  | nil =>
    rw [if_neg]
    · rfl
    · simp only [remaining, List.filter_eq_nil_iff] at h
      simpa using h
  | cons a l =>
    have ha : a ∈ s.pre ∧ a ≠ [] := by
      have : a ∈ remaining s.pre := by rw [h]; simp
      simpa [remaining] using this
    rw [if_pos (by simp; exact ⟨a, ha⟩)]
    rfl

theorem positionals_core (nd : Bool) (ds : List (PosDecl W)) (s : FState W) :
    (M.bind (runPositionals nd ds) (fun _ => checkForLeftOverArgs) s).core =
      absPositionals nd ds (remaining s.pre) s.core := by
  induction ds generalizing s with
  | nil =>
    rw [M.bind_run]
    simp only [runPositionals, M.pure_run]
    rw [leftOver_core]
    cases remaining s.pre <;> rfl
  | cons d ds ih =>
    have : M.bind (runPositionals nd (d :: ds)) (fun _ => checkForLeftOverArgs) s =
        M.bind (getPositional nd ds.isEmpty d)
          (fun _ => M.bind (runPositionals nd ds) (fun _ => checkForLeftOverArgs)) s := by
      simp only [runPositionals, M.bind_run]
      cases getPositional nd ds.isEmpty d s <;> rfl
    rw [this]
    simp only [absPositionals]
    refine core_bind _ _ _ _ _ (getPositional_core nd _ d s).1 (fun u s1 hs1 => ?_)
    rw [ih, ((getPositional_core nd _ d s).2 u s1 hs1).1]

/-- `format_parse::parse` behind the options (format_parse.hpp lines 114-126). -/
def parseRest (nd : Bool) (D : Decls W) : FM W Unit :=
  M.bind (M.forEach getFlag D.flags) fun _ =>
  M.bind checkForUnknownIds fun _ =>
  M.bind blankEndOfOptions fun _ =>
  M.bind (runPositionals nd D.positionals) fun _ =>
  checkForLeftOverArgs

theorem parseRest_alike (nd : Bool) (D : Decls W) (s t : FState W) (h : Alike s t) :
    (parseRest nd D s).core = (parseRest nd D t).core := by
  unfold parseRest
  have key : ∀ (m : FM W Unit) (f : Unit → FM W Unit) (s t : FState W), AlikeRes (m s) (m t) →
      (∀ u s t, Alike s t → (f u s).core = (f u t).core) → (M.bind m f s).core = (M.bind m f t).core := by
    intro m f s t h1 h2
    rw [M.bind_run, M.bind_run]
    cases hs : m s <;> cases ht : m t <;> rw [hs, ht] at h1 <;> simp only [AlikeRes] at h1
    · exact h2 _ _ _ h1.2
    · obtain ⟨rfl, h1⟩ := h1; simp [Res.core, h1]
  refine key _ _ _ _ (flags_alike D.flags s t h) (fun _ s t h => ?_)
  refine key _ _ _ _ (checkForUnknownIds_alike s t h) (fun _ s t h => ?_)
  have hb : AlikeRes (blankEndOfOptions s) (blankEndOfOptions t) := by
    refine ⟨rfl, ?_, rfl, h.store, h.world⟩
    simp only [remaining_append, h.pre, h.post]
  refine key _ _ _ _ hb (fun _ s t h => ?_)
  rw [positionals_core, positionals_core, h.pre, h.core]

theorem parseBody_eq (nd : Bool) (D : Decls W) :
    parseBody nd D = M.bind (M.forEach (getOption nd) D.options) fun _ => parseRest nd D := rfl

end Sharg
