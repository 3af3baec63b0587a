import Verif.Lemmas.World
import Verif.Lemmas.Account

/-!
# Validators are only called with values from the command line
-/

namespace Sharg

open Spec

variable {W : Type}

/-- A type whose texts are read or rejected: nothing is left unwritten without an error. -/
def Solid (ty : ElemTy) : Prop :=
  ∀ t res w, parseElem ty t = .ok (res, w) → res = .error ∨ (res = .success ∧ ∃ e, w = some e)

/-- The element was read from a text that is part of an argument. -/
def ReadFrom (S : Str → Str → Prop) (A : List Str) (ty : ElemTy) (e : Elem) : Prop :=
  ∃ a ∈ A, ∃ t, S t a ∧ parseElem ty t = .ok (.success, some e)

/-- All elements of the value were. -/
def ValueFrom (S : Str → Str → Prop) (A : List Str) (ty : ElemTy) (v : Val) : Prop :=
  (∃ e, v = .one e ∧ ReadFrom S A ty e) ∨ ∃ es, v = .many es ∧ ∀ e ∈ es, ReadFrom S A ty e

/-- The validator keeps `P`, whatever it is called with, or the type is solid and the validator keeps `P` when called with values from the
arguments. -/
def KeepsOn (P : W → Prop) (S : Str → Str → Prop) (A : List Str) (ty : ElemTy) (v : Val → W → Bool × W) : Prop :=
  ValidatorKeeps P v ∨ (Solid ty ∧ ∀ x w, ValueFrom S A ty x → P w → P (v x w).2)

/-- After an exception `P` holds, otherwise `Q`. -/
def Ends {α : Type} (P : W → Prop) (Q : α → FState W → Prop) : Res (FState W) α → Prop
  | .ok a s => Q a s
  | .err _ s => P s.world

theorem ends_bind {α β : Type} {P : W → Prop} {Q : α → FState W → Prop} {R : β → FState W → Prop} {m : FM W α} {f : α → FM W β}
    {s : FState W} (h1 : Ends P Q (m s)) (h2 : ∀ a s', Q a s' → Ends P R (f a s')) : Ends P R (M.bind m f s) := by
  rw [M.bind_run]
  cases hm : m s with
  | ok a s' => rw [hm] at h1; exact h2 a s' h1
  | err e s' => rw [hm] at h1; exact h1

/-- Only the store is different. -/
structure StoreOnly (s s' : FState W) : Prop where
  pre : s'.pre = s.pre
  post : s'.post = s.post
  world : s'.world = s.world

theorem ends_throwIf {P : W → Prop} {Q : FState W → Prop} (e : Option Exn) {s : FState W} (h : P s.world) (hq : Q s) :
    Ends P (fun _ => Q) (throwIf e s) := by
  cases e
  · exact hq
  · exact h

theorem ends_assignScalar {P : W → Prop} (nd : Bool) (ty : ElemTy) (x : VarId) (t : Str) (s : FState W) (hs : P s.world) :
    Ends P (fun _ s' => StoreOnly s s' ∧ (Solid ty → ∃ e, parseElem ty t = .ok (.success, some e) ∧ s'.store = s.store.set x (.one e)))
      (assignScalar nd ty x t s) := by
  unfold assignScalar
  cases hp : parseElem ty t with
  | error e => exact hs
  | ok r =>
    obtain ⟨res, w⟩ := r
    cases w with
    | some e =>
      cases hr : throwOnInputError nd ty.isArithmetic res with
      | some e' => simp only [hr]; exact hs
      | none =>
        simp only [hr]
        refine ⟨⟨rfl, rfl, rfl⟩, fun hty => ?_⟩
        rcases hty t res _ hp with rfl | ⟨rfl, e', h⟩
        · cases hr
        · exact ⟨e, rfl, rfl⟩
    | none =>
      cases hr : throwOnInputError nd ty.isArithmetic res with
      | some e' => simp only [hr]; exact hs
      | none =>
        simp only [hr]
        refine ⟨⟨rfl, rfl, rfl⟩, fun hty => ?_⟩
        rcases hty t res _ hp with rfl | ⟨rfl, e', h⟩
        · cases hr
        · cases h

theorem ends_appendList {P : W → Prop} (nd : Bool) (ty : ElemTy) (x : VarId) (t : Str) (s : FState W) (hs : P s.world) :
    Ends P (fun _ s' => StoreOnly s s' ∧
        (Solid ty → ∃ e, parseElem ty t = .ok (.success, some e) ∧ s'.store = s.store.set x ((s.store x).pushBack e)))
      (appendList nd ty x t s) := by
  unfold appendList
  cases hp : parseElem ty t with
  | error e => exact hs
  | ok r =>
    obtain ⟨res, w⟩ := r
    cases res with
    | success =>
      refine ⟨⟨rfl, rfl, rfl⟩, fun hty => ?_⟩
      rcases hty t _ _ hp with h | ⟨-, e', rfl⟩
      · cases h
      · exact ⟨e', rfl, rfl⟩
    | error => exact hs
    | overflowError =>
      cases hr : throwOnInputError nd false .overflowError with
      | some e' => simp only [hr]; exact hs
      | none =>
        simp only [hr]
        refine ⟨⟨rfl, rfl, rfl⟩, fun hty => ?_⟩
        rcases hty t _ _ hp with h | ⟨h, -⟩ <;> cases h

theorem pushBack_from {S : Str → Str → Prop} {A : List Str} {ty : ElemTy} {es : List Elem} (h : ∀ e ∈ es, ReadFrom S A ty e) {e : Elem}
    (he : ReadFrom S A ty e) : ∃ es', (Val.many es).pushBack e = .many es' ∧ ∀ e ∈ es', ReadFrom S A ty e :=
  ⟨es ++ [e], rfl, fun e' h' => (List.mem_append.1 h').elim (h e') fun h' => by rw [List.mem_singleton.1 h']; exact he⟩

/-! ### Options -/

/-- The cells are arguments or used up. -/
def Cells (A : List Str) (l : List Str) : Prop := ∀ a ∈ l, a = [] ∨ a ∈ A

theorem retrieve_parts {A : List Str} {id : Id} {a : Str} {rest : List Str} (ha : a ∈ A) (hr : Cells A rest) {t : Str} {bl rest' : List Str}
    (h : retrieve id a rest = .ok (t, bl, rest')) : (∃ b ∈ A, t <:+ b) ∧ (∀ c ∈ bl, c = []) ∧ Cells A rest' := by
  unfold retrieve at h
  split at h
  · split at h
    · split at h
      · cases h
      · cases h
        exact ⟨⟨a, ha, List.drop_suffix _ _⟩, by simp, hr⟩
    · cases h
      exact ⟨⟨a, ha, List.drop_suffix _ _⟩, by simp, hr⟩
  · split at h
    · cases h
    · rename_i v r
      obtain ⟨rfl, rfl, rfl⟩ : v = t ∧ [[], []] = bl ∧ r = rest' := by simpa using h
      refine ⟨?_, by simp, fun c hc => hr c (.tail _ hc)⟩
      rcases hr v (.head _) with rfl | hv
      · exact ⟨a, ha, List.nil_suffix⟩
      · exact ⟨v, hv, List.suffix_refl _⟩

theorem hit_ne_nil {id : Id} {a : Str} (h : id.hits a = true) : a ≠ [] := by
  rintro rfl
  cases id <;> simp [Id.hits, Id.dashed] at h

/-- During the options. -/
structure OptInv (P : W → Prop) (A : List Str) (post : List Str) (s : FState W) : Prop where
  world : P s.world
  pre : Cells A s.pre
  post : s.post = post

theorem ends_scalar {P : W → Prop} {A post : List Str} (nd : Bool) (ty : ElemTy) (x : VarId) (id : Id) (s : FState W)
    (hs : OptInv P A post s) :
    Ends P (fun b s' => OptInv P A post s' ∧ (b = true → Solid ty → ValueFrom (· <:+ ·) A ty (s'.store x)) ∧ (b = false → s' = s))
      (getOptionByIdScalar nd ty x id s) := by
  unfold getOptionByIdScalar
  cases hf : findOptionId id s.pre with
  | mk front l =>
    have happ : front ++ l = s.pre ∧ ∀ a r, l = a :: r → id.hits a = true := by
      unfold findOptionId at hf
      split at hf
      · cases hf; exact ⟨List.append_nil _, nofun⟩
      · cases hf
        refine ⟨List.takeWhile_append_dropWhile, fun a r e => ?_⟩
        have := List.head?_dropWhile_not (fun a => !id.hits a) s.pre
        rw [e] at this
        simpa using this
    cases l with
    | nil => exact ⟨hs, nofun, fun _ => rfl⟩
    | cons a rest =>
      have ha : a ∈ A := by
        have := hs.pre a (by rw [← happ.1]; simp)
        exact this.resolve_left (hit_ne_nil (happ.2 a rest rfl))
      have hrest : Cells A rest := fun c hc => hs.pre c (by rw [← happ.1]; simp [hc])
      have hfront : Cells A front := fun c hc => hs.pre c (by rw [← happ.1]; simp [hc])
      dsimp only
      cases hr : retrieve id a rest with
      | error e => exact hs.world
      | ok r =>
        obtain ⟨t, bl, rest'⟩ := r
        obtain ⟨⟨b, hb, htb⟩, hbl, hr'⟩ := retrieve_parts ha hrest hr
        have hcells : Cells A (front ++ bl ++ rest') := by
          intro c hc
          rcases List.mem_append.1 hc with hc | hc
          · rcases List.mem_append.1 hc with hc | hc
            · exact hfront c hc
            · exact Or.inl (hbl c hc)
          · exact hr' c hc
        dsimp only
        refine ends_bind (Q := fun _ s' => s' = { s with pre := front ++ bl ++ rest' }) rfl fun _ s' e => ?_
        subst e
        refine ends_bind (ends_assignScalar nd ty x t _ hs.world) fun _ s' e => ?_
        obtain ⟨⟨h1, h2, h3⟩, h4⟩ := e
        have hi : OptInv P A post s' := ⟨by rw [h3]; exact hs.world, by rw [h1]; exact hcells, by rw [h2]; exact hs.post⟩
        cases hg : findOptionId id rest' with
        | mk f' l' =>
          cases l' with
          | nil =>
            refine ⟨hi, fun _ hty => ?_, nofun⟩
            obtain ⟨e, he, h5⟩ := h4 hty
            exact Or.inl ⟨e, by rw [h5]; exact Store.set_self _ _ _, b, hb, t, htb, he⟩
          | cons _ _ => exact hi.world

/-- The variable holds values from the arguments. -/
def Held (S : Str → Str → Prop) (A : List Str) (ty : ElemTy) (x : VarId) (s : FState W) : Prop :=
  ∃ es, s.store x = .many es ∧ ∀ e ∈ es, ReadFrom S A ty e

theorem ends_append_one {P : W → Prop} {S : Str → Str → Prop} {A : List Str} (nd : Bool) {ty : ElemTy} {x : VarId} {t b : Str} {s : FState W}
    (hs : P s.world) (hx : Solid ty → Held S A ty x s) (hb : b ∈ A) (htb : S t b) :
    Ends P (fun _ s' => StoreOnly s s' ∧ (Solid ty → Held S A ty x s')) (appendList nd ty x t s) := by
  have h := ends_appendList nd ty x t s hs
  cases hr : appendList nd ty x t s with
  | err e s' => rw [hr] at h; exact h
  | ok a s' =>
    rw [hr] at h
    refine ⟨h.1, fun hty => ?_⟩
    obtain ⟨e, he, h'⟩ := h.2 hty
    obtain ⟨es, h1, h2⟩ := hx hty
    obtain ⟨es', h3, h4⟩ := pushBack_from h2 ⟨b, hb, t, htb, he⟩
    exact ⟨es', by rw [h', ← h3, ← h1]; exact Store.set_self _ _ _, h4⟩

theorem ends_collect {P : W → Prop} {A post : List Str} (nd : Bool) (ty : ElemTy) (x : VarId) (id : Id) (n : Nat) :
    ∀ (l front : List Str) (s : FState W), l.length ≤ n → P s.world → s.post = post → Cells A front → Cells A l →
      (Solid ty → Held (· <:+ ·) A ty x s) →
      Ends P (fun _ s' => OptInv P A post s' ∧ (Solid ty → Held (· <:+ ·) A ty x s')) (collect nd ty x id front l s) := by
  induction n with
  | zero =>
    intro l front s hl hs hp hf hc hx
    cases l with
    | nil => exact ⟨⟨hs, hf, hp⟩, hx⟩
    | cons a l => simp at hl
  | succ n ih =>
    intro l front s hl hs hp hf hc hx
    cases l with
    | nil => exact ⟨⟨hs, hf, hp⟩, hx⟩
    | cons a rest =>
      have hl' : rest.length ≤ n := by simpa using hl
      have hrest : Cells A rest := fun c h => hc c (.tail _ h)
      -- one more value
      have go : ∀ (t b : Str) (bl r : List Str), b ∈ A → t <:+ b → r.length ≤ n → Cells A r → (∀ c ∈ bl, c = []) →
          Ends P (fun _ s' => OptInv P A post s' ∧ (Solid ty → Held (· <:+ ·) A ty x s'))
            (M.bind (appendList nd ty x t) (fun _ => collect nd ty x id (front ++ bl) r) s) := by
        intro t b bl r hb htb hr hcr hbl
        refine ends_bind (ends_append_one nd hs hx hb htb) fun _ s' h => ?_
        obtain ⟨⟨h1, h2, h3⟩, h4⟩ := h
        refine ih r _ s' hr (h3 ▸ hs) (h2.trans hp) (fun c h => ?_) hcr h4
        exact (List.mem_append.1 h).elim (hf c) fun h => Or.inl (hbl c h)
      unfold collect
      split
      · rename_i hh
        have ha : a ∈ A := (hc a (.head _)).resolve_left (hit_ne_nil hh)
        split
        · cases hr : retrieve id a rest with
          | error e => exact hs
          | ok r =>
            obtain ⟨t, bl, r⟩ := r
            obtain ⟨⟨b, hb, htb⟩, -, -⟩ := retrieve_parts ha hrest hr
            exact go t b [[]] rest hb htb hl' hrest (by simp)
        · cases rest with
          | nil => exact hs
          | cons v r =>
            have hr : r.length ≤ n := by simp at hl'; omega
            rcases hrest v (.head _) with rfl | hv
            · exact go [] a [[], []] r ha List.nil_suffix hr (fun c h => hrest c (.tail _ h)) (by simp)
            · exact go v v [[], []] r hv (List.suffix_refl _) hr (fun c h => hrest c (.tail _ h)) (by simp)
      · refine ih rest _ s hl' hs hp ?_ hrest hx
        intro c h
        rcases List.mem_append.1 h with h | h
        · exact hf c h
        · rw [List.mem_singleton.1 h]; exact hc a (.head _)

theorem ends_list {P : W → Prop} {A post : List Str} (nd : Bool) (ty : ElemTy) (x : VarId) (id : Id) (s : FState W)
    (hs : OptInv P A post s) :
    Ends P (fun b s' => OptInv P A post s' ∧ (b = true → Solid ty → ValueFrom (· <:+ ·) A ty (s'.store x)) ∧ (b = false → s' = s))
      (getOptionByIdList nd ty x id s) := by
  unfold getOptionByIdList
  cases hf : findOptionId id s.pre with
  | mk front l =>
    cases l with
    | nil => exact ⟨hs, nofun, fun _ => rfl⟩
    | cons a rest =>
      refine ends_bind (Q := fun _ s' => s' = { s with store := s.store.set x (.many []) }) rfl fun _ s' e => ?_
      subst e
      refine ends_bind (ends_collect (A := A) (post := post) nd ty x id _ s.pre [] _ (Nat.le_refl _) hs.world hs.post (by simp [Cells]) hs.pre
        fun _ => ⟨[], Store.set_self _ _ _, by simp⟩) fun _ s' h => ?_
      exact ⟨h.1, fun _ hty => Or.inr (h.2 hty), nofun⟩

/-- What an identifier does to an option. -/
theorem ends_byId {P : W → Prop} {A post : List Str} (nd : Bool) (d : OptDecl W) (id : Id) (s : FState W) (hs : OptInv P A post s) :
    Ends P (fun b s' => OptInv P A post s' ∧ (b = true → Solid d.ty → ValueFrom (· <:+ ·) A d.ty (s'.store d.var)) ∧ (b = false → s' = s))
      (getOptionById nd d id s) := by
  unfold getOptionById
  split
  · exact ends_list nd d.ty d.var id s hs
  · exact ends_scalar nd d.ty d.var id s hs

theorem ends_validate {P : W → Prop} {Q : FState W → Prop} {v : Val → W → Bool × W} {x : VarId} {s : FState W}
    (h : P (v (s.store x) s.world).2) (hq : ∀ w, P w → Q { s with world := w }) : Ends P (fun _ => Q) (validate v x s) := by
  unfold validate
  split
  · rename_i w hw; rw [hw] at h; exact hq w h
  · rename_i w hw; rw [hw] at h; exact h

theorem ends_getOption {P : W → Prop} {A post : List Str} (nd : Bool) (d : OptDecl W) (hd : KeepsOn P (· <:+ ·) A d.ty d.validator)
    (s : FState W) (hs : OptInv P A post s) : Ends P (fun _ s' => OptInv P A post s') (getOption nd d s) := by
  unfold getOption
  refine ends_bind (ends_byId nd d _ s hs) fun b1 s1 h1 => ends_bind (ends_byId nd d _ s1 h1.1) fun b2 s2 h2 => ?_
  split
  · exact h2.1.world
  · split
    · rename_i hb
      refine ends_validate ?_ fun w hw => ⟨hw, h2.1.pre, h2.1.post⟩
      rcases hd with hd | ⟨hty, hd⟩
      · exact hd _ _ h2.1.world
      · refine hd _ _ ?_ h2.1.world
        cases b2 with
        | true => exact h2.2.1 rfl hty
        | false =>
          rw [h2.2.2 rfl]
          exact h1.2.1 (by simpa using hb) hty
    · split
      · exact h2.1.world
      · exact h2.1

theorem ends_forEach {α : Type} {P : W → Prop} {I : FState W → Prop} {f : α → FM W Unit} (l : List α)
    (h : ∀ a ∈ l, ∀ s, I s → Ends P (fun _ => I) (f a s)) : ∀ s, I s → Ends P (fun _ => I) (M.forEach f l s) := by
  induction l with
  | nil => exact fun s hs => hs
  | cons a l ih =>
    intro s hs
    rw [M.forEach_cons]
    exact ends_bind (h a (by simp) s hs) fun _ s' hs' => ih (fun b hb => h b (by simp [hb])) s' hs'

/-! ### Flags and positional options -/

/-- The cells are parts of arguments. -/
def CutFrom (A : List Str) (l : List Str) : Prop := ∀ c ∈ l, c = [] ∨ ∃ a ∈ A, c.Sublist a

/-- During the flags and the positional options. -/
structure PosInv (P : W → Prop) (A : List Str) (s : FState W) : Prop where
  world : P s.world
  pre : CutFrom A s.pre
  post : CutFrom A s.post

theorem flagShort_pieces {A : List Str} {c : Char} {l l' : List Str} (h : CutFrom A l) (he : flagShort c l = some l') : CutFrom A l' := by
  induction l generalizing l' with
  | nil => cases he
  | cons a l ih =>
    have hl : CutFrom A l := fun x hx => h x (.tail _ hx)
    unfold flagShort at he
    cases hc : flagCell c a with
    | some a' =>
      rw [hc] at he
      cases he
      intro x hx
      rcases List.mem_cons.1 hx with rfl | hx
      · have hsub : x = [] ∨ x.Sublist a := by
          unfold flagCell at hc
          split at hc
          · split at hc
            · cases hc
              split
              · exact Or.inl rfl
              · exact Or.inr (List.erase_sublist)
            · cases hc
          · cases hc
        rcases hsub with rfl | hsub
        · exact Or.inl rfl
        · rcases h a (.head _) with rfl | ⟨b, hb, hab⟩
          · exact Or.inl (List.eq_nil_of_sublist_nil hsub)
          · exact Or.inr ⟨b, hb, hsub.trans hab⟩
      · exact hl x hx
    | none =>
      rw [hc] at he
      cases hs : flagShort c l with
      | none => rw [hs] at he; cases he
      | some l'' =>
        rw [hs] at he
        cases he
        intro x hx
        rcases List.mem_cons.1 hx with rfl | hx
        · exact h x (.head _)
        · exact ih hl hs x hx

theorem flagLong_pieces {A : List Str} {t : Str} {l l' : List Str} (h : CutFrom A l) (he : flagLong t l = some l') : CutFrom A l' := by
  induction l generalizing l' with
  | nil => cases he
  | cons a l ih =>
    have hl : CutFrom A l := fun x hx => h x (.tail _ hx)
    unfold flagLong at he
    split at he
    · cases he
      intro x hx
      rcases List.mem_cons.1 hx with rfl | hx
      · exact Or.inl rfl
      · exact hl x hx
    · cases hs : flagLong t l with
      | none => rw [hs] at he; cases he
      | some l'' =>
        rw [hs] at he
        cases he
        intro x hx
        rcases List.mem_cons.1 hx with rfl | hx
        · exact h x (.head _)
        · exact ih hl hs x hx

theorem ends_getFlag {P : W → Prop} {A : List Str} (d : FlagDecl) (s : FState W) (hs : PosInv P A s) :
    Ends P (fun _ => PosInv P A) (getFlag d s) := by
  unfold getFlag
  split
  · rename_i h; exact ⟨hs.world, flagShort_pieces hs.pre h, hs.post⟩
  · split
    · rename_i h; exact ⟨hs.world, hs.pre, flagShort_pieces hs.post h⟩
    · split
      · rename_i h; exact ⟨hs.world, flagLong_pieces hs.pre h, hs.post⟩
      · exact hs

theorem ends_fillList {P : W → Prop} {A : List Str} (nd : Bool) (ty : ElemTy) (x : VarId) (l : List Str) :
    ∀ (front : List Str) (s : FState W), P s.world → CutFrom A s.post → CutFrom A front → CutFrom A l →
      (Solid ty → Held List.Sublist A ty x s) →
      Ends P (fun _ s' => PosInv P A s' ∧ (Solid ty → Held List.Sublist A ty x s')) (fillList nd ty x front l s) := by
  induction l with
  | nil => exact fun front s hs hp hf _ hx => ⟨⟨hs, hf, hp⟩, hx⟩
  | cons a l ih =>
    intro front s hs hp hf hl hx
    have hl' : CutFrom A l := fun c h => hl c (.tail _ h)
    have hf' : CutFrom A (front ++ [[]]) := fun c h =>
      (List.mem_append.1 h).elim (hf c) fun h => Or.inl (List.mem_singleton.1 h)
    unfold fillList
    split
    · rename_i ha
      subst ha
      exact ih _ s hs hp hf' hl' hx
    · rename_i ha
      obtain ⟨b, hb, hab⟩ := (hl a (.head _)).resolve_left ha
      refine ends_bind (ends_append_one nd hs hx hb hab) fun _ s' h => ?_
      obtain ⟨⟨h1, h2, h3⟩, h4⟩ := h
      exact ih _ s' (h3 ▸ hs) (h2 ▸ hp) hf' hl' h4

theorem ends_getPositional {P : W → Prop} {A : List Str} (nd last : Bool) (d : PosDecl W) (hd : KeepsOn P List.Sublist A d.ty d.validator)
    (s : FState W) (hs : PosInv P A s) : Ends P (fun _ => PosInv P A) (getPositional nd last d s) := by
  unfold getPositional
  cases hl : s.pre.dropWhile (fun a => a = []) with
  | nil => exact hs.world
  | cons a rest =>
    have hsplit : s.pre.takeWhile (fun a => a = []) ++ a :: rest = s.pre := by rw [← hl]; exact List.takeWhile_append_dropWhile
    dsimp only
    split
    · split
      · exact hs.world
      · refine ends_bind (Q := fun _ s' => s' = { s with store := s.store.set d.var (.many []) }) rfl fun _ s' e => ?_
        subst e
        refine ends_bind (ends_fillList (A := A) nd d.ty d.var s.pre [] _ hs.world hs.post (by simp [CutFrom]) hs.pre
          fun _ => ⟨[], Store.set_self _ _ _, by simp⟩) fun _ s' h => ?_
        refine ends_validate ?_ fun w hw => ⟨hw, h.1.pre, h.1.post⟩
        rcases hd with hd | ⟨hty, hd⟩
        · exact hd _ _ h.1.world
        · exact hd _ _ (Or.inr (h.2 hty)) h.1.world
    · have ha : a ≠ [] := by
        have := List.head?_dropWhile_not (fun a : Str => decide (a = [])) s.pre
        rw [hl] at this
        simpa using this
      obtain ⟨b, hb, hab⟩ := (hs.pre a (by rw [← hsplit]; simp)).resolve_left ha
      refine ends_bind (ends_assignScalar nd d.ty d.var a s hs.world) fun _ s' e => ?_
      obtain ⟨⟨h1, h2, h3⟩, h4⟩ := e
      refine ends_bind (Q := fun _ s'' => s'' = { s' with pre := s.pre.takeWhile (fun a => a = []) ++ [] :: rest }) rfl fun _ s'' e => ?_
      subst e
      refine ends_validate ?_ fun w hw => ⟨hw, ?_, ?_⟩
      · rcases hd with hd | ⟨hty, hd⟩
        · exact hd _ _ (h3 ▸ hs.world)
        · refine hd _ _ ?_ (h3 ▸ hs.world)
          obtain ⟨e, he, h5⟩ := h4 hty
          exact Or.inl ⟨e, by show s'.store d.var = _; rw [h5]; exact Store.set_self _ _ _, b, hb, a, hab, he⟩
      · intro c hc
        rcases List.mem_append.1 hc with hc | hc
        · exact hs.pre c (by rw [← hsplit]; simp [hc])
        · rcases List.mem_cons.1 hc with rfl | hc
          · exact Or.inl rfl
          · exact hs.pre c (by rw [← hsplit]; simp [hc])
      · show CutFrom A s'.post
        rw [h2]; exact hs.post

theorem ends_runPositionals {P : W → Prop} {A : List Str} (nd : Bool) (ds : List (PosDecl W))
    (h : ∀ d ∈ ds, KeepsOn P List.Sublist A d.ty d.validator) : ∀ s, PosInv P A s → Ends P (fun _ => PosInv P A) (runPositionals nd ds s) := by
  induction ds with
  | nil => exact fun s hs => hs
  | cons d ds ih =>
    intro s hs
    unfold runPositionals
    exact ends_bind (ends_getPositional nd _ d (h d (by simp)) s hs) fun _ s' hs' => ih (fun e he => h e (by simp [he])) s' hs'

/-- Whatever validators keep when they are called with values from the arguments is kept. -/
theorem formatParse_keeps {P : W → Prop} (nd : Bool) (D : Decls W) (args : List Str) (st : Store) (w : W)
    (h1 : ∀ d ∈ D.options, KeepsOn P (· <:+ ·) args d.ty d.validator)
    (h2 : ∀ d ∈ D.positionals, KeepsOn P List.Sublist args d.ty d.validator) (hw : P w) :
    P (formatParse nd D args st w).state.world := by
  suffices h : Ends P (fun _ => PosInv P args) (formatParse nd D args st w) by
    cases hr : formatParse nd D args st w with
    | ok a s => rw [hr] at h; exact h.world
    | err e s => rw [hr] at h; exact h
  unfold formatParse parseBody
  refine ends_bind (ends_forEach (I := OptInv P args (args.dropWhile (fun a => a ≠ endMarker))) _ (fun d hd s hs => ends_getOption nd d (h1 d hd) s hs) _
    ⟨hw, fun a ha => Or.inr (List.takeWhile_subset _ ha), rfl⟩) fun _ s hs => ?_
  have hs' : PosInv P args s := by
    refine ⟨hs.world, fun c hc => (hs.pre c hc).imp_right fun h => ⟨c, h, List.Sublist.refl _⟩, ?_⟩
    rw [hs.post]
    exact fun c hc => Or.inr ⟨c, List.dropWhile_subset _ hc, List.Sublist.refl _⟩
  refine ends_bind (ends_forEach _ (fun d _ => ends_getFlag d) s hs') fun _ s hs => ?_
  refine ends_bind (Q := fun _ => PosInv P args) ?_ fun _ s hs => ?_
  · unfold checkForUnknownIds
    split
    · exact hs.world
    · exact hs
  refine ends_bind (Q := fun _ => PosInv P args) ?_ fun _ s hs => ?_
  · refine ⟨hs.world, fun c hc => ?_, by simp [CutFrom]⟩
    rcases List.mem_append.1 hc with hc | hc
    · exact hs.pre c hc
    · cases hp : s.post with
      | nil => rw [hp] at hc; cases hc
      | cons b l =>
        rw [hp] at hc
        rcases List.mem_cons.1 hc with rfl | hc
        · exact Or.inl rfl
        · exact hs.post c (by rw [hp]; exact .tail _ hc)
  refine ends_bind (ends_runPositionals nd _ h2 s hs) fun _ s hs => ?_
  unfold checkForLeftOverArgs
  split
  · exact hs.world
  · exact hs

theorem solid_string : Solid .string := by
  intro t res w h
  have : (ParseRes.success, some (Elem.str t)) = (res, w) := by simpa [parseElem] using h
  cases this
  exact Or.inr ⟨rfl, _, rfl⟩

end Sharg
