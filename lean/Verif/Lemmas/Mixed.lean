import Verif.Spec.Mixed
import Verif.Props.Equivalence
import Verif.Lemmas.Values

/-!
# Lemmas about lists given with both identifiers
-/

namespace Sharg

open Spec

variable {W : Type}

theorem lift_append_eq (nd : Bool) (ty : ElemTy) (x : VarId) (t : Str) (es : List Elem) (st : Store) (w : W) :
    lift (appendList nd ty x t) (st.set x (.many es), w) =
      match readListElem nd ty t with
      | .ok es' => .ok () (st.set x (.many (es ++ es')), w)
      | .error e => .err e (st.set x (.many es), w) := by
  unfold lift appendList readListElem
  cases parseElem ty t with
  | error e => rfl
  | ok r =>
    obtain ⟨res, written⟩ := r
    cases res <;> cases nd <;>
      simp [throwOnInputError, throwIf, M.do_bind, M.bind_run, M.modify_run, M.pure_run, Res.core, FState.core, Store.set_self, Store.set_set, Val.pushBack]

theorem readListElem_readable (nd : Bool) (ty : ElemTy) (t : Str) :
    (∃ es, readListElem nd ty t = .ok es) ↔ (∃ e, Denotes ty t e) ∨ (nd = true ∧ OutOfRange ty t) := by
  unfold readListElem
  constructor
  · rintro ⟨es, h⟩
    cases hp : parseElem ty t with
    | error e => rw [hp] at h; cases h
    | ok r =>
      obtain ⟨res, written⟩ := r
      rw [hp] at h
      cases res with
      | success =>
        obtain ⟨e, -, he⟩ := parseElem_success ty t written hp
        exact Or.inl ⟨e, (readElem_iff ty t e).1 he⟩
      | error => cases nd <;> simp [throwOnInputError] at h
      | overflowError =>
        cases nd with
        | false => simp [throwOnInputError] at h
        | true => exact Or.inr ⟨rfl, (parseElem_outOfRange ty t).1 ⟨written, hp⟩⟩
  · rintro (⟨e, he⟩ | ⟨rfl, ho⟩)
    · rw [(readElem_some ty t e).1 ((readElem_iff ty t e).2 he)]
      exact ⟨_, rfl⟩
    · obtain ⟨written, hp⟩ := (parseElem_outOfRange ty t).2 ho
      rw [hp]
      exact ⟨_, rfl⟩

/-- The texts of a list are read one by one; the variable is all that changes. -/
theorem lift_appends_state (nd : Bool) (ty : ElemTy) (x : VarId) (ts : List Str) : ∀ (es : List Elem) (st : Store) (w : W),
    ((∀ t ∈ ts, ∃ es', readListElem nd ty t = .ok es') ∧
      ∃ es', M.forEach (fun t => lift (appendList nd ty x t)) ts (st.set x (.many es), w) = .ok () (st.set x (.many es'), w)) ∨
    ((∃ t ∈ ts, ∀ es', readListElem nd ty t ≠ .ok es') ∧
      ∃ e c, M.forEach (fun t => lift (appendList nd ty x t)) ts (st.set x (.many es), w) = .err e c) := by
  induction ts with
  | nil => exact fun es st w => Or.inl ⟨by simp, es, rfl⟩
  | cons t ts ih =>
    intro es st w
    have h := lift_append_eq nd ty x t es st w
    cases hr : readListElem nd ty t with
    | error e =>
      rw [hr] at h
      exact Or.inr ⟨⟨t, by simp, by simp [hr]⟩, e, _, by rw [M.forEach_cons, M.bind_run, h]⟩
    | ok es' =>
      rw [hr] at h
      rw [M.forEach_cons, M.bind_run, h]
      dsimp only
      rcases ih (es ++ es') st w with ⟨h1, h2⟩ | ⟨⟨u, hu, h1⟩, h2⟩
      · refine Or.inl ⟨fun u hu => ?_, h2⟩
        rcases List.mem_cons.1 hu with rfl | hu
        · exact ⟨es', hr⟩
        · exact h1 u hu
      · exact Or.inr ⟨⟨u, by simp [hu], h1⟩, h2⟩

theorem lift_setVar (x : VarId) (v : Val) (c : Core W) : lift (setVar x v) c = .ok () (c.1.set x v, c.2) := rfl

theorem absList_after (nd : Bool) (ty : ElemTy) (x : VarId) (v : Val) (u : Str) (us : List Str) (st : Store) (w : W) :
    absList nd ty x (u :: us) (st.set x v, w) = absList nd ty x (u :: us) (st, w) := by
  simp only [absList, M.bind_run, lift_setVar, Store.set_set]

/-- Texts given with the short identifier are forgotten if there are some with the long one. -/
theorem absOption_mixed (nd : Bool) (d : OptDecl W) (hl : d.isList = true) (ts : List Str) (u : Str) (us : List Str) (c : Core W) :
    ((∀ t ∈ ts, (∃ e, Denotes d.ty t e) ∨ (nd = true ∧ OutOfRange d.ty t)) ∧ absOption nd d ts (u :: us) c = absOption nd d [] (u :: us) c) ∨
    ((∃ t ∈ ts, ¬ ((∃ e, Denotes d.ty t e) ∨ (nd = true ∧ OutOfRange d.ty t))) ∧ ∃ e c', absOption nd d ts (u :: us) c = .err e c') := by
  cases ts with
  | nil => exact Or.inl ⟨by simp, rfl⟩
  | cons t ts =>
    rcases lift_appends_state nd d.ty d.var (t :: ts) [] c.1 c.2 with ⟨h1, es', h2⟩ | ⟨⟨t', ht', h1⟩, e, c', h2⟩
    · refine Or.inl ⟨fun t ht => (readListElem_readable nd d.ty t).1 (h1 t ht), ?_⟩
      have ha : absById nd d (t :: ts) c = .ok true (c.1.set d.var (.many es'), c.2) := by
        unfold absById
        rw [if_pos hl]
        simp only [absList, M.bind_run, lift_setVar, h2, M.pure_run]
      have hn : absById nd d [] c = .ok false c := by
        unfold absById
        rw [if_pos hl]
        rfl
      have hb : absById nd d (u :: us) (c.1.set d.var (.many es'), c.2) = absById nd d (u :: us) c := by
        unfold absById
        rw [if_pos hl]
        exact absList_after _ _ _ _ _ _ _ _
      unfold absOption
      rw [M.bind_run, M.bind_run, ha, hn]
      dsimp only
      rw [M.bind_run, M.bind_run, hb]
      cases hk : absById nd d (u :: us) c with
      | err e c' => rfl
      | ok b c' =>
        have : b = true := by
          unfold absById at hk
          rw [if_pos hl] at hk
          simp only [absList, M.bind_run, lift_setVar] at hk
          cases hf : M.forEach (fun t => lift (appendList nd d.ty d.var t)) (u :: us) (c.1.set d.var (.many []), c.2) with
          | err e c'' => rw [hf] at hk; cases hk
          | ok a c'' => rw [hf] at hk; cases hk; rfl
        subst this
        simp [hl]
    · refine Or.inr ⟨⟨t', ht', fun h => ?_⟩, e, c', ?_⟩
      · obtain ⟨es', h⟩ := (readListElem_readable nd d.ty t').2 h
        exact h1 es' h
      · unfold absOption absById
        rw [if_pos hl, if_pos hl]
        simp only [absList, M.bind_run, lift_setVar, h2]

/-! ### The line without the overruled items -/

theorem lastWord_filterMap {α : Type} (D : Decls W) (items : List Item) (f : Item → Option α)
    (h : ∀ it ∈ items, overruled D items it = true → f it = none) : (lastWord D items).filterMap f = items.filterMap f := by
  have key : ∀ l : List Item, (∀ it ∈ l, overruled D items it = true → f it = none) →
      (l.filter fun it => !overruled D items it).filterMap f = l.filterMap f := by
    intro l
    induction l with
    | nil => intro; rfl
    | cons it l ih =>
      intro h
      have ih := ih fun x hx => h x (by simp [hx])
      cases ho : overruled D items it with
      | true => simp [ho, ih, h it (by simp) ho]
      | false => simp [ho, ih, List.filterMap_cons]
  exact key items h

theorem overruled_short {D : Decls W} {items : List Item} {it : Item} (h : overruled D items it = true) :
    ∃ c form v, it = .short c form v ∧ ∃ d ∈ D.options, d.isList = true ∧ d.short = c ∧ ∃ sep u, Item.long d.long sep u ∈ items := by
  cases it with
  | short c form v =>
    simp only [overruled, List.any_eq_true, Bool.and_eq_true, beq_iff_eq] at h
    obtain ⟨d, hd, ⟨hl, hc⟩, it, hit, hm⟩ := h
    refine ⟨c, form, v, rfl, d, hd, hl, hc, ?_⟩
    cases it with
    | long s sep u => simp only [beq_iff_eq] at hm; subst hm; exact ⟨sep, u, hit⟩
    | _ => cases hm
  | _ => cases h

theorem overruled_of {D : Decls W} {items : List Item} {d : OptDecl W} (hd : d ∈ D.options) (hl : d.isList = true) {sep : Bool} {u : Str}
    (hu : Item.long d.long sep u ∈ items) (form : Form) (v : Str) : overruled D items (.short d.short form v) = true := by
  simp only [overruled, List.any_eq_true, Bool.and_eq_true, beq_iff_eq]
  exact ⟨d, hd, ⟨hl, rfl⟩, _, hu, by simp⟩

theorem lastWord_long (D : Decls W) (items : List Item) (d : OptDecl W) : longValues d (lastWord D items) = longValues d items := by
  refine lastWord_filterMap D items _ fun it _ h => ?_
  obtain ⟨c, form, v, rfl, -⟩ := overruled_short h
  simp [Id.valueIn]

theorem longValues_used {items : List Item} {d : OptDecl W} : longValues d items ≠ [] ↔ ∃ sep u, Item.long d.long sep u ∈ items := by
  constructor
  · intro h
    obtain ⟨v, hv⟩ := List.exists_mem_of_ne_nil _ h
    obtain ⟨it, hi, he⟩ := List.mem_filterMap.1 hv
    cases it <;> simp [Id.valueIn] at he
    obtain ⟨rfl, rfl⟩ := he
    exact ⟨_, _, hi⟩
  · rintro ⟨sep, u, h⟩ h0
    have : u ∈ longValues d items := List.mem_filterMap.2 ⟨_, h, by simp [Id.valueIn]⟩
    rw [h0] at this
    cases this

theorem shortValues_mem {items : List Item} {d : OptDecl W} {v : Str} : v ∈ shortValues d items ↔ ∃ form, Item.short d.short form v ∈ items := by
  unfold shortValues
  rw [List.mem_filterMap]
  constructor
  · rintro ⟨it, hi, he⟩
    cases it <;> simp [Id.valueIn] at he
    obtain ⟨rfl, rfl⟩ := he
    exact ⟨_, hi⟩
  · rintro ⟨form, h⟩
    exact ⟨_, h, by simp [Id.valueIn]⟩

/-- The option to which an overruled item belongs. -/
theorem overruled_option {D : Decls W} (hD : IdsOk D) {items : List Item} (hit : ∀ it ∈ items, it.Loose D) {d : OptDecl W} (hd : d ∈ D.options)
    {form : Form} {v : Str} (hm : Item.short d.short form v ∈ items) (h : overruled D items (.short d.short form v) = true) :
    d.isList = true ∧ longValues d items ≠ [] := by
  obtain ⟨c, form', v', he, e, hed, hl, hc, hu⟩ := overruled_short h
  cases he
  have h0 : d.short ≠ '\x00' := (hit _ hm).1
  have : d = e := option_of_short hD hd hed h0 hc.symm
  subst this
  exact ⟨hl, longValues_used.2 hu⟩

theorem lastWord_short {D : Decls W} (hD : IdsOk D) {items : List Item} (hit : ∀ it ∈ items, it.Loose D) {d : OptDecl W} (hd : d ∈ D.options) :
    shortValues d (lastWord D items) = if d.isList = true ∧ longValues d items ≠ [] then [] else shortValues d items := by
  split
  · rename_i h
    obtain ⟨sep, u, hu⟩ := longValues_used.1 h.2
    rw [List.eq_nil_iff_forall_not_mem]
    intro v hv
    obtain ⟨form, hm⟩ := shortValues_mem.1 hv
    have := (List.mem_filter.1 hm).2
    rw [overruled_of hd h.1 hu] at this
    cases this
  · rename_i h
    refine lastWord_filterMap D items _ fun it hm ho => ?_
    obtain ⟨c, form, v, rfl, -⟩ := overruled_short ho
    simp only [Id.valueIn]
    rw [if_neg]
    intro he
    cases he
    exact h (overruled_option hD hit hd hm ho)

theorem absOptions_mixed (nd : Bool) {D : Decls W} (hD : IdsOk D) {items : List Item} (hit : ∀ it ∈ items, it.Loose D)
    (hread : OverruledReadable nd D items) : absOptions nd items D.options = absOptions nd (lastWord D items) D.options := by
  have key : ∀ ds : List (OptDecl W), (∀ d ∈ ds, d ∈ D.options) → absOptions nd items ds = absOptions nd (lastWord D items) ds := by
    intro ds
    induction ds with
    | nil => intro; rfl
    | cons d ds ih =>
      intro hds
      have ih := ih fun e he => hds e (by simp [he])
      have hd := hds d (by simp)
      unfold absOptions at ih ⊢
      rw [M.forEach_cons, M.forEach_cons, ih, lastWord_long, lastWord_short hD hit hd]
      congr 1
      split
      · rename_i h
        obtain ⟨sep, u, hu⟩ := longValues_used.1 h.2
        cases hv : longValues d items with
        | nil => exact absurd hv h.2
        | cons y ys =>
          funext c
          rcases absOption_mixed nd d h.1 (shortValues d items) y ys c with ⟨-, h1⟩ | ⟨⟨t, ht, h1⟩, -⟩
          · exact h1
          · obtain ⟨form, hm⟩ := shortValues_mem.1 ht
            exact absurd (hread d hd form t hm (overruled_of hd h.1 hu form t)) h1
      · rfl
  exact key _ fun _ h => h

theorem absOptions_readable (nd : Bool) {D : Decls W} (hD : IdsOk D) {items : List Item} (hit : ∀ it ∈ items, it.Loose D)
    {c c' : Core W} {u : Unit} (h : absOptions nd items D.options c = .ok u c') : OverruledReadable nd D items := by
  have key : ∀ (ds : List (OptDecl W)) (c : Core W), absOptions nd items ds c = .ok u c' → ∀ d ∈ ds, d.isList = true → longValues d items ≠ [] →
      ∀ t ∈ shortValues d items, (∃ e, Denotes d.ty t e) ∨ (nd = true ∧ OutOfRange d.ty t) := by
    intro ds
    induction ds with
    | nil => intro _ _ d hd; cases hd
    | cons e ds ih =>
      intro c h d hd hl hu
      unfold absOptions at h ih
      rw [M.forEach_cons, M.bind_eq_ok] at h
      obtain ⟨u1, c1, h1, h2⟩ := h
      rcases List.mem_cons.1 hd with rfl | hd
      · cases hv : longValues d items with
        | nil => exact absurd hv hu
        | cons y ys =>
          rw [hv] at h1
          rcases absOption_mixed nd d hl (shortValues d items) y ys c with ⟨h3, -⟩ | ⟨-, e, c2, h3⟩
          · exact h3
          · rw [h3] at h1; cases h1
      · exact ih c1 h2 d hd hl hu
  intro d hd form v hm ho
  obtain ⟨hl, hu⟩ := overruled_option hD hit hd hm ho
  exact key _ c h d hd hl hu v (shortValues_mem.2 ⟨form, hm⟩)

theorem lastWord_others (D : Decls W) (items : List Item) : others (lastWord D items) = others items := by
  have key : ∀ l : List Item, others (l.filter fun it => !overruled D items it) = others l := by
    intro l
    induction l with
    | nil => rfl
    | cons it l ih =>
      unfold others at ih ⊢
      cases ho : overruled D items it with
      | true =>
        obtain ⟨c, form, v, rfl, -⟩ := overruled_short ho
        simp [ho, ih, Item.other]
      | false => simp [ho, ih]
  exact key items

theorem lastWord_words (D : Decls W) (items : List Item) (tail : Option (List Str)) :
    Spec.words (lastWord D items) tail = Spec.words items tail := by
  unfold Spec.words
  congr 1
  refine lastWord_filterMap D items _ fun it _ h => ?_
  obtain ⟨c, form, v, rfl, -⟩ := overruled_short h
  rfl

theorem lastWord_mentions (D : Decls W) (items : List Item) (f : FlagDecl) : mentions f (lastWord D items) = mentions f items := by
  have key : ∀ l : List Item, mentions f (l.filter fun it => !overruled D items it) = mentions f l := by
    intro l
    induction l with
    | nil => rfl
    | cons it l ih =>
      unfold mentions at ih ⊢
      cases ho : overruled D items it with
      | true =>
        obtain ⟨c, form, v, rfl, -⟩ := overruled_short ho
        simp [ho, ih, Item.mentions]
      | false => simp [ho, ih]
  exact key items

theorem lastWord_mem {D : Decls W} {items : List Item} {it : Item} (h : it ∈ lastWord D items) : it ∈ items := (List.mem_filter.1 h).1

theorem lastWord_ok {D : Decls W} {items : List Item} {tail : Option (List Str)} (h : MixedOk D items tail) :
    LineOk D (lastWord D items) tail := by
  refine ⟨fun it hi => h.itemsOk it (lastWord_mem hi), fun f hf => by rw [lastWord_mentions]; exact h.flagsOnce f hf, ?_, h.tailOk⟩
  rintro d hd hl ⟨⟨form, v, hs⟩, ⟨sep, u, hu⟩⟩
  have := (List.mem_filter.1 hs).2
  rw [overruled_of hd hl (lastWord_mem hu)] at this
  cases this

theorem longTexts_eq (d : OptDecl W) (items : List Item) : longTexts d items = longValues d items := by
  unfold longTexts longValues
  congr 1
  funext it
  cases it <;> simp [Id.valueIn, eq_comm]

theorem filterMap_congr_mem {α β : Type} (f g : α → Option β) (l : List α) (h : ∀ a ∈ l, f a = g a) : l.filterMap f = l.filterMap g := by
  induction l with
  | nil => rfl
  | cons a l ih => rw [List.filterMap_cons, List.filterMap_cons, h a (by simp), ih fun b hb => h b (by simp [hb])]

/-- An option with both identifiers on the line: what is left are the texts of the long one. -/
theorem lastWord_given {D : Decls W} {items : List Item} {d : OptDecl W} (hd : d ∈ D.options) (hl : d.isList = true)
    (hu : longTexts d items ≠ []) : given d (lastWord D items) = longTexts d items := by
  have h1 : given d (lastWord D items) = longTexts d (lastWord D items) := by
    unfold given longTexts
    refine filterMap_congr_mem _ _ _ fun it hi => ?_
    cases it with
    | short c form v =>
      simp only [Item.valueFor]
      rw [if_neg]
      rintro rfl
      rw [longTexts_eq] at hu
      obtain ⟨sep, u, hu⟩ := longValues_used.1 hu
      have := (List.mem_filter.1 hi).2
      rw [overruled_of hd hl hu] at this
      cases this
    | _ => rfl
  rw [h1, longTexts_eq, lastWord_long, ← longTexts_eq]

end Sharg
