import Verif.Lemmas.Consume

/-!
# One declared option: what a successful `get_option` does
-/

namespace Sharg

/-- The value a declared option ends up with, given the texts found for its short and its long identifier. -/
def optValue {W : Type} (nd : Bool) (d : OptDecl W) (v1 v2 : List Str) : Option Val :=
  if d.isList then
    match readListElems nd d.ty v1, readListElems nd d.ty v2 with
    | .ok es1, .ok es2 => some (.many (if v2 = [] then es1 else es2))
    | _, _ => none
  else
    match v1 ++ v2 with
    | [v] => (readElem d.ty v).map .one
    | _ => none

theorem validate_ok {W : Type} (f : Val → W → Bool × W) (x : VarId) (s s' : FState W) (u : Unit) :
    validate f x s = .ok u s' ↔ ∃ w, f (s.store x) s.world = (true, w) ∧ s' = { s with world := w } := by
  unfold validate
  cases hf : f (s.store x) s.world with
  | mk b w =>
    cases b
    · simp
    · constructor
      · intro h; cases h; exact ⟨w, rfl, rfl⟩
      · rintro ⟨w', h1, h2⟩; cases h1; rw [h2]

theorem getOptionById_ok {W : Type} (nd : Bool) (d : OptDecl W) (id : Id) (b : Bool) (s s' : FState W) :
    getOptionById nd d id s = .ok b s' ↔
      ∃ vals l', consumeId id s.pre = some (vals, l') ∧
        ((vals = [] ∧ b = false ∧ s' = s) ∨
          ∃ val, vals ≠ [] ∧ b = true ∧ optValue nd d vals [] = some val ∧
            s' = { s with pre := l', store := s.store.set d.var val }) := by
  unfold getOptionById optValue
  split
  · rw [getOptionByIdList_ok]
    constructor
    · rintro ⟨vals, l', h1, h2 | ⟨es, h2, h3, h4, h5⟩⟩
      · exact ⟨vals, l', h1, Or.inl h2⟩
      · refine ⟨vals, l', h1, Or.inr ⟨.many es, h2, h3, ?_, h5⟩⟩
        simp [h4, readListElems]
    · rintro ⟨vals, l', h1, h2 | ⟨val, h2, h3, h4, h5⟩⟩
      · exact ⟨vals, l', h1, Or.inl h2⟩
      · cases hr : readListElems nd d.ty vals with
        | error e => simp [hr] at h4
        | ok es =>
          simp [hr, readListElems] at h4
          subst h4
          exact ⟨vals, l', h1, Or.inr ⟨es, h2, h3, hr, h5⟩⟩
  · rw [getOptionByIdScalar_ok]
    constructor
    · rintro ⟨vals, l', h1, h2 | ⟨v, e, rfl, h3, h4, h5⟩⟩
      · exact ⟨vals, l', h1, Or.inl h2⟩
      · exact ⟨[v], l', h1, Or.inr ⟨.one e, by simp, h3, by simp [h4], h5⟩⟩
    · rintro ⟨vals, l', h1, h2 | ⟨val, h2, h3, h4, h5⟩⟩
      · exact ⟨vals, l', h1, Or.inl h2⟩
      · match vals, h4 with
        | [v], h6 =>
          simp at h6
          obtain ⟨e, h7, rfl⟩ := h6
          exact ⟨[v], l', h1, Or.inr ⟨v, e, rfl, h3, h7, h5⟩⟩

theorem getOption_ok {W : Type} (nd : Bool) (d : OptDecl W) (s s' : FState W) (u : Unit) :
    getOption nd d s = .ok u s' ↔
      ∃ v1 l1 v2 l2, consumeId (.short d.short) s.pre = some (v1, l1) ∧
        consumeId (.long d.long) l1 = some (v2, l2) ∧
        ((v1 = [] ∧ v2 = [] ∧ d.required = false ∧ s' = s) ∨
          (¬ (v1 = [] ∧ v2 = []) ∧ ∃ val w, optValue nd d v1 v2 = some val ∧
            d.validator val s.world = (true, w) ∧
            s' = { s with pre := l2, store := s.store.set d.var val, world := w })) := by
  unfold getOption
  simp only [M.bind_eq_ok]
  constructor
  · rintro ⟨b1, s1, h1, b2, s2, h2, h3⟩
    obtain ⟨v1, l1, c1, r1⟩ := (getOptionById_ok nd d _ _ _ _).1 h1
    obtain ⟨v2, l2, c2, r2⟩ := (getOptionById_ok nd d _ _ _ _).1 h2
    rcases r1 with ⟨rfl, rfl, rfl⟩ | ⟨val1, n1, rfl, ov1, rfl⟩
    · have e1 := consumeId_vals_nil _ _ _ c1
      subst e1
      rcases r2 with ⟨rfl, rfl, rfl⟩ | ⟨val2, n2, rfl, ov2, rfl⟩
      · simp only [Bool.and_self, Bool.false_and, Bool.false_eq_true, if_false, Bool.or_self] at h3
        cases hr : d.required with
        | true => simp [hr] at h3
        | false =>
          simp only [hr, Bool.false_eq_true, if_false] at h3
          cases h3
          exact ⟨[], _, [], l2, c1, c2, Or.inl ⟨rfl, rfl, rfl, rfl⟩⟩
      · simp only [Bool.and_true, Bool.false_and, Bool.false_eq_true, if_false, Bool.or_true, if_true] at h3
        obtain ⟨w, hv, rfl⟩ := (validate_ok _ _ _ _ _).1 h3
        simp at hv
        refine ⟨[], _, v2, l2, c1, c2, Or.inr ⟨by simp [n2], val2, w, ?_, hv, rfl⟩⟩
        unfold optValue at ov2 ⊢
        split at ov2
        · rename_i hl
          cases hr : readListElems nd d.ty v2 with
          | error e => simp [hr] at ov2
          | ok es => simpa [hr, readListElems, n2, hl] using ov2
        · rename_i hl
          simpa [hl] using ov2
    · rcases r2 with ⟨rfl, rfl, rfl⟩ | ⟨val2, n2, rfl, ov2, rfl⟩
      · have e2 := consumeId_vals_nil _ _ _ c2
        simp only at e2
        subst e2
        simp only [Bool.and_false, Bool.false_and, Bool.false_eq_true, if_false, Bool.true_or, if_true] at h3
        obtain ⟨w, hv, rfl⟩ := (validate_ok _ _ _ _ _).1 h3
        simp at hv
        exact ⟨v1, _, [], _, c1, c2, Or.inr ⟨by simp [n1], val1, w, ov1, hv, rfl⟩⟩
      · cases hl : d.isList with
        | false => simp [hl] at h3
        | true =>
          simp only [hl, Bool.and_self, Bool.not_true, Bool.and_false, Bool.false_eq_true, if_false,
            Bool.or_self, if_true] at h3
          obtain ⟨w, hv, rfl⟩ := (validate_ok _ _ _ _ _).1 h3
          simp at hv
          refine ⟨v1, l1, v2, l2, c1, c2, Or.inr ⟨by simp [n1], val2, w, ?_, hv, by simp⟩⟩
          unfold optValue at ov1 ov2 ⊢
          simp only [hl, if_true] at ov1 ov2 ⊢
          cases hr : readListElems nd d.ty v2 with
          | error e => simp [hr] at ov2
          | ok es =>
            cases hr1 : readListElems nd d.ty v1 with
            | error e => simp [hr1] at ov1
            | ok es1 => simpa [hr, readListElems, n2] using ov2
  · rintro ⟨v1, l1, v2, l2, c1, c2, ⟨rfl, rfl, hr, rfl⟩ | ⟨hne, val, w, hov, hv, rfl⟩⟩
    · have e1 := consumeId_vals_nil _ _ _ c1
      subst e1
      refine ⟨false, s', (getOptionById_ok nd d _ _ _ _).2 ⟨[], _, c1, Or.inl ⟨rfl, rfl, rfl⟩⟩,
        false, s', (getOptionById_ok nd d _ _ _ _).2 ⟨[], _, c2, Or.inl ⟨rfl, rfl, rfl⟩⟩, ?_⟩
      simp [hr]
    · by_cases h1 : v1 = []
      · subst h1
        have e1 := consumeId_vals_nil _ _ _ c1
        subst e1
        have n2 : v2 ≠ [] := by simpa using hne
        refine ⟨false, s, (getOptionById_ok nd d _ _ _ _).2 ⟨[], _, c1, Or.inl ⟨rfl, rfl, rfl⟩⟩,
          true, _, (getOptionById_ok nd d _ _ _ _).2 ⟨v2, l2, c2, Or.inr ⟨val, n2, rfl, ?_, rfl⟩⟩, ?_⟩
        · unfold optValue at hov ⊢
          split at hov
          · rename_i hl
            cases hr : readListElems nd d.ty v2 with
            | error e => simp [hr, readListElems] at hov
            | ok es => simpa [hr, readListElems, n2, hl] using hov
          · rename_i hl
            simpa [hl] using hov
        · simp [validate, hv]
      · by_cases h2 : v2 = []
        · subst h2
          have e2 := consumeId_vals_nil _ _ _ c2
          subst e2
          refine ⟨true, _, (getOptionById_ok nd d _ _ _ _).2 ⟨v1, _, c1, Or.inr ⟨val, h1, rfl, hov, rfl⟩⟩,
            false, _, (getOptionById_ok nd d _ _ _ _).2 ⟨[], _, c2, Or.inl ⟨rfl, rfl, rfl⟩⟩, ?_⟩
          simp [validate, hv]
        · unfold optValue at hov
          cases hl : d.isList with
          | false =>
            simp only [hl, Bool.false_eq_true, if_false] at hov
            exfalso
            cases v1 with
            | nil => exact h1 rfl
            | cons a v1 =>
              cases v2 with
              | nil => exact h2 rfl
              | cons b v2 => cases v1 <;> simp at hov
          | true =>
            simp only [hl, if_true] at hov
            cases hr1 : readListElems nd d.ty v1 with
            | error e => simp [hr1] at hov
            | ok es1 =>
              cases hr2 : readListElems nd d.ty v2 with
              | error e => simp [hr1, hr2] at hov
              | ok es2 =>
                simp [hr1, hr2, h2] at hov
                subst hov
                refine ⟨true, _, (getOptionById_ok nd d _ _ _ _).2
                    ⟨v1, _, c1, Or.inr ⟨.many es1, h1, rfl, by simp [optValue, hl, hr1, readListElems], rfl⟩⟩,
                  true, _, (getOptionById_ok nd d _ _ _ _).2
                    ⟨v2, _, c2, Or.inr ⟨.many es2, h2, rfl, by simp [optValue, hl, hr2, readListElems], rfl⟩⟩, ?_⟩
                simp [validate, hv]

end Sharg
