import Verif.Spec.Ends
import Verif.Lemmas.Mixed

/-!
# Lemmas about the endings of `parse()`
-/

namespace Sharg

open Spec

variable {W : Type}

/-- The result with the given ending. -/
def endRes {σ : Type} (r : Option Exn) (s : σ) : Res σ Unit :=
  match r with
  | none => .ok () s
  | some e => .err e s

theorem endRes_inj {σ : Type} {r r' : Option Exn} {s s' : σ} : endRes r s = endRes r' s' ↔ r = r' ∧ s = s' := by
  cases r <;> cases r' <;> simp [endRes]

theorem endRes_exists {σ : Type} (a : Res σ Unit) : ∃ r s, a = endRes r s := by
  cases a with
  | ok u s => exact ⟨none, s, rfl⟩
  | err e s => exact ⟨some e, s, rfl⟩

theorem endRes_bind {σ : Type} {m : M σ Unit} {s : σ} {r : Option Exn} {s₁ : σ} (h : m s = endRes r s₁) (k : Unit → M σ Unit) :
    M.bind m k s = (match (generalizing := false) r with | none => k () s₁ | some e => .err e s₁) := by
  cases r <;> simp only [M.bind_run, h, endRes]

/-! ### Reading a text -/

/-- What `from_chars` does behind the sign. -/
def fromBody (lo hi : Int) (f : Nat → Int) (body : Str) : FromChars :=
  if body.takeWhile isDigit = [] then .invalid
  else if f (digitsVal (body.takeWhile isDigit)) < lo ∨ hi < f (digitsVal (body.takeWhile isDigit)) then .outOfRange
  else .ok (f (digitsVal (body.takeWhile isDigit))) (body.dropWhile isDigit)

theorem fromChars_minus {lo : Int} (hi : Int) (h : lo < 0) (ds : Str) : fromChars lo hi ('-' :: ds) = fromBody lo hi (fun n => -(n : Int)) ds := by
  simp [fromChars, fromBody, h]

theorem fromChars_plain {lo : Int} (hi : Int) {t : Str} (h : ¬ (lo < 0 ∧ t.head? = some '-')) :
    fromChars lo hi t = fromBody lo hi (fun n => (n : Int)) t := by
  have hb : (decide (lo < 0) && (t.head? == some '-')) = false := by
    cases hx : (decide (lo < 0) && (t.head? == some '-')) with
    | false => rfl
    | true => simp at hx; exact absurd hx h
  simp [fromChars, fromBody, hb]

theorem fromBody_ok_append (lo hi : Int) (f : Nat → Int) (a b : Str) (v : Int) (hb : ∀ c, b.head? = some c → c ∉ digits)
    (h : fromBody lo hi f a = .ok v []) : fromBody lo hi f (a ++ b) = .ok v b := by
  have h' := (fromDigits_ok a lo hi v f).1 h
  obtain ⟨⟨hne, hd⟩, rfl, h1, h2⟩ := h'
  obtain ⟨e1, e2⟩ := takeWhile_digits a b hd hb
  unfold fromBody
  rw [e1, e2, if_neg hne, digitsVal_eq a hd, if_neg (by omega)]

theorem fromBody_ok_split (lo hi : Int) (f : Nat → Int) (t : Str) (v : Int) (rest : Str) (h : fromBody lo hi f t = .ok v rest) :
    ∃ a, t = a ++ rest ∧ fromBody lo hi f a = .ok v [] ∧ ∀ c, rest.head? = some c → c ∉ digits := by
  unfold fromBody at h
  split at h
  · cases h
  · rename_i hne
    split at h
    · cases h
    · rename_i hr
      simp only [FromChars.ok.injEq] at h
      obtain ⟨rfl, rfl⟩ := h
      refine ⟨t.takeWhile isDigit, List.takeWhile_append_dropWhile.symm, ?_, head_dropWhile_digits t⟩
      have hd := takeWhile_digits_mem t
      have e := takeWhile_digits (t.takeWhile isDigit) [] hd (by simp)
      rw [List.append_nil] at e
      unfold fromBody
      rw [e.1, e.2, if_neg hne, if_neg hr]

theorem fromChars_ok_append (lo hi : Int) (a b : Str) (v : Int) (hb : ∀ c, b.head? = some c → c ∉ digits)
    (h : DenotesInt lo hi a v) : fromChars lo hi (a ++ b) = .ok v b := by
  have h' := (fromChars_ok lo hi a v).2 h
  by_cases hneg : lo < 0 ∧ a.head? = some '-'
  · obtain ⟨hlo, hh⟩ := hneg
    cases a with
    | nil => simp at hh
    | cons c ds =>
      simp at hh
      subst hh
      rw [fromChars_minus hi hlo] at h'
      rw [List.cons_append, fromChars_minus hi hlo]
      exact fromBody_ok_append _ _ _ _ _ _ hb h'
  · rw [fromChars_plain hi hneg] at h'
    have hne : a ≠ [] := by
      rintro rfl
      simp [fromBody] at h'
    have hneg' : ¬ (lo < 0 ∧ (a ++ b).head? = some '-') := by
      cases a with
      | nil => exact absurd rfl hne
      | cons c a => exact hneg
    rw [fromChars_plain hi hneg']
    exact fromBody_ok_append _ _ _ _ _ _ hb h'

theorem fromChars_ok_split (lo hi : Int) (t : Str) (v : Int) (rest : Str) (h : fromChars lo hi t = .ok v rest) :
    ∃ a, t = a ++ rest ∧ DenotesInt lo hi a v ∧ ∀ c, rest.head? = some c → c ∉ digits := by
  by_cases hneg : lo < 0 ∧ t.head? = some '-'
  · obtain ⟨hlo, hh⟩ := hneg
    cases t with
    | nil => simp at hh
    | cons c ds =>
      simp at hh
      subst hh
      rw [fromChars_minus hi hlo] at h
      obtain ⟨a, rfl, h1, h2⟩ := fromBody_ok_split _ _ _ _ _ _ h
      refine ⟨'-' :: a, rfl, ?_, h2⟩
      rw [← fromChars_ok, fromChars_minus hi hlo]
      exact h1
  · rw [fromChars_plain hi hneg] at h
    obtain ⟨a, rfl, h1, h2⟩ := fromBody_ok_split _ _ _ _ _ _ h
    refine ⟨a, rfl, ?_, h2⟩
    have hne : a ≠ [] := by
      rintro rfl
      simp [fromBody] at h1
    have hneg' : ¬ (lo < 0 ∧ a.head? = some '-') := by
      cases a with
      | nil => exact absurd rfl hne
      | cons c a => exact hneg
    rw [← fromChars_ok, fromChars_plain hi hneg']
    exact h1

theorem fromChars_invalid (lo hi : Int) (t : Str) : fromChars lo hi t = .invalid ↔ ¬ BeginsWithNumber lo t := by
  have key : ∀ (f : Nat → Int) (body : Str), fromBody lo hi f body = .invalid ↔ ¬ ∃ a b, body = a ++ b ∧ IsDecimal a := by
    intro f body
    unfold fromBody
    constructor
    · intro h
      split at h
      · rename_i he
        rintro ⟨a, b, rfl, hne, hd⟩
        cases a with
        | nil => exact hne rfl
        | cons c a =>
          have := (mem_digits_iff c).1 (hd c (by simp))
          simp [this] at he
      · split at h <;> cases h
    · intro h
      rw [if_pos]
      apply Classical.byContradiction
      intro hne
      exact h ⟨_, _, List.takeWhile_append_dropWhile.symm, hne, takeWhile_digits_mem body⟩
  by_cases hneg : lo < 0 ∧ t.head? = some '-'
  · obtain ⟨hlo, hh⟩ := hneg
    cases t with
    | nil => simp at hh
    | cons c ds =>
      simp at hh
      subst hh
      rw [fromChars_minus hi hlo, key]
      refine not_congr ⟨?_, ?_⟩
      · rintro ⟨a, b, rfl, h⟩
        exact ⟨'-' :: a, b, rfl, Or.inr ⟨hlo, a, rfl, h⟩⟩
      · rintro ⟨a, b, he, h | ⟨-, ds', rfl, h⟩⟩
        · cases a with
          | nil => exact absurd rfl h.1
          | cons c a =>
            injection he with h1 _
            subst h1
            exact absurd (h.2 '-' (by simp)) minus_not_digit
        · injection he with _ h1
          exact ⟨ds', b, h1, h⟩
  · rw [fromChars_plain hi hneg, key]
    refine not_congr ⟨?_, ?_⟩
    · rintro ⟨a, b, rfl, h⟩
      exact ⟨a, b, rfl, Or.inl h⟩
    · rintro ⟨a, b, rfl, h | ⟨hlo, ds', rfl, h⟩⟩
      · exact ⟨a, b, rfl, h⟩
      · exact absurd ⟨hlo, rfl⟩ hneg

/-- The text written and the exception. -/
def readScalar (nd : Bool) (ty : ElemTy) (t : Str) : Option Elem × Option Exn :=
  match parseElem ty t with
  | .error e => (none, some e)
  | .ok (res, written) => (written, throwOnInputError nd ty.isArithmetic res)

theorem readsTo_iff (nd : Bool) (ty : ElemTy) (t : Str) (o : Option Elem) (r : Option Exn) :
    ReadsTo ty t o r ↔ readScalar nd ty t = (o, r) := by
  constructor
  · intro h
    cases h with
    | value h => unfold readScalar; rw [(readElem_some ty t _).1 ((readElem_iff ty t _).2 h)]; rfl
    | tooLarge h =>
      cases ty with
      | integer lo hi =>
        simp only [readScalar, parseElem, parseInteger, (fromChars_outOfRange lo hi t).2 h]
        rfl
      | foreign a c =>
        obtain ⟨rfl, h⟩ := h
        simp [readScalar, parseElem, parseForeign, h, throwOnInputError, ElemTy.isArithmetic]
      | _ => cases h
    | beginning h hb hd =>
      simp only [readScalar, parseElem, parseInteger, fromChars_ok_append _ _ _ _ _ hd h]
      rw [if_neg hb]
      rfl
    | @noNumber lo hi _ h => simp only [readScalar, parseElem, parseInteger, (fromChars_invalid lo hi t).2 h]; rfl
    | noTruth h =>
      have h1 : parseBool t = (.error, none) := by
        unfold parseBool
        by_cases a : t = ['0']
        · exact absurd (Or.inr ⟨rfl, Or.inl a⟩) (h (.bool false))
        · by_cases b : t = ['1']
          · exact absurd (Or.inl ⟨rfl, Or.inl b⟩) (h (.bool true))
          · by_cases c : t = ['t', 'r', 'u', 'e']
            · exact absurd (Or.inl ⟨rfl, Or.inr c⟩) (h (.bool true))
            · by_cases d : t = ['f', 'a', 'l', 's', 'e']
              · exact absurd (Or.inr ⟨rfl, Or.inr d⟩) (h (.bool false))
              · simp [a, b, c, d]
      simp only [readScalar, parseElem, h1]
      rfl
    | @noName names _ hn h =>
      have h1 : names.lookup t = none := by
        cases hl : names.lookup t with
        | none => rfl
        | some tag => exact absurd ⟨tag, rfl, (lookup_some_iff names t tag).1 hl⟩ (h (.enumv tag))
      simp [readScalar, parseElem, parseEnum, h1, hn]
    | noNames => simp [readScalar, parseElem, parseEnum]
    | unreadable h => simp [readScalar, parseElem, parseForeign, h, throwOnInputError]
    | strange h => simp [readScalar, parseElem, parseForeign, h, throwOnInputError]
  · intro h
    cases ty with
    | string =>
      simp only [readScalar, parseElem, throwOnInputError, Prod.mk.injEq] at h
      obtain ⟨rfl, rfl⟩ := h
      exact .value rfl
    | boolean =>
      by_cases he : ∃ e, Denotes .boolean t e
      · obtain ⟨e, he⟩ := he
        unfold readScalar at h
        rw [(readElem_some .boolean t e).1 ((readElem_iff _ t e).2 he)] at h
        cases h
        exact .value he
      · have h2 : ∀ e, ¬ Denotes .boolean t e := fun e hd => he ⟨e, hd⟩
        have h1 : parseBool t = (.error, none) := by
          unfold parseBool
          by_cases a : t = ['0']
          · exact absurd (Or.inr ⟨rfl, Or.inl a⟩) (h2 (.bool false))
          · by_cases b : t = ['1']
            · exact absurd (Or.inl ⟨rfl, Or.inl b⟩) (h2 (.bool true))
            · by_cases c : t = ['t', 'r', 'u', 'e']
              · exact absurd (Or.inl ⟨rfl, Or.inr c⟩) (h2 (.bool true))
              · by_cases d : t = ['f', 'a', 'l', 's', 'e']
                · exact absurd (Or.inr ⟨rfl, Or.inr d⟩) (h2 (.bool false))
                · simp [a, b, c, d]
        simp only [readScalar, parseElem, h1] at h
        cases h
        exact .noTruth h2
    | integer lo hi =>
      simp only [readScalar, parseElem, parseInteger] at h
      cases hf : fromChars lo hi t with
      | invalid =>
        rw [hf] at h
        cases h
        exact .noNumber ((fromChars_invalid lo hi t).1 hf)
      | outOfRange =>
        rw [hf] at h
        cases h
        exact .tooLarge ((fromChars_outOfRange lo hi t).1 hf)
      | ok v rest =>
        rw [hf] at h
        obtain ⟨a, rfl, h1, h2⟩ := fromChars_ok_split lo hi t v rest hf
        by_cases hr : rest = []
        · subst hr
          simp only [if_true, throwOnInputError, Prod.mk.injEq] at h
          obtain ⟨rfl, rfl⟩ := h
          rw [List.append_nil]
          exact .value ⟨v, rfl, h1⟩
        · simp only [hr, if_false, throwOnInputError, Prod.mk.injEq] at h
          obtain ⟨rfl, rfl⟩ := h
          exact .beginning h1 hr h2
    | enumeration names =>
      simp only [readScalar, parseElem, parseEnum] at h
      cases hl : names.lookup t with
      | some tag =>
        rw [hl] at h
        cases h
        exact .value ⟨tag, rfl, (lookup_some_iff names t tag).1 hl⟩
      | none =>
        rw [hl] at h
        cases names with
        | nil => cases h; exact .noNames
        | cons n names =>
          cases h
          refine .noName (by simp) ?_
          rintro e ⟨tag, rfl, hd⟩
          rw [(lookup_some_iff _ t tag).2 hd] at hl
          cases hl
    | foreign a c =>
      simp only [readScalar, parseElem, parseForeign] at h
      cases hc : c t with
      | ok e => rw [hc] at h; cases h; exact .value hc
      | fail o => rw [hc] at h; cases h; exact .unreadable hc
      | overflow =>
        rw [hc] at h
        cases a with
        | true => cases h; exact .tooLarge ⟨rfl, hc⟩
        | false => cases h; exact .strange hc

/-- The variable behind a text that was read. -/
def written (x : VarId) (o : Option Elem) (st : Store) : Store :=
  match o with
  | none => st
  | some e => st.set x (.one e)

theorem lift_assign_eq (nd : Bool) (ty : ElemTy) (x : VarId) (t : Str) (st : Store) (w : W) :
    lift (assignScalar nd ty x t) (st, w) = endRes (readScalar nd ty t).2 (written x (readScalar nd ty t).1 st, w) := by
  unfold lift assignScalar readScalar
  cases parseElem ty t with
  | error e => rfl
  | ok r =>
    obtain ⟨res, wr⟩ := r
    cases wr <;> cases hx : throwOnInputError nd ty.isArithmetic res <;>
      simp [throwIf, M.do_bind, M.bind_run, M.pure_run, setVar, M.modify_run, Res.core, FState.core, written, endRes, hx, M.throw]

theorem readListElem_end (nd : Bool) (ty : ElemTy) (t : Str) :
    (∀ e, Denotes ty t e → readListElem nd ty t = .ok [e]) ∧
    (OutOfRange ty t → readListElem nd ty t = if nd then .ok [] else .error .assertFailed) ∧
    (∀ o e, ReadsTo ty t o (some e) → ¬ OutOfRange ty t → readListElem nd ty t = .error e) := by
  refine ⟨fun e h => ?_, fun h => ?_, fun o e h hn => ?_⟩
  · unfold readListElem
    rw [(readElem_some ty t e).1 ((readElem_iff ty t e).2 h)]
    rfl
  · obtain ⟨w, h⟩ := (parseElem_outOfRange ty t).2 h
    unfold readListElem
    rw [h]
    cases nd <;> rfl
  · rw [readsTo_iff nd] at h
    unfold readScalar at h
    unfold readListElem
    cases hp : parseElem ty t with
    | error e' => rw [hp] at h; cases h; rfl
    | ok r =>
      obtain ⟨res, wr⟩ := r
      rw [hp] at h
      cases res with
      | success => cases h
      | error => cases h; rfl
      | overflowError => exact absurd ((parseElem_outOfRange ty t).1 ⟨wr, hp⟩) hn

/-- Every text has one of the three fates. -/
theorem element_cases (nd : Bool) (ty : ElemTy) (t : Str) :
    (∃ e, Denotes ty t e) ∨ OutOfRange ty t ∨ (∃ o e, ReadsTo ty t o (some e) ∧ ¬ OutOfRange ty t) := by
  by_cases ho : OutOfRange ty t
  · exact Or.inr (Or.inl ho)
  · have h : ReadsTo ty t (readScalar nd ty t).1 (readScalar nd ty t).2 := (readsTo_iff nd ty t _ _).2 rfl
    cases hr : (readScalar nd ty t).2 with
    | some e => rw [hr] at h; exact Or.inr (Or.inr ⟨_, e, h, ho⟩)
    | none =>
      rw [hr] at h
      generalize (readScalar nd ty t).1 = o at h
      cases h with
      | value h => exact Or.inl ⟨_, h⟩

/-! ### Lists -/

theorem elementsEnd_run (nd : Bool) (ty : ElemTy) (x : VarId) {ts : List Str} {es : List Elem} {r : Option Exn} (h : ElementsEnd nd ty ts es r) :
    ∀ (es₀ : List Elem) (st : Store) (w : W), M.forEach (fun t => lift (appendList nd ty x t)) ts (st.set x (.many es₀), w) =
      endRes r (st.set x (.many (es₀ ++ es)), w) := by
  induction h with
  | nil => intro es₀ st w; rw [List.append_nil]; rfl
  | @take t ts e es r hd _ ih =>
    intro es₀ st w
    rw [M.forEach_cons, M.bind_run, lift_append_eq, (readListElem_end nd ty t).1 e hd]
    dsimp only
    rw [ih, List.append_assoc]
    rfl
  | @drop t ts es r hn ho _ ih =>
    intro es₀ st w
    rw [M.forEach_cons, M.bind_run, lift_append_eq, (readListElem_end nd ty t).2.1 ho, if_pos hn]
    dsimp only
    rw [ih, List.append_nil]
  | @assert t ts hn ho =>
    intro es₀ st w
    rw [M.forEach_cons, M.bind_run, lift_append_eq, (readListElem_end nd ty t).2.1 ho, if_neg (by simp [hn]), List.append_nil]
    rfl
  | @stop t ts o e hr hn =>
    intro es₀ st w
    rw [M.forEach_cons, M.bind_run, lift_append_eq, (readListElem_end nd ty t).2.2 o e hr hn, List.append_nil]
    rfl

theorem elementsEnd_exists (nd : Bool) (ty : ElemTy) (ts : List Str) : ∃ es r, ElementsEnd nd ty ts es r := by
  induction ts with
  | nil => exact ⟨_, _, .nil⟩
  | cons t ts ih =>
    obtain ⟨es, r, ih⟩ := ih
    rcases element_cases nd ty t with ⟨e, h⟩ | h | ⟨o, e, h, hn⟩
    · exact ⟨_, _, .take h ih⟩
    · cases nd with
      | true => exact ⟨_, _, .drop rfl h ih⟩
      | false => exact ⟨_, _, .assert rfl h⟩
    · exact ⟨_, _, .stop h hn⟩

theorem absList_run (nd : Bool) (ty : ElemTy) (x : VarId) {ts : List Str} (hne : ts ≠ []) {es : List Elem} {r : Option Exn}
    (h : ElementsEnd nd ty ts es r) (st : Store) (w : W) :
    absList nd ty x ts (st, w) = (match r with | none => .ok true (st.set x (.many es), w) | some e => .err e (st.set x (.many es), w)) := by
  cases ts with
  | nil => exact absurd rfl hne
  | cons t ts =>
    have := elementsEnd_run nd ty x h [] st w
    rw [List.nil_append] at this
    simp only [absList, M.bind_run, lift_setVar, this]
    cases r <;> rfl

/-! ### Single values -/

theorem assignEnds_cons (nd : Bool) {ty : ElemTy} {x : VarId} {t : Str} {ts : List Str} {st st' : Store} {r : Option Exn}
    (h : AssignEnds ty x (t :: ts) st st' r) (w : W) :
    (∃ e, r = some e ∧ lift (assignScalar nd ty x t) (st, w) = .err e (st', w)) ∨
    (∃ st₁, lift (assignScalar nd ty x t) (st, w) = .ok () (st₁, w) ∧ AssignEnds ty x ts st₁ st' r) := by
  cases h with
  | @next _ _ _ _ _ e hd hr => exact Or.inr ⟨st.set x (.one e), by rw [lift_assign_eq, (readsTo_iff nd ty t _ _).1 (.value hd)]; rfl, hr⟩
  | @stopWritten _ _ _ e exn hd => exact Or.inl ⟨exn, rfl, by rw [lift_assign_eq, (readsTo_iff nd ty t _ _).1 hd]; rfl⟩
  | @stop _ _ _ exn hd => exact Or.inl ⟨exn, rfl, by rw [lift_assign_eq, (readsTo_iff nd ty t _ _).1 hd]; rfl⟩

theorem assignEnds_one (nd : Bool) {ty : ElemTy} {x : VarId} {t : Str} {st st' : Store} {r : Option Exn}
    (h : AssignEnds ty x [t] st st' r) (w : W) : lift (assignScalar nd ty x t) (st, w) = endRes r (st', w) := by
  rcases assignEnds_cons nd h w with ⟨e, rfl, h2⟩ | ⟨st₁, h2, h1⟩
  · exact h2
  · cases h1; exact h2

theorem assignEnds_exists (ty : ElemTy) (x : VarId) (ts : List Str) : ∀ st, ∃ st' r, AssignEnds ty x ts st st' r := by
  induction ts with
  | nil => exact fun st => ⟨_, _, .nil⟩
  | cons t ts ih =>
    intro st
    have h : ReadsTo ty t (readScalar true ty t).1 (readScalar true ty t).2 := (readsTo_iff true ty t _ _).2 rfl
    generalize (readScalar true ty t).1 = o at h
    generalize (readScalar true ty t).2 = r at h
    cases r with
    | some e =>
      cases o with
      | none => exact ⟨_, _, .stop h⟩
      | some v => exact ⟨_, _, .stopWritten h⟩
    | none =>
      cases h with
      | @value _ _ e h =>
        obtain ⟨st', r, ih⟩ := ih (st.set x (.one e))
        exact ⟨_, _, .next h ih⟩

/-! ### One option -/

theorem shortTexts_eq (d : OptDecl W) (items : List Item) : shortTexts d items = shortValues d items := by
  unfold shortTexts shortValues
  congr 1
  funext it
  cases it <;> simp [Id.valueIn]
  rename_i c _ _
  by_cases h : c = d.short <;> simp [h, eq_comm]

theorem checkEnds_run (f : Val → W → Bool × W) (x : VarId) {st₁ st' : Store} {w w' : W} {r : Option Exn}
    (h : CheckEnds f x st₁ none w st' w' r) : lift (validate f x) (st₁, w) = endRes r (st', w') := by
  obtain ⟨rfl, b, h1, rfl⟩ := h
  rw [lift_validate, h1]
  cases b <;> rfl

theorem checkEnds_exists (f : Val → W → Bool × W) (x : VarId) (st₁ : Store) (r₁ : Option Exn) (w : W) :
    ∃ st' w' r, CheckEnds f x st₁ r₁ w st' w' r := by
  cases r₁ with
  | some e => exact ⟨_, _, _, rfl, rfl, rfl⟩
  | none => exact ⟨_, _, _, rfl, _, rfl, rfl⟩

theorem absOption_list_run (nd : Bool) (d : OptDecl W) (hl : d.isList = true) {ss ls : List Str} (hne : ¬ (ss = [] ∧ ls = []))
    {st st₁ st' : Store} {w w' : W} {r₁ r : Option Exn} (h : ListEnds nd d.ty d.var ss ls st st₁ r₁)
    (hc : CheckEnds d.validator d.var st₁ r₁ w st' w' r) : absOption nd d ss ls (st, w) = endRes r (st', w') := by
  unfold absOption absById
  simp only [hl, if_true, M.bind_run]
  unfold ListEnds at h
  split at h
  · rename_i hls
    subst hls
    obtain ⟨es, h, rfl⟩ := h
    rw [absList_run nd d.ty d.var (fun hs => hne ⟨hs, rfl⟩) h]
    cases r₁ with
    | some e => obtain ⟨rfl, rfl, rfl⟩ := hc; rfl
    | none =>
      simp only [absList, M.pure_run]
      exact checkEnds_run _ _ hc
  · rename_i hls
    obtain ⟨es₁, r₂, h1, h2⟩ := h
    by_cases hss : ss = []
    · subst hss
      cases h1
      obtain ⟨es, h, rfl⟩ := h2
      rw [show absList nd d.ty d.var [] (st, w) = .ok false (st, w) from rfl]
      dsimp only
      rw [absList_run nd d.ty d.var hls h]
      cases r₁ with
      | some e => obtain ⟨rfl, rfl, rfl⟩ := hc; rfl
      | none => exact checkEnds_run _ _ hc
    · rw [absList_run nd d.ty d.var hss h1]
      cases r₂ with
      | some e => obtain ⟨rfl, rfl⟩ := h2; obtain ⟨rfl, rfl, rfl⟩ := hc; rfl
      | none =>
        obtain ⟨es, h, rfl⟩ := h2
        dsimp only
        rw [absList_run nd d.ty d.var hls h]
        simp only [Store.set_set]
        cases r₁ with
        | some e => obtain ⟨rfl, rfl, rfl⟩ := hc; rfl
        | none => exact checkEnds_run _ _ hc

theorem absOption_scalar_run (nd : Bool) (d : OptDecl W) (hl : d.isList = false) {ss ls : List Str} (hne : ¬ (ss = [] ∧ ls = []))
    {st st₁ st' : Store} {w w' : W} {r₁ r : Option Exn} (h : ScalarEnds d.ty d.var ss ls st st₁ r₁)
    (hc : CheckEnds d.validator d.var st₁ r₁ w st' w' r) : absOption nd d ss ls (st, w) = endRes r (st', w') := by
  obtain ⟨r₂, h, rfl⟩ := h
  unfold absOption absById
  simp only [hl, Bool.false_eq_true, if_false, M.bind_run]
  match ss, ls with
  | [], [] => exact absurd ⟨rfl, rfl⟩ hne
  | [], [u] =>
    rw [show tried [] [u] = [u] from rfl] at h
    have := assignEnds_one nd h w
    simp only [absScalar, M.pure_run, M.bind_run, this]
    cases r₂ with
    | some e => obtain ⟨rfl, rfl, rfl⟩ := hc; rfl
    | none => exact checkEnds_run _ _ hc
  | [], u :: u' :: us =>
    rw [show tried [] (u :: u' :: us) = [u] from rfl] at h
    have := assignEnds_one nd h w
    simp only [absScalar, M.pure_run, M.bind_run, this]
    cases r₂ with
    | some e => obtain ⟨rfl, rfl, rfl⟩ := hc; rfl
    | none =>
      simp only [List.length_nil, List.length_cons, Nat.zero_add, show (2 ≤ us.length + 1 + 1) = True by simp, if_true] at hc
      obtain ⟨rfl, rfl, rfl⟩ := hc
      rfl
  | [t], [] =>
    rw [show tried [t] [] = [t] from rfl] at h
    have := assignEnds_one nd h w
    simp only [absScalar, M.pure_run, M.bind_run, this]
    cases r₂ with
    | some e => obtain ⟨rfl, rfl, rfl⟩ := hc; rfl
    | none => exact checkEnds_run _ _ hc
  | [t], u :: us =>
    rw [show tried [t] (u :: us) = [t, u] from rfl] at h
    have hcc : ∀ e, r₂ = none → endRes (some .optionDeclaredMultipleTimes) (st₁, w) = (.err e (st₁, w) : Res (Core W) Unit) →
        endRes r (st', w') = (.err e (st₁, w) : Res (Core W) Unit) := by
      rintro e rfl he
      have h2 : 2 ≤ [t].length + (u :: us).length := by simp only [List.length_cons, List.length_nil]; omega
      dsimp only at hc
      rw [if_pos h2] at hc
      obtain ⟨rfl, rfl, rfl⟩ := hc
      exact he
    rcases assignEnds_cons nd h w with ⟨e, rfl, h1⟩ | ⟨st₂, h1, h2⟩
    · simp only [absScalar, M.bind_run, h1]
      obtain ⟨rfl, rfl, rfl⟩ := hc
      rfl
    · have h3 := assignEnds_one nd h2 w
      cases us with
      | nil =>
        simp only [absScalar, M.bind_run, h1, M.pure_run, h3]
        cases r₂ with
        | some e => obtain ⟨rfl, rfl, rfl⟩ := hc; rfl
        | none => exact (hcc _ rfl rfl).symm
      | cons u' us =>
        simp only [absScalar, M.bind_run, h1, M.pure_run, h3]
        cases r₂ with
        | some e => obtain ⟨rfl, rfl, rfl⟩ := hc; rfl
        | none => exact (hcc _ rfl rfl).symm
  | t :: t' :: ts, ls =>
    have ht : tried (t :: t' :: ts) ls = [t] := by
      unfold tried
      rw [if_pos (by simp only [List.length_cons]; omega)]
      rfl
    rw [ht] at h
    have := assignEnds_one nd h w
    simp only [absScalar, M.bind_run, this]
    cases r₂ with
    | some e => obtain ⟨rfl, rfl, rfl⟩ := hc; rfl
    | none =>
      have h2 : 2 ≤ (t :: t' :: ts).length + ls.length := by simp only [List.length_cons]; omega
      dsimp only at hc
      rw [if_pos h2] at hc
      obtain ⟨rfl, rfl, rfl⟩ := hc
      rfl

theorem optionEnds_run (nd : Bool) (items : List Item) (d : OptDecl W) {st st' : Store} {w w' : W} {r : Option Exn}
    (h : OptionEnds nd items d st w st' w' r) :
    absOption nd d (shortValues d items) (longValues d items) (st, w) = endRes r (st', w') := by
  unfold OptionEnds at h
  rw [shortTexts_eq, longTexts_eq] at h
  split at h
  · rename_i hn
    obtain ⟨rfl, rfl, rfl⟩ := h
    rw [hn.1, hn.2]
    unfold absOption
    have h0 : absById nd d [] = M.pure false := by unfold absById; split <;> rfl
    simp only [h0, M.bind_run, M.pure_run]
    cases d.required <;> rfl
  · rename_i hn
    obtain ⟨st₁, r₁, h1, h2⟩ := h
    split at h1
    · rename_i hl; exact absOption_list_run nd d hl hn h1 h2
    · rename_i hl; exact absOption_scalar_run nd d (by simpa using hl) hn h1 h2

theorem optionEnds_exists (nd : Bool) (items : List Item) (d : OptDecl W) (st : Store) (w : W) :
    ∃ st' w' r, OptionEnds nd items d st w st' w' r := by
  unfold OptionEnds
  split
  · exact ⟨_, _, _, rfl, rfl, rfl⟩
  · have : ∃ st₁ r₁, (if d.isList then ListEnds nd d.ty d.var (shortTexts d items) (longTexts d items) st st₁ r₁
        else ScalarEnds d.ty d.var (shortTexts d items) (longTexts d items) st st₁ r₁) := by
      split
      · unfold ListEnds
        split
        · obtain ⟨es, r, h⟩ := elementsEnd_exists nd d.ty (shortTexts d items)
          exact ⟨_, r, es, h, rfl⟩
        · obtain ⟨es₁, r₁, h1⟩ := elementsEnd_exists nd d.ty (shortTexts d items)
          cases r₁ with
          | some e => exact ⟨_, _, es₁, _, h1, rfl, rfl⟩
          | none =>
            obtain ⟨es, r, h⟩ := elementsEnd_exists nd d.ty (longTexts d items)
            exact ⟨_, r, es₁, _, h1, es, h, rfl⟩
      · obtain ⟨st', r, h⟩ := assignEnds_exists d.ty d.var (tried (shortTexts d items) (longTexts d items)) st
        exact ⟨st', _, r, h, rfl⟩
    obtain ⟨st₁, r₁, h⟩ := this
    obtain ⟨st', w', r, hc⟩ := checkEnds_exists d.validator d.var st₁ r₁ w
    exact ⟨st', w', r, st₁, r₁, h, hc⟩

theorem optionsEnd_run (nd : Bool) (items : List Item) (ds : List (OptDecl W)) : ∀ {st st' : Store} {w w' : W} {r : Option Exn},
    OptionsEnd nd items ds st w st' w' r → absOptions nd items ds (st, w) = endRes r (st', w') := by
  induction ds with
  | nil => rintro st st' w w' r ⟨rfl, rfl, rfl⟩; rfl
  | cons d ds ih =>
    rintro st st' w w' r ⟨st₁, w₁, r₁, h1, h2⟩
    have h3 := optionEnds_run nd items d h1
    unfold absOptions
    rw [M.forEach_cons, M.bind_run, h3]
    cases r₁ with
    | some e => obtain ⟨rfl, rfl, rfl⟩ := h2; rfl
    | none => exact ih h2

theorem optionsEnd_exists (nd : Bool) (items : List Item) (ds : List (OptDecl W)) : ∀ (st : Store) (w : W),
    ∃ st' w' r, OptionsEnd nd items ds st w st' w' r := by
  induction ds with
  | nil => exact fun st w => ⟨_, _, _, rfl, rfl, rfl⟩
  | cons d ds ih =>
    intro st w
    obtain ⟨st₁, w₁, r₁, h⟩ := optionEnds_exists nd items d st w
    cases r₁ with
    | some e => exact ⟨_, _, _, st₁, w₁, _, h, rfl, rfl, rfl⟩
    | none =>
      obtain ⟨st', w', r, h'⟩ := ih st₁ w₁
      exact ⟨st', w', r, st₁, w₁, none, h, h'⟩

/-! ### Positional options -/

theorem positionalsEnd_run (nd : Bool) (ds : List (PosDecl W)) (hlast : ∀ d ∈ ds.dropLast, d.isList = false) :
    ∀ {ts : List Str} {st st' : Store} {w w' : W} {r : Option Exn},
      PositionalsEnd nd ds ts st w st' w' r → absPositionals nd ds ts (st, w) = endRes r (st', w') := by
  induction ds with
  | nil =>
    intro ts st st' w w' r h
    cases ts with
    | nil => obtain ⟨rfl, rfl, rfl⟩ := h; rfl
    | cons t ts => obtain ⟨rfl, rfl, rfl⟩ := h; rfl
  | cons d ds ih =>
    intro ts st st' w w' r h
    cases ts with
    | nil => obtain ⟨rfl, rfl, rfl⟩ := h; rfl
    | cons t ts =>
      unfold PositionalsEnd at h
      split at h
      · rename_i hl
        have hds : ds = [] := by
          cases ds with
          | nil => rfl
          | cons e ds =>
            have := hlast d (by simp)
            rw [hl] at this
            cases this
        subst hds
        obtain ⟨es, r₁, h1, h2⟩ := h
        have h3 := elementsEnd_run nd d.ty d.var h1 [] st w
        rw [List.nil_append] at h3
        unfold absPositionals absPositional
        simp only [hl, if_true, List.isEmpty_nil, Bool.not_true, Bool.and_false, Bool.false_eq_true, if_false, M.bind_run, lift_setVar, h3]
        cases r₁ with
        | some e => obtain ⟨rfl, rfl, rfl⟩ := h2; rfl
        | none =>
          have h4 := checkEnds_run _ _ h2
          simp only [endRes] at h4 ⊢
          rw [h4]
          cases r <;> rfl
      · rename_i hl
        have hl' : d.isList = false := by simpa using hl
        obtain ⟨st₁, r₁, st₂, w₂, r₂, h1, h2, h3⟩ := h
        have h4 := assignEnds_one nd h1 w
        unfold absPositionals absPositional
        simp only [hl', Bool.false_eq_true, if_false, M.bind_run, h4]
        cases r₁ with
        | some e => obtain ⟨rfl, rfl, rfl⟩ := h2; obtain ⟨rfl, rfl, rfl⟩ := h3; rfl
        | none =>
          have h5 := checkEnds_run _ _ h2
          simp only [endRes] at h5 ⊢
          rw [h5]
          cases r₂ with
          | some e => obtain ⟨rfl, rfl, rfl⟩ := h3; rfl
          | none =>
            refine ih (fun d' hd' => hlast d' ?_) h3
            cases ds with
            | nil => simp at hd'
            | cons e ds => rw [List.dropLast_cons_of_ne_nil (by simp)]; exact List.mem_cons_of_mem _ hd'

theorem positionalsEnd_exists (nd : Bool) (ds : List (PosDecl W)) : ∀ (ts : List Str) (st : Store) (w : W),
    ∃ st' w' r, PositionalsEnd nd ds ts st w st' w' r := by
  induction ds with
  | nil =>
    intro ts st w
    cases ts with
    | nil => exact ⟨_, _, _, rfl, rfl, rfl⟩
    | cons t ts => exact ⟨_, _, _, rfl, rfl, rfl⟩
  | cons d ds ih =>
    intro ts st w
    cases ts with
    | nil => exact ⟨_, _, _, rfl, rfl, rfl⟩
    | cons t ts =>
      unfold PositionalsEnd
      split
      · obtain ⟨es, r₁, h1⟩ := elementsEnd_exists nd d.ty (t :: ts)
        obtain ⟨st', w', r, h2⟩ := checkEnds_exists d.validator d.var (st.set d.var (.many es)) r₁ w
        exact ⟨st', w', r, es, r₁, h1, h2⟩
      · obtain ⟨st₁, r₁, h1⟩ := assignEnds_exists d.ty d.var [t] st
        obtain ⟨st₂, w₂, r₂, h2⟩ := checkEnds_exists d.validator d.var st₁ r₁ w
        cases r₂ with
        | some e => exact ⟨_, _, _, st₁, r₁, st₂, w₂, _, h1, h2, rfl, rfl, rfl⟩
        | none =>
          obtain ⟨st', w', r, h3⟩ := ih ts st₂ w₂
          exact ⟨st', w', r, st₁, r₁, st₂, w₂, none, h1, h2, h3⟩

/-! ### Flags, also repeated ones -/

/-- Arguments made by the items: groups without dashes and zero characters inside, and no `--` alone. -/
def NeatCell (a : Str) : Prop := a ≠ ['-', '-'] ∧ ∀ y t, a = '-' :: y :: t → y ≠ '-' → '-' ∉ y :: t ∧ '\x00' ∉ y :: t

theorem neatCell_nil : NeatCell [] := ⟨by simp, by simp⟩

theorem neatCell_flagCell {c : Char} (hc : c ≠ '-') {a a' : Str} (h : NeatCell a) (hf : flagCell c a = some a') : NeatCell a' := by
  obtain ⟨y, t, rfl, hy, hmem, rfl⟩ := flagCell_spec c hc a a' hf
  obtain ⟨h1, h2⟩ := h.2 y t rfl hy
  split
  · exact neatCell_nil
  · have h3 : '-' ∉ (y :: t).erase c := fun hm => h1 (List.mem_of_mem_erase hm)
    have h4 : '\x00' ∉ (y :: t).erase c := fun hm => h2 (List.mem_of_mem_erase hm)
    generalize (y :: t).erase c = l at h3 h4
    refine ⟨?_, ?_⟩
    · intro he
      injection he with _ he
      subst he
      simp at h3
    · intro y' t' he _
      injection he with _ he
      subst he
      exact ⟨h3, h4⟩

/-- The short flag is found where it is mentioned. -/
theorem flagCell_none_mentions {f : FlagDecl} {a : Str} (ha : a ≠ '-' :: '-' :: f.long) (hn : flagCell f.short a = none) :
    cellMentions f a = 0 := by
  cases a with
  | nil => rfl
  | cons c a =>
    by_cases hc : c = '-'
    · subst hc
      cases a with
      | nil => exact cellMentions_dash f
      | cons y t =>
        by_cases hy : y = '-'
        · subst hy
          rw [cellMentions_long, if_neg]
          rintro ⟨rfl, -⟩
          exact ha rfl
        · rw [cellMentions_group f y t hy]
          split
          · rfl
          · rw [List.count_eq_zero]
            intro hm
            have : flagCell f.short ('-' :: y :: t) ≠ none := by
              simp only [flagCell]
              rw [if_pos ⟨hy, List.mem_cons_of_mem _ hm⟩]
              simp
            exact this hn
    · unfold cellMentions
      split
      · rename_i h; injection h with h _; exact absurd h hc
      · rename_i h; injection h with h _; exact absurd h hc
      · rfl

theorem flagCell_some_mentions {f : FlagDecl} (hf : f.short ≠ '-') {a a' : Str} (ha : NeatCell a) (hs : flagCell f.short a = some a') :
    cellMentions f a ≠ 0 := by
  obtain ⟨y, t, rfl, hy, hmem, -⟩ := flagCell_spec _ hf a a' hs
  obtain ⟨h1, h2⟩ := ha.2 y t rfl hy
  rw [cellMentions_group f y t hy, if_neg]
  · intro h; exact List.count_eq_zero.1 h hmem
  · rintro (h | h)
    · exact h1 h
    · rw [h] at hmem; exact h2 hmem

/-- Taking out another flag leaves the mentions of this one. -/
theorem flagCell_other_mentions {f g : FlagDecl} (hg : g.short ≠ '-') (hn : ¬ sameFlag f g) {a a' : Str} (ha : NeatCell a)
    (hs : flagCell g.short a = some a') : cellMentions f a' = cellMentions f a := by
  obtain ⟨y, t, rfl, hy, hmem, rfl⟩ := flagCell_spec _ hg a a' hs
  obtain ⟨h1, h2⟩ := ha.2 y t rfl hy
  have h3 : '-' ∉ (y :: t).erase g.short := fun hm => h1 (List.mem_of_mem_erase hm)
  by_cases h0 : f.short = '\x00'
  · rw [cellMentions_group f y t hy, if_pos (Or.inr h0)]
    split
    · rfl
    · rw [cellMentions_of_group f _ h3, if_pos h0]
  · have hne : f.short ≠ g.short := fun he => hn (Or.inl ⟨h0, he.symm⟩)
    have hc : ((y :: t).erase g.short).count f.short = (y :: t).count f.short := List.count_erase_of_ne hne
    have h4 : ¬ ('-' ∈ y :: t ∨ f.short = '\x00') := fun h => h.elim h1 h0
    rw [cellMentions_group f y t hy, if_neg h4]
    split
    · rename_i he
      rw [he] at hc
      rw [cellMentions_nil, ← hc]
      rfl
    · rw [cellMentions_of_group f _ h3, if_neg h0, hc]

theorem argMentions_cell (f : FlagDecl) (l1 l2 : List Str) (b : Str) :
    argMentions f (l1 ++ b :: l2) = argMentions f l1 + (cellMentions f b + argMentions f l2) := by
  simp [argMentions]

/-- One flag: the variable is set if and only if the flag is mentioned. -/
theorem getFlag_neat {f : FlagDecl} (hf : f.short ≠ '-') (s : FState W) (hneat : ∀ a ∈ s.pre, NeatCell a)
    (hpost : flagShort f.short s.post = none) :
    ∃ pre', getFlag f s = .ok () ⟨pre', s.post, if argMentions f s.pre = 0 then s.store else s.store.set f.var (.one (.bool true)), s.world⟩ ∧
      (∀ a ∈ pre', NeatCell a) ∧ ∀ h, ¬ sameFlag h f → argMentions h pre' = argMentions h s.pre := by
  unfold getFlag
  cases h1 : flagShort f.short s.pre with
  | some pre' =>
    obtain ⟨x, a, a', y, e1, rfl, e3, _⟩ := flagShort_spec _ _ _ h1
    have ha : NeatCell a := hneat a (by rw [e1]; simp)
    refine ⟨x ++ a' :: y, ?_, ?_, ?_⟩
    · rw [if_neg]
      rw [e1, argMentions_cell]
      have := flagCell_some_mentions hf ha e3
      omega
    · intro b hb
      rcases List.mem_append.1 hb with hb | hb
      · exact hneat b (by rw [e1]; simp [hb])
      · rcases List.mem_cons.1 hb with rfl | hb
        · exact neatCell_flagCell hf ha e3
        · exact hneat b (by rw [e1]; simp [hb])
    · intro h hn
      rw [e1, argMentions_cell, argMentions_cell, flagCell_other_mentions hf hn ha e3]
  | none =>
    have hcell : ∀ a ∈ s.pre, flagCell f.short a = none := by
      have key : ∀ l, flagShort f.short l = none → ∀ a ∈ l, flagCell f.short a = none := by
        intro l
        induction l with
        | nil => simp
        | cons b l ih =>
          intro h
          simp only [flagShort] at h
          cases hb : flagCell f.short b with
          | some b' => rw [hb] at h; cases h
          | none =>
            rw [hb] at h
            simp only [Option.map_eq_none_iff] at h
            intro a ha
            rcases List.mem_cons.1 ha with rfl | ha
            · exact hb
            · exact ih h a ha
      exact key _ h1
    dsimp only
    rw [hpost]
    dsimp only
    cases h2 : flagLong f.long s.pre with
    | some pre' =>
      obtain ⟨x, y, e1, rfl⟩ := flagLong_spec _ _ _ h2
      have hl : f.long ≠ [] := by
        intro h0
        rw [h0] at e1
        exact (hneat ['-', '-'] (by rw [e1]; simp)).1 rfl
      refine ⟨x ++ [] :: y, ?_, ?_, ?_⟩
      · rw [if_neg]
        rw [e1, argMentions_cell, cellMentions_long, if_pos ⟨rfl, hl⟩]
        omega
      · intro b hb
        rcases List.mem_append.1 hb with hb | hb
        · exact hneat b (by rw [e1]; simp [hb])
        · rcases List.mem_cons.1 hb with rfl | hb
          · exact neatCell_nil
          · exact hneat b (by rw [e1]; simp [hb])
      · intro h hn
        rw [e1, argMentions_cell, argMentions_cell, cellMentions_long, if_neg, cellMentions_nil]
        rintro ⟨e, hne⟩
        exact hn (Or.inr ⟨hne, e⟩)
    | none =>
      refine ⟨s.pre, ?_, hneat, fun _ _ => rfl⟩
      have hno : ∀ a ∈ s.pre, a ≠ '-' :: '-' :: f.long := by
        have key : ∀ l, flagLong f.long l = none → ∀ a ∈ l, a ≠ '-' :: '-' :: f.long := by
          intro l
          induction l with
          | nil => simp
          | cons b l ih =>
            intro h
            simp only [flagLong] at h
            split at h
            · cases h
            · rename_i hb
              simp only [Option.map_eq_none_iff] at h
              intro a ha
              rcases List.mem_cons.1 ha with rfl | ha
              · exact hb
              · exact ih h a ha
        exact key _ h2
      have h0 : argMentions f s.pre = 0 := by
        unfold argMentions
        rw [List.sum_eq_zero_iff_forall_eq_nat]
        intro n hn
        obtain ⟨a, ha, rfl⟩ := List.mem_map.1 hn
        exact flagCell_none_mentions (hno a ha) (hcell a ha)
      rw [if_pos h0]

theorem flags_neat {D : Decls W} (hD : IdsOk D) (items : List Item) (post : List Str) (hpost : ∀ f ∈ D.flags, flagShort f.short post = none)
    (fs : List FlagDecl) : ∀ (gs : List FlagDecl) (pre : List Str) (st : Store) (w : W), D.flags = gs ++ fs → (∀ a ∈ pre, NeatCell a) →
      (∀ f ∈ fs, argMentions f pre = mentions f items) →
      ∃ pre', M.forEach getFlag fs ⟨pre, post, st, w⟩ = .ok () ⟨pre', post, setFlags items fs st, w⟩ := by
  induction fs with
  | nil => exact fun gs pre st w _ _ _ => ⟨pre, rfl⟩
  | cons f fs ih =>
    intro gs pre st w hsplit hneat hm
    have hf : f ∈ D.flags := by rw [hsplit]; simp
    obtain ⟨pre₁, h1, h2, h3⟩ := getFlag_neat (flag_short_dash hD hf) ⟨pre, post, st, w⟩ hneat (hpost f hf)
    rw [hm f (by simp)] at h1
    rw [M.forEach_cons, M.bind_run, h1]
    refine ih (gs ++ [f]) pre₁ _ w (by simp [hsplit]) h2 (fun h hh => ?_)
    rw [h3 h, hm h (by simp [hh])]
    obtain ⟨a, b, rfl⟩ := List.append_of_mem hh
    exact not_sameFlag hD (show D.flags = (gs ++ f :: a) ++ h :: b by simp [hsplit]) f (Or.inl (by simp))

theorem Spec.Item.Said.loose {D : Decls W} (hD : IdsOk D) {it : Item} (h : it.Said D) : it.Loose D := by
  cases it with
  | short c form v => exact Spec.Item.Ok.loose hD h
  | long s sep v => exact Spec.Item.Ok.loose hD h
  | flags cs => exact h.2.2.2
  | longFlag s => exact h.2
  | word v => exact Spec.Item.Ok.loose hD h

theorem Spec.Item.Ok.said {D : Decls W} (hD : IdsOk D) {it : Item} (h : it.Ok D) : it.Said D ∧ it.Known D := by
  have hl := h.loose hD
  cases it with
  | short c form v => exact ⟨h, trivial⟩
  | long s sep v => exact ⟨h, trivial⟩
  | flags cs =>
    obtain ⟨hne, hcs⟩ := h
    refine ⟨⟨hne, fun hm => ?_, fun hm => (hcs _ hm).1 rfl, hl⟩, fun c hc => (hcs c hc).2⟩
    obtain ⟨h0, g, hg, h⟩ := hcs '-' hm
    exact flag_short_dash hD hg h
  | longFlag s => exact ⟨⟨h.1, hl⟩, h.2⟩
  | word v => exact ⟨h, trivial⟩

theorem Spec.Item.Said.ok {D : Decls W} {it : Item} (h : it.Said D) (hk : it.Known D) : it.Ok D := by
  cases it with
  | short c form v => exact h
  | long s sep v => exact h
  | flags cs => exact ⟨h.1, fun c hc => ⟨fun h0 => h.2.2.1 (h0 ▸ hc), hk c hc⟩⟩
  | longFlag s => exact ⟨h.1, hk⟩
  | word v => exact h

theorem neat_others {D : Decls W} (items : List Item) (hit : ∀ it ∈ items, it.Said D) : ∀ a ∈ others items, NeatCell a := by
  intro a ha
  unfold others at ha
  obtain ⟨it, hi, ha⟩ := List.mem_flatMap.1 ha
  have hok := hit it hi
  cases it with
  | short c form v => simp [Item.other] at ha
  | long s sep v => simp [Item.other] at ha
  | flags cs =>
    obtain ⟨hne, hd, h0, -⟩ := hok
    have ha : a = '-' :: cs := by simpa [Item.other, Item.render] using ha
    subst ha
    refine ⟨?_, ?_⟩
    · intro he; injection he with _ he; subst he; simp at hd
    · intro y t he _
      injection he with _ he
      subst he
      exact ⟨hd, h0⟩
  | longFlag s =>
    have ha : a = '-' :: '-' :: s := by simpa [Item.other, Item.render] using ha
    subst ha
    refine ⟨?_, ?_⟩
    · intro he; simp at he; exact hok.1 he
    · intro y t he hy; simp at he; exact absurd he.1.symm hy
  | word v =>
    obtain ⟨hne, hv⟩ := hok
    have ha : a = v := by simpa [Item.other, Item.render, hne] using ha
    subst ha
    rcases hv with rfl | hv
    · exact ⟨by simp, by simp⟩
    · refine ⟨?_, ?_⟩
      · rintro rfl; simp at hv
      · rintro y t rfl _; simp at hv

theorem argMentions_said {D : Decls W} {f : FlagDecl} (items : List Item) (hit : ∀ it ∈ items, it.Said D) :
    argMentions f (others items) = mentions f items := by
  induction items with
  | nil => rfl
  | cons it items ih =>
    have h1 := ih (fun i hi => hit i (by simp [hi]))
    simp only [others, List.flatMap_cons, mentions, List.map_cons, List.sum_cons] at h1 ⊢
    rw [argMentions_append, h1]
    congr 1
    have hok := hit it (by simp)
    cases it with
    | short c form v => rfl
    | long s sep v => rfl
    | flags cs =>
      obtain ⟨hne, hd, h0, -⟩ := hok
      simp only [Item.other, Item.render, List.filter_cons, List.filter_nil, Item.mentions]
      simp only [ne_eq, reduceCtorEq, not_false_eq_true, decide_true, if_true, argMentions, List.map_cons, List.map_nil,
        List.sum_cons, List.sum_nil, Nat.add_zero]
      rw [cellMentions_of_group f cs hd]
      split
      · rename_i hz
        symm
        rw [List.count_eq_zero, hz]
        exact h0
      · rfl
    | longFlag s =>
      obtain ⟨hne, _⟩ := hok
      simp only [Item.other, Item.render, List.filter_cons, List.filter_nil, Item.mentions]
      simp only [ne_eq, reduceCtorEq, not_false_eq_true, decide_true, if_true, argMentions, List.map_cons, List.map_nil,
        List.sum_cons, List.sum_nil, Nat.add_zero]
      rw [cellMentions_long]
      by_cases h : s = f.long
      · simp [h]; exact fun h0 => hne (h.trans h0)
      · simp [h]
    | word w =>
      obtain ⟨hne, hw⟩ := hok
      simp only [Item.other, Item.render, List.filter_cons, List.filter_nil, Item.mentions]
      simp only [ne_eq, hne, not_false_eq_true, decide_true, if_true, argMentions, List.map_cons, List.map_nil,
        List.sum_cons, List.sum_nil, Nat.add_zero]
      rcases hw with rfl | hw
      · exact cellMentions_dash f
      · unfold cellMentions
        split <;> simp at hw ⊢

/-- An argument with an unknown flag in it. -/
def Stubborn (D : Decls W) (a : Str) : Prop :=
  (∃ t, a = '-' :: t ∧ '-' ∉ t ∧ ∃ c ∈ t, ∀ f ∈ D.flags, f.short ≠ c) ∨ (∃ s, a = '-' :: '-' :: s ∧ s ≠ [] ∧ ∀ f ∈ D.flags, f.long ≠ s)

theorem stubborn_looks {D : Decls W} {a : Str} (h : Stubborn D a) : looksLikeId a = true := by
  rcases h with ⟨t, rfl, -, c, hc, -⟩ | ⟨s, rfl, -, -⟩
  · cases t with
    | nil => simp at hc
    | cons y t => rfl
  · rfl

theorem getFlag_stubborn {D : Decls W} (hD : IdsOk D) {f : FlagDecl} (hf : f ∈ D.flags) (s s' : FState W) (u : Unit)
    (h : getFlag f s = .ok u s') (hs : ∃ a ∈ s.pre, Stubborn D a) : ∃ a ∈ s'.pre, Stubborn D a := by
  obtain ⟨b, hb, hst⟩ := hs
  unfold getFlag at h
  split at h
  · rename_i pre' hp
    cases h
    obtain ⟨x, a, a', y, e1, rfl, e3, _⟩ := flagShort_spec _ _ _ hp
    rw [e1] at hb
    dsimp only
    rcases List.mem_append.1 hb with hb | hb
    · exact ⟨b, by simp [hb], hst⟩
    · rcases List.mem_cons.1 hb with rfl | hb
      · obtain ⟨z, t, rfl, hz, hmem, rfl⟩ := flagCell_spec _ (flag_short_dash hD hf) _ _ e3
        rcases hst with ⟨t', he, hd, c, hc, hno⟩ | ⟨s', he, -, -⟩
        · injection he with _ he
          subst he
          have hc' : c ∈ (z :: t).erase f.short := (List.mem_erase_of_ne (fun he => hno f hf he.symm)).2 hc
          have hne : (z :: t).erase f.short ≠ [] := List.ne_nil_of_mem hc'
          rw [if_neg hne]
          exact ⟨_, by simp, Or.inl ⟨_, rfl, fun hm => hd (List.mem_of_mem_erase hm), c, hc', hno⟩⟩
        · injection he with _ he
          injection he with he _
          exact absurd he hz
      · exact ⟨b, by simp [hb], hst⟩
  · split at h
    · cases h; exact ⟨b, hb, hst⟩
    · split at h
      · rename_i pre' hp
        cases h
        obtain ⟨x, y, e1, rfl⟩ := flagLong_spec _ _ _ hp
        rw [e1] at hb
        dsimp only
        rcases List.mem_append.1 hb with hb | hb
        · exact ⟨b, by simp [hb], hst⟩
        · rcases List.mem_cons.1 hb with rfl | hb
          · exfalso
            rcases hst with ⟨t', he, hd, -⟩ | ⟨s', he, -, hno⟩
            · injection he with _ he
              subst he
              simp at hd
            · injection he with _ he
              injection he with _ he
              exact hno f hf he
          · exact ⟨b, by simp [hb], hst⟩
      · cases h; exact ⟨b, hb, hst⟩

theorem flags_stubborn {D : Decls W} (hD : IdsOk D) (fs : List FlagDecl) : ∀ (s s' : FState W) (u : Unit), (∀ f ∈ fs, f ∈ D.flags) →
    M.forEach getFlag fs s = .ok u s' → (∃ a ∈ s.pre, Stubborn D a) → ∃ a ∈ s'.pre, Stubborn D a := by
  induction fs with
  | nil => intro s s' u _ h hs; cases h; exact hs
  | cons g fs ih =>
    intro s s' u hg h hs
    rw [M.forEach_cons, M.bind_eq_ok] at h
    obtain ⟨u1, s1, e1, e2⟩ := h
    exact ih s1 s' u (fun g h => hg g (by simp [h])) e2 (getFlag_stubborn hD (hg g (by simp)) s s1 u1 e1 hs)

theorem stubborn_of_unknown {D : Decls W} {items : List Item} {it : Item} (hi : it ∈ items) (hs : it.Said D) (hk : ¬ it.Known D) :
    ∃ a ∈ others items, Stubborn D a := by
  have hmem : ∀ a ∈ it.other, a ∈ others items := fun a ha => List.mem_flatMap.2 ⟨it, hi, ha⟩
  cases it with
  | short c form v => exact absurd trivial hk
  | long s sep v => exact absurd trivial hk
  | word v => exact absurd trivial hk
  | flags cs =>
    obtain ⟨c, hc⟩ := Classical.not_forall.1 hk
    obtain ⟨hc, hno⟩ := Classical.not_imp.1 hc
    exact ⟨'-' :: cs, hmem _ (by simp [Item.other, Item.render]), Or.inl ⟨cs, rfl, hs.2.1, c, hc, fun f hf he => hno ⟨f, hf, he⟩⟩⟩
  | longFlag s =>
    exact ⟨'-' :: '-' :: s, hmem _ (by simp [Item.other, Item.render]), Or.inr ⟨s, rfl, hs.1, fun f hf he => hk ⟨f, hf, he⟩⟩⟩

theorem tail_no_flag' {D : Decls W} {items : List Item} {tail : Option (List Str)} (hl : NeatLine D items tail) (f : FlagDecl) (hf : f ∈ D.flags) :
    flagShort f.short (tailCells tail) = none := by
  cases tail with
  | none => rfl
  | some ws =>
    apply flagShort_none
    intro a ha
    simp only [tailCells, List.mem_cons] at ha
    rcases ha with rfl | ha
    · rfl
    · exact flagCell_none_of_not_eaten _ _ ((hl.tailOk ws rfl a ha).2 f hf)

/-- What is left behind when a flag is repeated or unknown. -/
theorem absRest_suspect {D : Decls W} (hD : IdsOk D) {items : List Item} {tail : Option (List Str)} (hl : NeatLine D items tail)
    (h : Suspect D items) (nd : Bool) (st : Store) (w : W) :
    absRest nd D (others items) (tailCells tail) (st, w) = .err .unknownOption (setFlags items D.flags st, w) := by
  obtain ⟨pre', hs'⟩ := flags_neat hD items (tailCells tail) (tail_no_flag' hl) D.flags [] (others items) st w rfl
    (neat_others items hl.itemsSaid) (fun f _ => argMentions_said items hl.itemsSaid)
  have : pre'.any looksLikeId = true := by
    rw [List.any_eq_true]
    rcases h with ⟨f, hf, h2⟩ | ⟨it, hi, hk⟩
    · have h3 := flags_mentions hD hf _ _ _ hs'
      rw [argMentions_said items hl.itemsSaid] at h3
      dsimp only at h3
      apply Classical.byContradiction
      intro hno
      have := argMentions_zero f pre' (fun a ha => by
        rw [← Bool.not_eq_true]; exact fun h => hno ⟨a, ha, h⟩)
      omega
    · obtain ⟨a, ha, hst⟩ := flags_stubborn hD D.flags _ _ _ (fun _ h => h) hs' (stubborn_of_unknown hi (hl.itemsSaid it hi) hk)
      exact ⟨a, ha, stubborn_looks hst⟩
  unfold absRest parseRest
  rw [M.bind_run, hs']
  dsimp only
  rw [M.bind_run]
  unfold checkForUnknownIds
  rw [if_pos this]
  rfl

/-! ### The line -/

theorem setFlags_congr {items items' : List Item} (fs : List FlagDecl) (h : ∀ f ∈ fs, mentions f items = mentions f items') :
    ∀ st, setFlags items fs st = setFlags items' fs st := by
  induction fs with
  | nil => exact fun _ => rfl
  | cons f fs ih =>
    intro st
    simp only [setFlags]
    rw [h f (by simp), ih (fun g hg => h g (by simp [hg]))]

theorem lineEnds_run {D : Decls W} (hD : IdsOk D) (hlast : ∀ d ∈ D.positionals.dropLast, d.isList = false) {items : List Item}
    {tail : Option (List Str)} (hl : NeatLine D items tail) (nd : Bool) {st st' : Store} {w w' : W} {r : Option Exn}
    (h : LineEnds nd D items tail st w st' w' r) : (formatParse nd D (renderLine items tail) st w).core = endRes r (st', w') := by
  obtain ⟨st₁, w₁, r₁, h1, h2⟩ := h
  rw [formatParse_core hD items (fun it h => (hl.itemsSaid it h).loose hD) tail nd st w, M.bind_run, optionsEnd_run nd items _ h1]
  cases r₁ with
  | some e => obtain ⟨rfl, rfl, rfl⟩ := h2; rfl
  | none =>
    simp only [endRes]
    rcases h2 with ⟨h2, rfl, rfl, rfl⟩ | ⟨h2, h3⟩
    · exact absRest_suspect hD hl h2 nd _ _
    · have hm : MixedOk D items tail := by
        refine ⟨fun it hi => (hl.itemsSaid it hi).ok ?_, fun f hf => ?_, hl.tailOk⟩
        · apply Classical.byContradiction
          exact fun hk => h2 (Or.inr ⟨it, hi, hk⟩)
        · apply Classical.byContradiction
          exact fun hc => h2 (Or.inl ⟨f, hf, by omega⟩)
      have h4 := absRest_line hD _ tail (lastWord_ok hm) nd st₁ w₁
      rw [lastWord_others, lastWord_words, setFlags_congr D.flags (fun f _ => lastWord_mentions D items f)] at h4
      rw [h4]
      exact positionalsEnd_run nd _ hlast h3

theorem lineEnds_exists (nd : Bool) (D : Decls W) (items : List Item) (tail : Option (List Str)) (st : Store) (w : W) :
    ∃ st' w' r, LineEnds nd D items tail st w st' w' r := by
  obtain ⟨st₁, w₁, r₁, h1⟩ := optionsEnd_exists nd items D.options st w
  cases r₁ with
  | some e => exact ⟨_, _, _, st₁, w₁, _, h1, rfl, rfl, rfl⟩
  | none =>
    by_cases hf : Suspect D items
    · exact ⟨_, _, _, st₁, w₁, _, h1, Or.inl ⟨hf, rfl, rfl, rfl⟩⟩
    · obtain ⟨st', w', r, h2⟩ := positionalsEnd_exists nd D.positionals (Spec.words items tail) (setFlags items D.flags st₁) w₁
      exact ⟨st', w', r, st₁, w₁, none, h1, Or.inr ⟨hf, h2⟩⟩

/-- The ending of the format, exactly. -/
theorem lineEnds_iff {D : Decls W} (hD : IdsOk D) (hlast : ∀ d ∈ D.positionals.dropLast, d.isList = false) {items : List Item}
    {tail : Option (List Str)} (hl : NeatLine D items tail) (nd : Bool) (st st' : Store) (w w' : W) (r : Option Exn) :
    LineEnds nd D items tail st w st' w' r ↔ (formatParse nd D (renderLine items tail) st w).core = endRes r (st', w') := by
  refine ⟨lineEnds_run hD hlast hl nd, fun h => ?_⟩
  obtain ⟨st₂, w₂, r₂, h2⟩ := lineEnds_exists nd D items tail st w
  rw [lineEnds_run hD hlast hl nd h2, endRes_inj] at h
  obtain ⟨rfl, h⟩ := h
  injection h with h3 h4
  subst h3 h4
  exact h2

/-! ### What is left alone -/

theorem assignEnds_frame {ty : ElemTy} {x : VarId} {ts : List Str} {st st' : Store} {r : Option Exn} (h : AssignEnds ty x ts st st' r) :
    ∀ y, y ≠ x → st' y = st y := by
  induction h with
  | nil => exact fun _ _ => rfl
  | next _ _ ih => exact fun y hy => (ih y hy).trans (Store.set_ne _ _ hy)
  | stopWritten _ => exact fun y hy => Store.set_ne _ _ hy
  | stop _ => exact fun _ _ => rfl

theorem optionEnds_frame {nd : Bool} {items : List Item} {d : OptDecl W} {st st' : Store} {w w' : W} {r : Option Exn}
    (h : OptionEnds nd items d st w st' w' r) :
    (∀ y, y ≠ d.var → st' y = st y) ∧ (shortTexts d items = [] ∧ longTexts d items = [] → st' = st ∧ w' = w) := by
  unfold OptionEnds at h
  split at h
  · obtain ⟨rfl, rfl, -⟩ := h
    exact ⟨fun _ _ => rfl, fun _ => ⟨rfl, rfl⟩⟩
  · rename_i hn
    refine ⟨?_, fun h0 => absurd h0 hn⟩
    obtain ⟨st₁, r₁, h1, rfl, -⟩ := h
    split at h1
    · unfold ListEnds at h1
      split at h1
      · obtain ⟨es, -, rfl⟩ := h1
        exact fun y hy => Store.set_ne _ _ hy
      · obtain ⟨es₁, r₂, -, h1⟩ := h1
        cases r₂ with
        | some e => obtain ⟨-, rfl⟩ := h1; exact fun y hy => Store.set_ne _ _ hy
        | none => obtain ⟨es, -, rfl⟩ := h1; exact fun y hy => Store.set_ne _ _ hy
    · obtain ⟨r₂, h1, -⟩ := h1
      exact assignEnds_frame h1

theorem optionsEnd_frame {nd : Bool} {items : List Item} (ds : List (OptDecl W)) : ∀ {st st' : Store} {w w' : W} {r : Option Exn},
    OptionsEnd nd items ds st w st' w' r → ∀ x, (∀ d ∈ ds, d.var = x → shortTexts d items = [] ∧ longTexts d items = []) → st' x = st x := by
  induction ds with
  | nil => rintro st st' w w' r ⟨rfl, rfl, rfl⟩ x _; rfl
  | cons d ds ih =>
    rintro st st' w w' r ⟨st₁, w₁, r₁, h1, h2⟩ x hx
    have h3 : st₁ x = st x := by
      by_cases hd : d.var = x
      · rw [((optionEnds_frame h1).2 (hx d (by simp) hd)).1]
      · exact (optionEnds_frame h1).1 x (fun h => hd h.symm)
    cases r₁ with
    | some e => obtain ⟨rfl, rfl, rfl⟩ := h2; exact h3
    | none => rw [ih h2 x (fun d hd => hx d (by simp [hd])), h3]

theorem setFlags_frame (items : List Item) (fs : List FlagDecl) : ∀ (st : Store) (x : VarId), (∀ f ∈ fs, f.var = x → mentions f items = 0) →
    setFlags items fs st x = st x := by
  induction fs with
  | nil => exact fun _ _ _ => rfl
  | cons f fs ih =>
    intro st x h
    simp only [setFlags]
    rw [ih _ x (fun g hg => h g (by simp [hg]))]
    split
    · rfl
    · rename_i hm
      exact Store.set_ne _ _ (fun he => hm (h f (by simp) he.symm))

theorem positionalsEnd_frame {nd : Bool} (ds : List (PosDecl W)) : ∀ {ts : List Str} {st st' : Store} {w w' : W} {r : Option Exn},
    PositionalsEnd nd ds ts st w st' w' r → ∀ x, (∀ d ∈ ds, d.var ≠ x) → st' x = st x := by
  induction ds with
  | nil =>
    intro ts st st' w w' r h x _
    cases ts with
    | nil => obtain ⟨rfl, -, -⟩ := h; rfl
    | cons t ts => obtain ⟨rfl, -, -⟩ := h; rfl
  | cons d ds ih =>
    intro ts st st' w w' r h x hx
    have hd : x ≠ d.var := fun he => hx d (by simp) he.symm
    cases ts with
    | nil => obtain ⟨rfl, -, -⟩ := h; rfl
    | cons t ts =>
      unfold PositionalsEnd at h
      split at h
      · obtain ⟨es, r₁, -, rfl, -⟩ := h
        exact Store.set_ne _ _ hd
      · obtain ⟨st₁, r₁, st₂, w₂, r₂, h1, ⟨rfl, h2⟩, h3⟩ := h
        have h4 := assignEnds_frame h1 x hd
        cases r₂ with
        | some e => obtain ⟨rfl, -, -⟩ := h3; exact h4
        | none => rw [ih h3 x (fun d hd => hx d (by simp [hd])), h4]

theorem lineEnds_frame {nd : Bool} {D : Decls W} {items : List Item} {tail : Option (List Str)} {st st' : Store} {w w' : W} {r : Option Exn}
    (h : LineEnds nd D items tail st w st' w' r) (x : VarId)
    (h1 : ∀ d ∈ D.options, d.var = x → shortTexts d items = [] ∧ longTexts d items = []) (h2 : ∀ f ∈ D.flags, f.var = x → mentions f items = 0)
    (h3 : ∀ d ∈ D.positionals, d.var ≠ x) : st' x = st x := by
  obtain ⟨st₁, w₁, r₁, h4, h5⟩ := h
  have h6 := optionsEnd_frame _ h4 x h1
  cases r₁ with
  | some e => obtain ⟨rfl, -, -⟩ := h5; exact h6
  | none =>
    rcases h5 with ⟨-, rfl, -, -⟩ | ⟨-, h5⟩
    · rw [setFlags_frame _ _ _ _ h2, h6]
    · rw [positionalsEnd_frame _ h5 x h3, setFlags_frame _ _ _ _ h2, h6]

end Sharg
