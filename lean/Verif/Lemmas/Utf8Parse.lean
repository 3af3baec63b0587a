import Verif.Lemmas.Explained
import Verif.Props.ErrorTexts
import Verif.Lemmas.Utf8

/-!
# Lemmas: valid UTF-8 and the command line

Reading options, flags and words cuts arguments only at ASCII characters; so the values and the texts of the exceptions are valid
UTF-8 if the arguments are. The exception is the text about a group of unknown flags, which takes every byte for a flag.
-/

namespace Sharg

open Spec

variable {W : Type}

/-- All texts that `format_parse` works on are valid. -/
structure FUtf8 (s : FState W) : Prop where
  pre : ∀ a ∈ s.pre, Utf8 a
  post : ∀ a ∈ s.post, Utf8 a
  store : StoreUtf8 s.store

/-- What is known of a result. -/
def TRes.Fine {α : Type} : TRes (FState W) α → Prop
  | .ok _ s => FUtf8 s
  | .err e t s => FUtf8 s ∧ (Utf8 t ∨ e = .unknownOption ∧ BrokenFlag t)

/-- Code that keeps texts valid, and whose messages are valid. -/
def Fine {α : Type} (m : TFM W α) : Prop := ∀ s, FUtf8 s → (m s).Fine

theorem Fine.pure {α : Type} (a : α) : Fine (TM.pure a : TFM W α) := fun _ h => h

theorem Fine.bind {α β : Type} {m : TFM W α} {f : α → TFM W β} (h1 : Fine m) (h2 : ∀ a, Fine (f a)) : Fine (TM.bind m f) := by
  intro s hs
  have := h1 s hs
  unfold TM.bind
  cases e : m s with
  | ok a s' => rw [e] at this; exact h2 a s' this
  | err x t s' => rw [e] at this; exact this

theorem Fine.throw {α : Type} (e : Exn) {t : Str} (h : Utf8 t) : Fine (TM.throw e t : TFM W α) := fun _ hs => ⟨hs, Or.inl h⟩

theorem Fine.forEach {α : Type} {f : α → TFM W Unit} {l : List α} (h : ∀ a ∈ l, Fine (f a)) : Fine (TM.forEach f l) := by
  induction l with
  | nil => exact Fine.pure ()
  | cons a l ih => exact Fine.bind (h a (by simp)) fun _ => ih fun b hb => h b (by simp [hb])

theorem Fine.modify {f : FState W → FState W} (h : ∀ s, FUtf8 s → FUtf8 (f s)) : Fine (TM.modify f) := fun s hs => h s hs

/-! ### Values -/

theorem one_utf8 {e : Elem} (h : ElemUtf8 e) : ∀ s ∈ valTexts (.one e), Utf8 s := by
  cases e with
  | str s => intro t ht; simp only [valTexts, List.mem_singleton] at ht; subst ht; exact h
  | _ => intro t ht; simp [valTexts] at ht

theorem many_utf8 {es : List Elem} : (∀ s ∈ valTexts (.many es), Utf8 s) ↔ ∀ e ∈ es, ElemUtf8 e := by
  constructor
  · intro h e he
    cases e with
    | str s => exact h s (by simp only [valTexts, List.mem_filterMap]; exact ⟨_, he, rfl⟩)
    | _ => trivial
  · intro h s hs
    simp only [valTexts, List.mem_filterMap] at hs
    obtain ⟨e, he, hx⟩ := hs
    cases e with
    | str t => have := h _ he; simp only [Option.some.injEq] at hx; subst hx; exact this
    | _ => simp at hx

theorem pushBack_utf8 {v : Val} {e : Elem} (hv : ∀ s ∈ valTexts v, Utf8 s) (he : ElemUtf8 e) : ∀ s ∈ valTexts (v.pushBack e), Utf8 s := by
  cases v with
  | one x => exact many_utf8.2 (by simpa [Val.pushBack] using he)
  | many es =>
    refine many_utf8.2 fun x hx => ?_
    rcases List.mem_append.1 hx with hx | hx
    · exact many_utf8.1 hv x hx
    · rw [List.mem_singleton] at hx; subst hx; exact he

theorem set_utf8 {st : Store} (h : StoreUtf8 st) {x : VarId} {v : Val} (hv : ∀ s ∈ valTexts v, Utf8 s) : StoreUtf8 (st.set x v) := by
  intro y
  unfold Store.set
  split
  · exact hv
  · exact h y

theorem fine_setVar {x : VarId} {v : Val} (hv : ∀ s ∈ valTexts v, Utf8 s) : Fine (setVarT (W := W) x v) :=
  Fine.modify fun _ h => ⟨h.pre, h.post, set_utf8 h.store hv⟩

theorem fine_setPre {l : List Str} (hl : ∀ a ∈ l, Utf8 a) : Fine (setPreT (W := W) l) := Fine.modify fun _ h => ⟨hl, h.post, h.store⟩

theorem joined_utf8 {sep : Str} {l : List Str} (hs : Utf8 sep) (hl : ∀ a ∈ l, Utf8 a) : Utf8 (joined sep l) := by
  cases l with
  | nil => exact Utf8.nil
  | cons x l =>
    rw [joined_cons]
    exact (hl x (by simp)).append (Utf8.flatMap fun y hy => hs.append (hl y (by simp [hy])))

theorem keysText_utf8 {names : List (Str × Int)} (h : ∀ p ∈ names, Utf8 p.1) (hn : names ≠ []) : Utf8 (keysText names) := by
  obtain ⟨ps, h1, _, e⟩ := keysText_eq names hn
  rw [e]
  refine ((literal_utf8 (by decide)).append (joined_utf8 (literal_utf8 (by decide)) fun a ha => ?_)).append (literal_utf8 (by decide))
  obtain ⟨p, hp, rfl⟩ := List.mem_map.1 ha
  obtain ⟨b, c, hb, _⟩ := (h1.mem p).1 hp
  exact h p (by rw [hb]; simp)

theorem parseElemT_error_utf8 {ty : ElemTy} (hty : TypeUtf8 ty) {s : Str} (hs : Utf8 s) {e : Exn} {t : Str} (h : parseElemT ty s = .error (e, t)) :
    Utf8 t := by
  unfold parseElemT at h
  split at h
  · rename_i names
    split at h
    · cases h
    · split at h
      · cases h; exact Utf8.nil
      · rename_i hne
        cases h
        exact (((literal_utf8 (by decide)).append hs).append (literal_utf8 (by decide))).append
          (keysText_utf8 hty (by intro e; subst e; simp at hne))
  · split at h
    · cases h
    · cases h; exact Utf8.nil

theorem parseElemT_value {ty : ElemTy} (hty : TypeUtf8 ty) {s : Str} (hs : Utf8 s) {r : ParseRes} {e : Elem} (h : parseElemT ty s = .ok (r, some e)) :
    ElemUtf8 e := by
  unfold parseElemT at h
  split at h
  · rename_i names
    split at h
    · cases h; trivial
    · split at h <;> cases h
  · rename_i names hne
    split at h
    · rename_i r' hr
      cases h
      cases ty with
      | string => cases hr; exact hs
      | boolean =>
        simp only [parseElem, Except.ok.injEq] at hr
        unfold parseBool at hr
        repeat' split at hr
        all_goals (first | (cases hr; trivial) | (cases hr))
      | integer lo hi =>
        simp only [parseElem, Except.ok.injEq] at hr
        unfold parseInteger at hr
        repeat' split at hr
        all_goals (first | (cases hr; trivial) | (cases hr))
      | enumeration n => exact absurd rfl (hne n)
      | foreign a conv =>
        simp only [parseElem, Except.ok.injEq] at hr
        unfold parseForeign at hr
        split at hr
        · rename_i hc; cases hr; exact hty s e hs (Or.inl hc)
        · rename_i hc; cases hr; exact hty s e hs (Or.inr hc)
        · cases hr
    · cases h

theorem showInt_utf8 (i : Int) : Utf8 (showInt i) := by
  unfold showInt
  split
  · exact .cons (by decide) (utf8_showNat _)
  · exact utf8_showNat _

theorem limitTexts_utf8 {wd : Wording} (hw : WordingUtf8 wd) (ty : ElemTy) : Utf8 (limitTexts wd ty).1 ∧ Utf8 (limitTexts wd ty).2 := by
  unfold limitTexts
  split
  · exact ⟨showInt_utf8 _, showInt_utf8 _⟩
  · exact ⟨literal_utf8 (by decide), literal_utf8 (by decide)⟩
  · exact ⟨literal_utf8 (s := "0.000000".toList) (by decide), hw.maxText _⟩

theorem fine_throwIf {wd : Wording} (hw : WordingUtf8 wd) (nd l : Bool) (ty : ElemTy) (res : ParseRes) {name text : Str}
    (hn : Utf8 name) (ht : Utf8 text) : Fine (throwIfT (W := W) (throwOnInputErrorT wd nd l ty res name text)) := by
  have lim := limitTexts_utf8 hw ty
  have hty := hw.typeName l ty
  unfold throwOnInputErrorT
  cases res with
  | success => exact Fine.pure ()
  | error =>
    refine Fine.throw _ ?_
    repeat' with_reducible apply Utf8.append
    all_goals first | assumption | exact literal_utf8 (by decide)
  | overflowError =>
    dsimp only
    split
    · refine Fine.throw _ ?_
      repeat' with_reducible apply Utf8.append
      all_goals first | assumption | exact lim.1 | exact lim.2 | exact literal_utf8 (by decide)
    · split
      · exact Fine.pure ()
      · exact Fine.throw _ Utf8.nil

theorem fine_assign {wd : Wording} (hw : WordingUtf8 wd) (nd : Bool) {ty : ElemTy} (hty : TypeUtf8 ty) (x : VarId) {name text : Str}
    (hn : Utf8 name) (ht : Utf8 text) : Fine (assignScalarT (W := W) wd nd ty x name text) := by
  unfold assignScalarT
  cases e : parseElemT ty text with
  | error r =>
    obtain ⟨x, t⟩ := r
    exact Fine.throw _ (parseElemT_error_utf8 hty ht e)
  | ok r =>
    obtain ⟨res, written⟩ := r
    dsimp only
    refine Fine.bind ?_ fun _ => fine_throwIf hw nd false ty res hn ht
    cases written with
    | none => exact Fine.pure ()
    | some v => exact fine_setVar (one_utf8 (parseElemT_value hty ht e))

theorem init_utf8 (ty : ElemTy) : ElemUtf8 ty.init := by
  cases ty with
  | string => exact Utf8.nil
  | _ => trivial

theorem fine_append {wd : Wording} (hw : WordingUtf8 wd) (nd : Bool) {ty : ElemTy} (hty : TypeUtf8 ty) (x : VarId) {name text : Str}
    (hn : Utf8 name) (ht : Utf8 text) : Fine (appendListT (W := W) wd nd ty x name text) := by
  unfold appendListT
  cases e : parseElemT ty text with
  | error r =>
    obtain ⟨x, t⟩ := r
    exact Fine.throw _ (parseElemT_error_utf8 hty ht e)
  | ok r =>
    obtain ⟨res, written⟩ := r
    dsimp only
    refine Fine.bind ?_ fun _ => fine_throwIf hw nd true ty res hn ht
    split
    · refine Fine.modify fun s h => ⟨h.pre, h.post, set_utf8 h.store (pushBack_utf8 (h.store x) ?_)⟩
      cases written with
      | none => exact init_utf8 ty
      | some v => exact parseElemT_value hty ht e
    · exact Fine.pure ()

/-! ### Options -/

/-- An identifier of ASCII characters. -/
def Id.Ascii : Id → Prop
  | .short c => IsAscii c
  | .long s => ∀ c ∈ s, IsAscii c

theorem Id.Ascii.dashed {id : Id} (h : id.Ascii) : ∀ c ∈ id.dashed, IsAscii c := by
  cases id with
  | short c =>
    intro d hd
    simp only [Id.dashed, List.mem_cons, List.not_mem_nil, or_false] at hd
    rcases hd with rfl | rfl
    · decide
    · exact h
  | long s =>
    intro d hd
    simp only [Id.dashed, List.mem_cons] at hd
    rcases hd with rfl | rfl | hd
    · decide
    · decide
    · exact h d hd

theorem missingText_utf8 {id : Id} (h : id.Ascii) : Utf8 (missingText id) := (literal_utf8 (by decide)).append (Utf8.ascii h.dashed)

theorem hits_prefix {id : Id} {a : Str} (h : id.hits a = true) : ∃ t, a = id.dashed ++ t := by
  have : a.take id.dashed.length = id.dashed := by
    cases id with
    | short c => simpa [Id.hits] using h
    | long s =>
      simp only [Id.hits, Bool.and_eq_true, beq_iff_eq] at h
      exact h.1
  exact ⟨a.drop id.dashed.length, ((congrArg (· ++ a.drop id.dashed.length) this).symm.trans (List.take_append_drop _ _)).symm⟩

theorem retrieve_utf8 {id : Id} (h : id.Ascii) {a : Str} (hh : id.hits a = true) (ha : Utf8 a) {rest : List Str} (hr : ∀ b ∈ rest, Utf8 b)
    {text : Str} {bl rest' : List Str} (e : retrieve id a rest = .ok (text, bl, rest')) :
    Utf8 text ∧ (∀ b ∈ bl, Utf8 b) ∧ ∀ b ∈ rest', Utf8 b := by
  obtain ⟨t, rfl⟩ := hits_prefix hh
  have ht := ha.behind h.dashed
  have hb1 : ∀ b ∈ [([] : Str)], Utf8 b := by simpa using Utf8.nil
  have hb2 : ∀ b ∈ [([] : Str), []], Utf8 b := by simpa using Utf8.nil
  unfold retrieve at e
  split at e
  · split at e
    · rename_i heq
      split at e
      · cases e
      · cases e
        refine ⟨?_, hb1, hr⟩
        rw [List.getElem?_append_right (Nat.le_refl _), Nat.sub_self] at heq
        cases t with
        | nil => simp at heq
        | cons c t =>
          simp only [List.getElem?_cons_zero, Option.some.injEq] at heq
          subst heq
          rw [show id.dashed ++ '=' :: t = (id.dashed ++ ['=']) ++ t by simp, show id.dashed.length + 1 = (id.dashed ++ ['=']).length by simp,
            List.drop_left]
          exact ht.tail (by decide)
    · cases e
      refine ⟨?_, hb1, hr⟩
      rw [List.drop_left]
      exact ht
  · split at e
    · cases e
    · cases e
      exact ⟨hr _ (by simp), hb2, fun b hb => hr b (by simp [hb])⟩

theorem find_utf8 {id : Id} {l : List Str} (hl : ∀ b ∈ l, Utf8 b) {front rest : List Str} {a : Str} (e : findOptionId id l = (front, a :: rest)) :
    id.hits a = true ∧ Utf8 a ∧ (∀ b ∈ front, Utf8 b) ∧ ∀ b ∈ rest, Utf8 b := by
  unfold findOptionId at e
  split at e
  · cases e
  · simp only [Prod.mk.injEq] at e
    obtain ⟨e1, e2⟩ := e
    have hsub := List.dropWhile_sublist (l := l) (fun a => !id.hits a)
    rw [e2] at hsub
    refine ⟨?_, hl a (hsub.subset (by simp)), fun b hb => hl b ?_, fun b hb => hl b (hsub.subset (by simp [hb]))⟩
    · have := List.head?_dropWhile_not (fun a => !id.hits a) l
      rw [e2] at this
      simpa using this
    · subst e1
      exact (List.takeWhile_sublist _).subset hb

theorem fine_scalar {wd : Wording} (hw : WordingUtf8 wd) (nd : Bool) {ty : ElemTy} (hty : TypeUtf8 ty) (x : VarId) {id : Id} (hi : id.Ascii) :
    Fine (getOptionByIdScalarT (W := W) wd nd ty x id) := by
  intro s hs
  unfold getOptionByIdScalarT
  split
  · exact hs
  · rename_i front a rest e
    obtain ⟨hh, ha, hf, hr⟩ := find_utf8 hs.pre e
    split
    · exact ⟨hs, Or.inl (missingText_utf8 hi)⟩
    · rename_i text blanks rest' er
      obtain ⟨ht, hb, hr'⟩ := retrieve_utf8 hi hh ha hr er
      refine Fine.bind (fine_setPre ?_) (fun _ => Fine.bind (fine_assign hw nd hty x (Utf8.ascii hi.dashed) ht) fun _ => ?_) s hs
      · intro b hb'
        simp only [List.mem_append] at hb'
        rcases hb' with (h | h) | h
        · exact hf b h
        · exact hb b h
        · exact hr' b h
      · split
        · exact Fine.pure _
        · exact Fine.throw _ (((literal_utf8 (by decide)).append (Utf8.ascii hi.dashed)).append (literal_utf8 (by decide)))

theorem fine_collect {wd : Wording} (hw : WordingUtf8 wd) (nd : Bool) {ty : ElemTy} (hty : TypeUtf8 ty) (x : VarId) {id : Id} (hi : id.Ascii) :
    ∀ (n : Nat) (l front : List Str), l.length ≤ n → (∀ b ∈ l, Utf8 b) → (∀ b ∈ front, Utf8 b) →
      Fine (collectT (W := W) wd nd ty x id front l) := by
  intro n
  induction n with
  | zero =>
    intro l front hn hl hf
    cases l with
    | nil => unfold collectT; exact fine_setPre hf
    | cons a l => simp at hn
  | succ n ih =>
    intro l front hn hl hf
    cases l with
    | nil => unfold collectT; exact fine_setPre hf
    | cons a rest =>
      have hr : ∀ b ∈ rest, Utf8 b := fun b hb => hl b (by simp [hb])
      have hfa : ∀ c, Utf8 c → ∀ b ∈ front ++ [c], Utf8 b := fun c hc b hb => by
        rcases List.mem_append.1 hb with h | h
        · exact hf b h
        · rw [List.mem_singleton] at h; subst h; exact hc
      unfold collectT
      split
      · rename_i hh
        split
        · split
          · exact Fine.throw _ (missingText_utf8 hi)
          · rename_i text bl rest' er
            obtain ⟨ht, _, _⟩ := retrieve_utf8 hi hh (hl a (by simp)) hr er
            exact Fine.bind (fine_append hw nd hty x (Utf8.ascii hi.dashed) ht) fun _ =>
              ih rest _ (by simpa using hn) hr (hfa [] Utf8.nil)
        · cases rest with
          | nil => exact Fine.throw _ (missingText_utf8 hi)
          | cons v rest' =>
            refine Fine.bind (fine_append hw nd hty x (Utf8.ascii hi.dashed) (hr v (by simp))) fun _ =>
              ih rest' _ (by simp at hn; omega) (fun b hb => hr b (by simp [hb])) fun b hb => ?_
            rcases List.mem_append.1 hb with h | h
            · exact hf b h
            · have : b = [] := by simpa using h
              subst this; exact Utf8.nil
      · exact ih rest _ (by simpa using hn) hr (hfa a (hl a (by simp)))

theorem fine_list {wd : Wording} (hw : WordingUtf8 wd) (nd : Bool) {ty : ElemTy} (hty : TypeUtf8 ty) (x : VarId) {id : Id} (hi : id.Ascii) :
    Fine (getOptionByIdListT (W := W) wd nd ty x id) := by
  intro s hs
  unfold getOptionByIdListT
  split
  · exact hs
  · exact Fine.bind (fine_setVar (many_utf8.2 (by simp))) (fun _ =>
      Fine.bind (fine_collect hw nd hty x hi _ _ [] (Nat.le_refl _) hs.pre (by simp)) fun _ => Fine.pure _) s hs

theorem fine_optionById {wd : Wording} (hw : WordingUtf8 wd) (nd : Bool) (d : OptDecl W) (hty : TypeUtf8 d.ty) {id : Id} (hi : id.Ascii) :
    Fine (getOptionByIdT (W := W) wd nd d id) := by
  unfold getOptionByIdT
  split
  · exact fine_list hw nd hty d.var hi
  · exact fine_scalar hw nd hty d.var hi

theorem fine_validate {validator : Val → W → Bool × W} {why : Val → W → Str} (hy : WhyUtf8 why) {name : Str} (hn : Utf8 name) (x : VarId) :
    Fine (validateT validator why name x) := by
  intro s hs
  unfold validateT
  split
  · exact ⟨hs.pre, hs.post, hs.store⟩
  · refine ⟨⟨hs.pre, hs.post, hs.store⟩, Or.inl ?_⟩
    exact (((literal_utf8 (by decide)).append hn).append (literal_utf8 (by decide))).append (hy _ _ (hs.store x))

theorem combine_utf8 {c : Char} {s : Str} (hc : IsAscii c) (hs : ∀ d ∈ s, IsAscii d) : Utf8 (combineOptionNames c s) := by
  have h1 : Utf8 (Id.long s).dashed := Utf8.ascii (Id.Ascii.dashed (id := .long s) hs)
  have h2 : Utf8 (Id.short c).dashed := Utf8.ascii (Id.Ascii.dashed (id := .short c) hc)
  unfold combineOptionNames
  split
  · exact h1
  · split
    · exact h2
    · exact (h2.append (literal_utf8 (by decide))).append h1

/-- What is needed of an option. -/
structure OptUtf8 (d : TOptDecl W) : Prop where
  short : IsAscii d.decl.short
  long : ∀ c ∈ d.decl.long, IsAscii c
  ty : TypeUtf8 d.decl.ty
  why : WhyUtf8 d.why

theorem fine_option {wd : Wording} (hw : WordingUtf8 wd) (nd : Bool) {d : TOptDecl W} (hd : OptUtf8 d) : Fine (getOptionT wd nd d) := by
  have hn := combine_utf8 hd.short hd.long
  unfold getOptionT
  refine Fine.bind (fine_optionById hw nd d.decl hd.ty (id := .short _) hd.short) fun a =>
    Fine.bind (fine_optionById hw nd d.decl hd.ty (id := .long _) hd.long) fun b => ?_
  split
  · exact Fine.throw _ (((literal_utf8 (by decide)).append hn).append (literal_utf8 (by decide)))
  · split
    · exact fine_validate hd.why ((literal_utf8 (by decide)).append hn) _
    · split
      · exact Fine.throw _ (((literal_utf8 (by decide)).append hn).append (literal_utf8 (by decide)))
      · exact Fine.pure _

/-! ### Flags -/

theorem flagCell_utf8 {c : Char} (hc : IsAscii c) {a a' : Str} (ha : Utf8 a) (e : flagCell c a = some a') : Utf8 a' := by
  unfold flagCell at e
  split at e
  · split at e
    · simp only [Option.some.injEq] at e
      subst e
      split
      · exact Utf8.nil
      · exact Utf8.erase hc ha
    · cases e
  · cases e

theorem flagShort_utf8 {c : Char} (hc : IsAscii c) : ∀ {l l' : List Str}, (∀ a ∈ l, Utf8 a) → flagShort c l = some l' → ∀ a ∈ l', Utf8 a := by
  intro l
  induction l with
  | nil => intro l' _ e; cases e
  | cons a l ih =>
    intro l' hl e
    have hr : ∀ b ∈ l, Utf8 b := fun b hb => hl b (by simp [hb])
    unfold flagShort at e
    split at e
    · rename_i a' ea
      simp only [Option.some.injEq] at e
      subst e
      intro b hb
      rcases List.mem_cons.1 hb with rfl | hb
      · exact flagCell_utf8 hc (hl a (by simp)) ea
      · exact hr b hb
    · obtain ⟨r, er, rfl⟩ := Option.map_eq_some_iff.1 e
      intro b hb
      rcases List.mem_cons.1 hb with rfl | hb
      · exact hl b (by simp)
      · exact ih hr er b hb

theorem flagLong_utf8 {s : Str} : ∀ {l l' : List Str}, (∀ a ∈ l, Utf8 a) → flagLong s l = some l' → ∀ a ∈ l', Utf8 a := by
  intro l
  induction l with
  | nil => intro l' _ e; cases e
  | cons a l ih =>
    intro l' hl e
    have hr : ∀ b ∈ l, Utf8 b := fun b hb => hl b (by simp [hb])
    unfold flagLong at e
    split at e
    · simp only [Option.some.injEq] at e
      subst e
      intro b hb
      rcases List.mem_cons.1 hb with rfl | hb
      · exact Utf8.nil
      · exact hr b hb
    · obtain ⟨r, er, rfl⟩ := Option.map_eq_some_iff.1 e
      intro b hb
      rcases List.mem_cons.1 hb with rfl | hb
      · exact hl b (by simp)
      · exact ih hr er b hb

theorem fine_flag {d : FlagDecl} (hd : IsAscii d.short) : Fine (getFlagT (W := W) d) := by
  intro s hs
  have hv : ∀ x, StoreUtf8 (s.store.set x (.one (.bool true))) := fun x => set_utf8 hs.store (one_utf8 (e := .bool true) trivial)
  unfold getFlagT getFlag
  cases e1 : flagShort d.short s.pre with
  | some l => exact ⟨flagShort_utf8 hd hs.pre e1, hs.post, hv _⟩
  | none =>
    cases e2 : flagShort d.short s.post with
    | some l => exact ⟨hs.pre, flagShort_utf8 hd hs.post e2, hv _⟩
    | none =>
      cases e3 : flagLong d.long s.pre with
      | some l => exact ⟨flagLong_utf8 hs.pre e3, hs.post, hv _⟩
      | none => exact hs

/-! ### Unknown options -/

theorem broken_not_utf8 {t : Str} (h : BrokenFlag t) : ¬ Utf8 t := by
  obtain ⟨a, b, c, d, rfl, hb, hc⟩ := h
  intro hu
  have h1 := (Utf8.split (c := '-') (by decide) hu).2
  have h2 := (Utf8.split (a := [b]) hc h1).1
  exact hb (Utf8.single h2)

theorem broken_group {fs : Str} {f : Char} (hf : f ∈ fs) (hb : ¬ IsAscii f) (last : Char) (p q : Str) :
    BrokenFlag (p ++ (joined ", ".toList (fs.map fun c => ['-', c]) ++ "and -".toList ++ [last]) ++ q) := by
  obtain ⟨a, b, rfl⟩ := List.append_of_mem hf
  have : ∀ (a b : Str), ∃ x c y, joined ", ".toList ((a ++ f :: b).map fun c => ['-', c]) ++ "and -".toList = x ++ '-' :: f :: c :: y ∧ IsAscii c := by
    intro a b
    induction a with
    | nil =>
      cases b with
      | nil => exact ⟨[], 'a', "nd -".toList, rfl, by decide⟩
      | cons g b => 
        exact ⟨[], ',', ' ' :: (joined ", ".toList ((g :: b).map fun c => ['-', c]) ++ "and -".toList), by simp [joined], by decide⟩
    | cons g a ih =>
      obtain ⟨x, c, y, e, hc⟩ := ih
      refine ⟨'-' :: g :: ',' :: ' ' :: x, c, y, ?_, hc⟩
      have : joined ", ".toList ((g :: (a ++ f :: b)).map fun c => ['-', c]) =
          '-' :: g :: ',' :: ' ' :: joined ", ".toList ((a ++ f :: b).map fun c => ['-', c]) := by
        cases a <;> simp [joined]
      rw [List.cons_append, this, List.cons_append, List.cons_append, List.cons_append, List.cons_append, e]
      simp
  obtain ⟨x, c, y, e, hc⟩ := this a b
  exact ⟨p ++ x, f, c, y ++ last :: q, by rw [e]; simp, hb, hc⟩

theorem broken_last {fs : Str} {last : Char} (hb : ¬ IsAscii last) (p : Str) {c : Char} (hc : IsAscii c) (q : Str) :
    BrokenFlag (p ++ (joined ", ".toList (fs.map fun c => ['-', c]) ++ "and -".toList ++ [last]) ++ c :: q) :=
  ⟨p ++ (joined ", ".toList (fs.map fun c => ['-', c]) ++ "and ".toList), last, c, q, by simp, hb, hc⟩

theorem group_utf8 {fs : Str} {last : Char} (h1 : ∀ c ∈ fs, IsAscii c) (h2 : IsAscii last) :
    Utf8 (joined ", ".toList (fs.map fun c => ['-', c]) ++ "and -".toList ++ [last]) := by
  refine ((joined_utf8 (literal_utf8 (by decide)) fun a ha => ?_).append (literal_utf8 (by decide))).append (Utf8.ascii (by simpa using h2))
  obtain ⟨c, hc, rfl⟩ := List.mem_map.1 ha
  refine Utf8.ascii fun d hd => ?_
  simp only [List.mem_cons, List.not_mem_nil, or_false] at hd
  rcases hd with rfl | rfl
  · decide
  · exact h1 _ hc

theorem unknownText_utf8 {arg : Str} (ha : Utf8 arg) {t : Str} (hid : looksLikeId arg = true) (h : unknownText arg = .ok t) :
    Utf8 t ∨ BrokenFlag t := by
  obtain ⟨x, y, rfl⟩ : ∃ x y, arg = '-' :: x :: y := by
    unfold looksLikeId at hid
    split at hid
    · exact ⟨_, _, rfl⟩
    · cases hid
  unfold unknownText at h
  by_cases hg : ('-' :: x :: y)[1]? ≠ some '-' ∧ 2 < ('-' :: x :: y).length
  · rw [if_pos hg] at h
    simp only [List.getElem?_cons_succ, List.getElem?_cons_zero, ne_eq, Option.some.injEq, List.length_cons] at hg
    obtain ⟨hx, hlen⟩ := hg
    have hyne : y ≠ [] := by rintro rfl; simp at hlen
    have hsplit : '-' :: x :: y = '-' :: ((x :: y.dropLast) ++ [y.getLast hyne]) := by
      simp [List.dropLast_concat_getLast hyne]
    rw [hsplit, expandMultipleFlags_eq _ _ (by simp)] at h
    simp only [Except.ok.injEq] at h
    by_cases h1 : ∀ c ∈ x :: y.dropLast, IsAscii c
    · by_cases h2 : IsAscii (y.getLast hyne)
      · left
        rw [← h]
        exact (((literal_utf8 (by decide)).append (group_utf8 h1 h2)).append (literal_utf8 (by decide))).append (literal_utf8 (by decide))
      · right
        rw [← h, List.append_assoc]
        exact broken_last h2 _ (c := '.') (by decide) _
    · right
      obtain ⟨c, hc⟩ := Classical.not_forall.1 h1
      obtain ⟨hc, hn⟩ := Classical.not_imp.1 hc
      rw [← h, List.append_assoc]
      exact broken_group hc hn _ _ _
  · rw [if_neg hg] at h
    simp only [Except.ok.injEq] at h
    left
    rw [← h]
    exact (((literal_utf8 (by decide)).append ha).append (literal_utf8 (by decide))).append (literal_utf8 (by decide))

theorem fine_unknown : Fine (checkForUnknownIdsT (W := W)) := by
  intro s hs
  unfold checkForUnknownIdsT
  split
  · exact hs
  · rename_i arg e
    have hm := List.mem_of_find?_eq_some e
    have hp := List.find?_some e
    split
    · exact ⟨hs, Or.inl Utf8.nil⟩
    · rename_i t et
      rcases unknownText_utf8 (hs.pre arg hm) hp et with h | h
      · exact ⟨hs, Or.inl h⟩
      · exact ⟨hs, Or.inr ⟨rfl, h⟩⟩

/-! ### Words -/

theorem fine_blank : Fine (blankEndOfOptionsT (W := W)) := by
  refine Fine.modify fun s hs => ⟨fun a ha => ?_, by simp, hs.store⟩
  rcases List.mem_append.1 ha with h | h
  · exact hs.pre a h
  · cases e : s.post with
    | nil => rw [e] at h; simp [blankHead] at h
    | cons b l =>
      rw [e] at h
      simp only [blankHead, List.mem_cons] at h
      rcases h with rfl | h
      · exact Utf8.nil
      · exact hs.post a (by rw [e]; simp [h])

theorem fine_fillList {wd : Wording} (hw : WordingUtf8 wd) (nd : Bool) {ty : ElemTy} (hty : TypeUtf8 ty) (x : VarId) :
    ∀ (l front : List Str) (n : Nat), (∀ b ∈ l, Utf8 b) → (∀ b ∈ front, Utf8 b) → Fine (fillListT (W := W) wd nd ty x n front l) := by
  intro l
  induction l with
  | nil => intro front n _ hf; unfold fillListT; exact Fine.bind (fine_setPre hf) fun _ => Fine.pure _
  | cons a rest ih =>
    intro front n hl hf
    have hr : ∀ b ∈ rest, Utf8 b := fun b hb => hl b (by simp [hb])
    have hfa : ∀ c, Utf8 c → ∀ b ∈ front ++ [c], Utf8 b := fun c hc b hb => by
      rcases List.mem_append.1 hb with h | h
      · exact hf b h
      · rw [List.mem_singleton] at h; subst h; exact hc
    unfold fillListT
    split
    · exact ih _ _ hr (hfa a (hl a (by simp)))
    · exact Fine.bind (fine_append hw nd hty x ((literal_utf8 (by decide)).append (utf8_showNat _)) (hl a (by simp))) fun _ =>
        ih _ _ hr (hfa [] Utf8.nil)

/-- What is needed of a positional option. -/
structure PosUtf8 (d : TPosDecl W) : Prop where
  ty : TypeUtf8 d.decl.ty
  why : WhyUtf8 d.why

theorem fine_positional {wd : Wording} (hw : WordingUtf8 wd) (nd : Bool) (total count : Nat) {d : TPosDecl W} (hd : PosUtf8 d) :
    Fine (getPositionalT wd nd total count d) := by
  intro s hs
  unfold getPositionalT
  split
  · exact ⟨hs, Or.inl (((literal_utf8 (by decide)).append (utf8_showNat _)).append (literal_utf8 (by decide)))⟩
  · rename_i a rest e
    have hsub := List.dropWhile_sublist (l := s.pre) (fun a => decide (a = []))
    rw [e] at hsub
    have ha : Utf8 a := hs.pre a (hsub.subset (by simp))
    have hr : ∀ b ∈ rest, Utf8 b := fun b hb => hs.pre b (hsub.subset (by simp [hb]))
    split
    · split
      · exact ⟨hs, Or.inl Utf8.nil⟩
      · exact Fine.bind (fine_setVar (many_utf8.2 (by simp))) (fun _ => Fine.bind (fine_fillList hw nd hd.ty _ _ [] _ hs.pre (by simp)) fun _ =>
          Fine.bind (fine_validate hd.why ((literal_utf8 (by decide)).append (utf8_showNat _)) _) fun _ => Fine.pure _) s hs
    · refine Fine.bind (fine_assign hw nd hd.ty _ ((literal_utf8 (by decide)).append (utf8_showNat _)) ha) (fun _ =>
        Fine.bind (fine_setPre fun b hb => ?_) fun _ =>
          Fine.bind (fine_validate hd.why ((literal_utf8 (by decide)).append (utf8_showNat _)) _) fun _ => Fine.pure _) s hs
      rcases List.mem_append.1 hb with h | h
      · exact hs.pre b ((List.takeWhile_sublist _).subset h)
      · rcases List.mem_cons.1 h with rfl | h
        · exact Utf8.nil
        · exact hr b h

theorem fine_positionals {wd : Wording} (hw : WordingUtf8 wd) (nd : Bool) (total : Nat) : ∀ (ds : List (TPosDecl W)) (count : Nat),
    (∀ d ∈ ds, PosUtf8 d) → Fine (runPositionalsT wd nd total count ds) := by
  intro ds
  induction ds with
  | nil => intro _ _; exact Fine.pure _
  | cons d ds ih =>
    intro count h
    unfold runPositionalsT
    exact Fine.bind (fine_positional hw nd total _ (h d (by simp))) fun _ => ih _ fun e he => h e (by simp [he])

theorem fine_leftOver : Fine (checkForLeftOverArgsT (W := W)) := by
  intro s hs
  unfold checkForLeftOverArgsT
  split
  · exact ⟨hs, Or.inl (literal_utf8 (by decide))⟩
  · exact hs

/-- What is needed of the declarations. -/
structure DeclsUtf8 (D : TDecls W) : Prop where
  options : ∀ d ∈ D.options, OptUtf8 d
  flags : ∀ d ∈ D.flags, IsAscii d.short
  positionals : ∀ d ∈ D.positionals, PosUtf8 d

theorem fine_formatParse {wd : Wording} (hw : WordingUtf8 wd) (nd : Bool) {D : TDecls W} (hD : DeclsUtf8 D) {args : List Str}
    (ha : ∀ a ∈ args, Utf8 a) {st : Store} (hst : StoreUtf8 st) (w : W) : (formatParseT wd nd D args st w).Fine := by
  unfold formatParseT parseBodyT
  refine Fine.bind (Fine.forEach fun d hd => fine_option hw nd (hD.options d hd)) (fun _ =>
    Fine.bind (Fine.forEach fun d hd => fine_flag (hD.flags d hd)) fun _ => Fine.bind fine_unknown fun _ => Fine.bind fine_blank fun _ =>
    Fine.bind (fine_positionals hw nd _ _ _ hD.positionals) fun _ => fine_leftOver) _ ⟨fun a h => ha a ?_, fun a h => ha a ?_, hst⟩
  · exact (List.takeWhile_sublist _).subset h
  · exact (List.dropWhile_sublist _).subset h

/-! ### The arguments -/

/-- The arguments come from the command line; messages are valid. -/
def ScanFine (s : ScanState) (l : List Str) : TRes ScanState Unit → Prop
  | .ok _ s' => (∀ a ∈ s'.formatArguments, a ∈ s.formatArguments ∨ a ∈ l) ∧
    ∀ r, s'.sub = some r → s.sub = some r ∨ ∀ a ∈ r, a ∈ l
  | .err _ t _ => Utf8 t

theorem scan_utf8 {options subs : List Str} (hs : ∀ s ∈ subs, Utf8 s) : ∀ (n : Nat) (l : List Str), l.length ≤ n → ∀ s : ScanState,
    ScanFine s l (scanLoopT options subs l s) := by
  intro n
  induction n with
  | zero =>
    intro l hn s
    cases l with
    | nil => unfold scanLoopT; exact ⟨fun a h => Or.inl h, fun r h => Or.inl h⟩
    | cons a l => simp at hn
  | succ n ih =>
    intro l hn s
    cases l with
    | nil => unfold scanLoopT; exact ⟨fun a h => Or.inl h, fun r h => Or.inl h⟩
    | cons a rest =>
      have go : ∀ (l' : List Str) (s' : ScanState), l'.length ≤ n → (∀ b ∈ l', b ∈ a :: rest) →
          (∀ b ∈ s'.formatArguments, b ∈ s.formatArguments ∨ b ∈ a :: rest) → s'.sub = s.sub →
          ScanFine s (a :: rest) (scanLoopT options subs l' s') := by
        intro l' s' h1 h2 h3 h4
        have := ih l' h1 s'
        cases e : scanLoopT options subs l' s' with
        | ok u s'' =>
          rw [e] at this
          refine ⟨fun b hb => ?_, fun r hr => ?_⟩
          · rcases this.1 b hb with h | h
            · exact h3 b h
            · exact Or.inr (h2 b h)
          · rcases this.2 r hr with h | h
            · exact Or.inl (h4 ▸ h)
            · exact Or.inr fun b hb => h2 b (h b hb)
        | err x t s'' => rw [e] at this; exact this
      have hlen : rest.length ≤ n := by simpa using hn
      have hrest : ∀ b ∈ rest, b ∈ a :: rest := fun b hb => by simp [hb]
      have hpush : ∀ b ∈ s.formatArguments ++ [a], b ∈ s.formatArguments ∨ b ∈ a :: rest := fun b hb => by
        rcases List.mem_append.1 hb with h | h
        · exact Or.inl h
        · right; simpa using Or.inl (List.mem_singleton.1 h)
      have hsame : ∀ b ∈ s.formatArguments, b ∈ s.formatArguments ∨ b ∈ a :: rest := fun b hb => Or.inl hb
      rw [scanLoopT.eq_def]
      dsimp only
      by_cases c1 : a ∈ options
      · rw [if_pos c1]
        cases rest with
        | nil => exact ⟨hpush, fun r h => Or.inl h⟩
        | cons v rest' =>
          refine go rest' { s with formatArguments := s.formatArguments ++ [a] ++ [v] } (by simp at hn; omega)
            (fun b hb => by simp [hb]) (fun b hb => ?_) rfl
          rcases List.mem_append.1 hb with h | h
          · exact hpush b h
          · right; simp [List.mem_singleton.1 h]
      rw [if_neg c1]
      by_cases c2 : subs ≠ [] ∧ a ∈ subs
      · rw [if_pos c2]; exact ⟨hsame, fun r h => Or.inr fun b hb => by cases h; exact hb⟩
      rw [if_neg c2]
      by_cases c3 : subs ≠ [] ∧ a.head? ≠ some '-'
      · rw [if_pos c3]
        show Utf8 (unknownSubcommandText subs)
        rw [unknownSubcommandText_eq _ c3.1]
        exact ((literal_utf8 (by decide)).append (joined_utf8 (literal_utf8 (by decide)) hs)).append (literal_utf8 (by decide))
      rw [if_neg c3]
      by_cases c4 : a = sDashH ∨ a = sHelp
      · rw [if_pos c4]; exact go rest { s with format := _ } hlen hrest hsame rfl
      rw [if_neg c4]
      by_cases c5 : a = sDashHH ∨ a = sAdvancedHelp
      · rw [if_pos c5]; exact go rest { s with format := _ } hlen hrest hsame rfl
      rw [if_neg c5]
      by_cases c6 : a = sVersion
      · rw [if_pos c6]; exact go rest { s with format := _ } hlen hrest hsame rfl
      rw [if_neg c6]
      by_cases c7 : a = sCopyright
      · rw [if_pos c7]; exact go rest { s with format := _ } hlen hrest hsame rfl
      rw [if_neg c7]
      have hx : Utf8 exportText := literal_utf8 (by decide)
      by_cases c8 : a = sExportHelp
      · rw [if_pos c8]
        cases rest with
        | nil => exact literal_utf8 (s := "Option --export-help must be followed by a value.".toList) (by decide)
        | cons v rest' =>
          dsimp only
          cases exportFormat v with
          | error x => exact hx
          | ok f => exact go rest' { s with format := _ } (by simp at hn; omega) (fun b hb => by simp [hb]) hsame rfl
      rw [if_neg c8]
      by_cases c9 : (sExportHelp ++ ['=']).isPrefixOf a = true
      · rw [if_pos c9]
        cases exportFormat (a.drop (sExportHelp.length + 1)) with
        | error x => exact hx
        | ok f => exact go rest { s with format := _ } hlen hrest hsame rfl
      rw [if_neg c9]
      by_cases c10 : a = sVersionCheck
      · rw [if_pos c10]
        cases rest with
        | nil => exact literal_utf8 (s := "Option --version-check must be followed by a value.".toList) (by decide)
        | cons v rest' =>
          dsimp only
          cases versionCheckValue v with
          | error x => exact literal_utf8 (s := "Value for option --version-check must be true (1) or false (0).".toList) (by decide)
          | ok f => exact go rest' { s with userDecision := _ } (by simp at hn; omega) (fun b hb => by simp [hb]) hsame rfl
      rw [if_neg c10]
      exact go rest { s with formatArguments := _ } hlen hrest hpush rfl

end Sharg
