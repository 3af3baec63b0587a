import Verif.Spec.ErrorTexts
import Verif.Lemmas.ErrorTexts
import Verif.Lemmas.AccountFlags
import Verif.Lemmas.Subcommands
import Verif.Props.Defaults

/-!
# The texts of exceptions explain what is wrong
-/

set_option linter.unusedSimpArgs false

namespace Sharg

open Spec

variable {W : Type}

/-! ### Numbers and lists of names -/

theorem numberText_showNat (n : Nat) : NumberText n (Sharg.showNat n) := by
  have h := showInt_denotes 0 n n (by omega) (by omega)
  rw [← showInt_eq] at h
  have h0 : Sharg.showInt (n : Int) = Sharg.showNat n := by simp [Sharg.showInt]
  rw [h0] at h
  obtain ⟨_, _, ⟨h1, h2⟩ | ⟨h1, _⟩⟩ := h
  · exact ⟨h1, by omega⟩
  · omega

theorem entryLt_iff (p q : Str × Int) : entryLt p q = true ↔ p.2 < q.2 ∨ (p.2 = q.2 ∧ StrBefore p.1 q.1) := by
  unfold entryLt
  split
  · rename_i h
    rw [decide_eq_true_eq]
    constructor
    · exact Or.inl
    · rintro (h1 | ⟨h1, _⟩)
      · exact h1
      · exact absurd h1 h
  · rename_i h
    simp at h
    rw [strLt_iff]
    constructor
    · exact fun h2 => Or.inr ⟨h, h2⟩
    · rintro (h1 | ⟨_, h1⟩)
      · omega
      · exact h1

theorem mem_insertEntry (x y : Str × Int) (l : List (Str × Int)) : y ∈ insertEntry x l ↔ y = x ∨ y ∈ l := by
  induction l with
  | nil => simp [insertEntry]
  | cons z l ih =>
    unfold insertEntry
    split
    · simp only [List.mem_cons, ih]; grind
    · simp only [List.mem_cons]

theorem mem_sortEntries (y : Str × Int) (l : List (Str × Int)) : y ∈ l.foldr insertEntry [] ↔ y ∈ l := by
  induction l with
  | nil => simp
  | cons z l ih => simp [mem_insertEntry, ih]

theorem entryLt_trans {p q r : Str × Int} (h1 : entryLt p q = true) (h2 : entryLt q r = true) : entryLt p r = true := by
  rw [entryLt_iff] at *
  rcases h1 with h1 | ⟨h1, h1'⟩ <;> rcases h2 with h2 | ⟨h2, h2'⟩
  · left; omega
  · left; omega
  · left; omega
  · right; exact ⟨by omega, (strLt_iff _ _).1 (strLt_trans ((strLt_iff _ _).2 h1') ((strLt_iff _ _).2 h2'))⟩

theorem entryLt_total {p q : Str × Int} (hne : p.1 ≠ q.1) (h : ¬ entryLt p q = true) : entryLt q p = true := by
  rw [entryLt_iff] at *
  rcases Int.lt_trichotomy p.2 q.2 with h1 | h1 | h1
  · exact absurd (Or.inl h1) h
  · right
    refine ⟨h1.symm, ?_⟩
    rw [← strLt_iff]
    apply Classical.byContradiction
    intro h2
    have h3 : strLt p.1 q.1 = false := by
      cases hc : strLt p.1 q.1 with
      | false => rfl
      | true => exact absurd (Or.inr ⟨h1, (strLt_iff _ _).1 hc⟩) h
    exact hne (strLt_total h3 (by simpa using h2))
  · exact Or.inl h1

theorem sorted_insertEntry (x : Str × Int) (l : List (Str × Int)) (hx : ∀ y ∈ l, y.1 ≠ x.1)
    (h : l.Pairwise fun p q => entryLt p q = true) : (insertEntry x l).Pairwise fun p q => entryLt p q = true := by
  induction l with
  | nil => simp [insertEntry]
  | cons z l ih =>
    rw [List.pairwise_cons] at h
    unfold insertEntry
    by_cases hz : entryLt z x = true
    · rw [if_pos hz, List.pairwise_cons]
      refine ⟨fun y hy => ?_, ih (fun y hy => hx y (by simp [hy])) h.2⟩
      rcases (mem_insertEntry x y l).1 hy with rfl | hy
      · exact hz
      · exact h.1 y hy
    · rw [if_neg hz, List.pairwise_cons]
      have hxz := entryLt_total (hx z (by simp)) hz
      refine ⟨fun y hy => ?_, by rw [List.pairwise_cons]; exact h⟩
      rcases List.mem_cons.1 hy with rfl | hy
      · exact hxz
      · exact entryLt_trans hxz (h.1 y hy)

theorem sorted_sortEntries (l : List (Str × Int)) (h : l.Pairwise fun p q => p.1 ≠ q.1) :
    (l.foldr insertEntry []).Pairwise fun p q => entryLt p q = true := by
  induction l with
  | nil => simp
  | cons x l ih =>
    rw [List.pairwise_cons] at h
    exact sorted_insertEntry x _ (fun y hy => (h.1 y ((mem_sortEntries y l).1 hy)).symm) (ih h.2)

/-- First entry of its name. -/
def FirstOf (names : List (Str × Int)) (p : Str × Int) : Prop :=
  ∃ before after, names = before ++ p :: after ∧ ∀ q ∈ before, q.1 ≠ p.1

theorem enumEntries_spec (names : List (Str × Int)) :
    (∀ p, p ∈ enumEntries names ↔ FirstOf names p) ∧ (enumEntries names).Pairwise fun p q => p.1 ≠ q.1 := by
  have key : ∀ (rest done acc : List (Str × Int)), (∀ p, p ∈ acc ↔ FirstOf done p) → (acc.Pairwise fun p q => p.1 ≠ q.1) →
      (∀ q ∈ done, ∃ p ∈ acc, p.1 = q.1) →
      (∀ p, p ∈ rest.foldl (fun acc p => if acc.any (fun q => q.1 == p.1) then acc else acc ++ [p]) acc ↔
        FirstOf (done ++ rest) p) ∧
      (rest.foldl (fun acc p => if acc.any (fun q => q.1 == p.1) then acc else acc ++ [p]) acc).Pairwise
        fun p q => p.1 ≠ q.1 := by
    intro rest
    induction rest with
    | nil => intro done acc h1 h2 _; rw [List.append_nil]; exact ⟨h1, h2⟩
    | cons x rest ih =>
      intro done acc h1 h2 h3
      have hstep : ∀ p, FirstOf (done ++ [x]) p ↔ FirstOf done p ∨ (p = x ∧ ∀ q ∈ done, q.1 ≠ x.1) := by
        intro p
        constructor
        · rintro ⟨b, a, he, hb⟩
          rcases List.eq_nil_or_concat a with rfl | ⟨a', y, rfl⟩
          · have := List.append_inj' he rfl
            simp at this
            right
            obtain ⟨rfl, rfl⟩ := this
            exact ⟨rfl, hb⟩
          · left
            have he' : done ++ [x] = (b ++ p :: a') ++ [y] := by simpa using he
            have := List.append_inj' he' rfl
            exact ⟨b, a', this.1, hb⟩
        · rintro (⟨b, a, he, hb⟩ | ⟨rfl, h⟩)
          · exact ⟨b, a ++ [x], by simp [he], hb⟩
          · exact ⟨done, [], rfl, h⟩
      rw [List.foldl_cons, List.append_cons done]
      by_cases hx : acc.any (fun q => q.1 == x.1) = true
      · rw [if_pos hx]
        simp only [List.any_eq_true, beq_iff_eq] at hx
        obtain ⟨q, hq, hqx⟩ := hx
        refine ih _ acc (fun p => ?_) h2 (fun q' hq' => ?_)
        · rw [hstep, h1]
          constructor
          · exact Or.inl
          · rintro (h | ⟨rfl, h⟩)
            · exact h
            · obtain ⟨b, a, he, _⟩ := (h1 q).1 hq
              exact absurd hqx (h q (by rw [he]; simp))
        · rcases List.mem_append.1 hq' with hq' | hq'
          · exact h3 q' hq'
          · simp at hq'; subst hq'; exact ⟨q, hq, hqx⟩
      · rw [if_neg hx]
        simp only [List.any_eq_true, beq_iff_eq, not_exists, not_and] at hx
        refine ih _ (acc ++ [x]) (fun p => ?_) ?_ (fun q' hq' => ?_)
        · rw [hstep, List.mem_append, h1]
          constructor
          · rintro (h | h)
            · exact Or.inl h
            · simp at h
              subst h
              refine Or.inr ⟨rfl, fun q hq hqx => ?_⟩
              obtain ⟨p', hp', hpe⟩ := h3 q hq
              exact hx p' hp' (hpe.trans hqx)
          · rintro (h | ⟨rfl, _⟩)
            · exact Or.inl h
            · exact Or.inr (by simp)
        · rw [List.pairwise_append]
          refine ⟨h2, by simp, fun a ha b hb => ?_⟩
          simp at hb
          subst hb
          exact hx a ha
        · rcases List.mem_append.1 hq' with hq' | hq'
          · obtain ⟨p, hp, he⟩ := h3 q' hq'
            exact ⟨p, by simp [hp], he⟩
          · simp at hq'; subst hq'; exact ⟨q', by simp, rfl⟩
  have := key names [] [] (by
    intro p
    constructor
    · intro h; cases h
    · rintro ⟨b, a, he, _⟩; simp at he) List.Pairwise.nil (by intro q h; cases h)
  simpa [enumEntries] using this

theorem enumListing_sorted (names : List (Str × Int)) : EnumListing names ((enumEntries names).foldr insertEntry []) := by
  obtain ⟨h1, h2⟩ := enumEntries_spec names
  exact ⟨fun p => by rw [mem_sortEntries, h1]; rfl, (sorted_sortEntries _ h2).imp fun h => (entryLt_iff _ _).1 h⟩

theorem foldl_keys (ps : List (Str × Int)) (t : Str) (h : ps ≠ []) :
    ps.foldl (fun t p => t ++ p.1 ++ ", ".toList) t = t ++ joined ", ".toList (ps.map Prod.fst) ++ ", ".toList := by
  induction ps generalizing t with
  | nil => exact absurd rfl h
  | cons p ps ih =>
    rw [List.foldl_cons]
    cases ps with
    | nil => rfl
    | cons q ps =>
      rw [ih _ (by simp)]
      simp only [List.map_cons, joined, List.append_assoc]

theorem keysText_eq (names : List (Str × Int)) (h : names ≠ []) : ∃ ps, EnumListing names ps ∧ ps ≠ [] ∧
    keysText names = "[".toList ++ joined ", ".toList (ps.map Prod.fst) ++ "]".toList := by
  have hl := enumListing_sorted names
  have hne : (enumEntries names).foldr insertEntry [] ≠ [] := by
    obtain ⟨x, l, rfl⟩ := List.exists_cons_of_ne_nil h
    have : x ∈ (enumEntries (x :: l)).foldr insertEntry [] := (hl.mem x).2 ⟨[], l, rfl, by simp⟩
    exact List.ne_nil_of_mem this
  refine ⟨_, hl, hne, ?_⟩
  unfold keysText
  rw [foldl_keys _ _ hne]
  have : ", ".toList = [','] ++ [' '] := rfl
  rw [this, ← List.append_assoc, List.dropLast_concat, List.dropLast_concat]

/-! ### Texts about values -/

theorem unreadable_of_enum {wd : Wording} {l : Bool} {names : List (Str × Int)} {name v t : Str} {e : Exn}
    (h : parseElemT (.enumeration names) v = .error (e, t)) (he : e.isParserError = true) :
    e = .userInputError ∧ Unreadable wd l (.enumeration names) name v t := by
  unfold parseElemT at h
  dsimp only at h
  cases hl : names.lookup v with
  | some tag => rw [hl] at h; cases h
  | none =>
    rw [hl] at h
    dsimp only at h
    by_cases hn : names.isEmpty = true
    · rw [if_pos hn] at h
      cases h
      cases he
    · rw [if_neg hn] at h
      obtain ⟨ps, h1, h2, h3⟩ := keysText_eq names (by simpa using hn)
      cases h
      refine ⟨rfl, ?_⟩
      have hden : ∀ e, ¬ Denotes (.enumeration names) v e := by
        intro e hd
        rw [← readElem_iff, readElem_some] at hd
        simp [parseElem, parseEnum, hl] at hd
        split at hd <;> cases hd
      rw [h3]
      have := Unreadable.unknownName (wd := wd) (isList := l) (name := name) (v := v) names ps rfl hden h1 h2
      rw [show ∀ a b c d : Str, a ++ v ++ b ++ ("[".toList ++ c ++ d) = a ++ v ++ (b ++ "[".toList) ++ c ++ d by
        intro a b c d; simp]
      exact this

theorem parseElemT_error {ty : ElemTy} {v t : Str} {e : Exn} (h : parseElemT ty v = .error (e, t)) :
    ∃ names, ty = .enumeration names := by
  cases ty with
  | enumeration names => exact ⟨names, rfl⟩
  | _ => simp [parseElemT, parseElem] at h

theorem parseElemT_ok {ty : ElemTy} {v : Str} {r : ParseRes × Option Elem} (h : parseElemT ty v = .ok r) :
    parseElem ty v = .ok r := by
  rw [parseElemT_forget, h]

theorem showInt_lower (lo : Int) : DenotesInt lo lo (Sharg.showInt lo) lo := by
  rw [showInt_eq]; exact showInt_denotes lo lo lo (by omega) (by omega)

theorem showInt_upper (hi : Int) : DenotesInt (min 0 hi) hi (Sharg.showInt hi) hi := by
  rw [showInt_eq]; exact showInt_denotes _ _ _ (by omega) (by omega)

/-- The texts of `throw_on_input_error`. -/
theorem unreadable_of_throw {wd : Wording} {nd l : Bool} {ty : ElemTy} {res : ParseRes} {written : Option Elem}
    {name v t : Str} {e : Exn} (hp : parseElemT ty v = .ok (res, written))
    (h : throwOnInputErrorT wd nd l ty res name v = some (e, t)) (he : e.isParserError = true) :
    e = .userInputError ∧ Unreadable wd l ty name v t := by
  have hp' := parseElemT_ok hp
  have hor : res = .overflowError ↔ OutOfRange ty v := by
    rw [← parseElem_outOfRange]
    constructor
    · rintro rfl; exact ⟨_, hp'⟩
    · rintro ⟨w, hw⟩; rw [hp'] at hw; cases hw; rfl
  cases res with
  | success => cases h
  | error =>
    simp only [throwOnInputErrorT] at h
    cases h
    refine ⟨rfl, ?_⟩
    have := Unreadable.notAValue (wd := wd) (isList := l) (ty := ty) (name := name) (v := v) (fun e hd => ?_)
      (fun ho => by cases hor.2 ho) (fun names hn => ?_)
    · rw [show ∀ a b c d : Str, a ++ name ++ b ++ c ++ v ++ d = a ++ name ++ (b ++ c) ++ v ++ d by intro a b c d; simp]
      exact this
    · rw [← readElem_iff, readElem_some, hp'] at hd
      cases hd
    · subst hn
      simp [parseElem, parseEnum] at hp'
      split at hp'
      · cases hp'
      · split at hp' <;> cases hp'
  | overflowError =>
    simp only [throwOnInputErrorT] at h
    by_cases hl : (!l && ty.isArithmetic) = true
    · rw [if_pos hl] at h
      simp only [Bool.and_eq_true, Bool.not_eq_true'] at hl
      have ho := hor.1 rfl
      cases h
      refine ⟨rfl, ?_⟩
      cases ty with
      | integer lo hi =>
        have := Unreadable.integerRange (wd := wd) (isList := l) (name := name) (v := v) lo hi _ _ rfl ho hl.1
          (showInt_lower lo) (showInt_upper hi)
        rw [show ∀ a b c d : Str, a ++ name ++ b ++ c ++ v ++ d = a ++ name ++ (b ++ c) ++ v ++ d by intro a b c d; simp]
        exact this
      | foreign a conv =>
        obtain ⟨rfl, _⟩ := id ho
        have := Unreadable.floatRange (wd := wd) (isList := l) (name := name) (v := v) conv rfl ho hl.1
        rw [show ∀ a b c d e : Str, a ++ name ++ b ++ c ++ v ++ d ++ (limitTexts wd (.foreign true conv)).1 ++ e =
            a ++ name ++ (b ++ c) ++ v ++ (d ++ "0.000000".toList ++ e) by intro a b c d e; simp [limitTexts]]
        exact this
      | _ => cases ho
    · rw [if_neg hl] at h
      split at h
      · cases h
      · cases h; cases he

theorem throwIfT_err {o : Option (Exn × Str)} {s s' : FState W} {e : Exn} {t : Str} (h : throwIfT o s = .err e t s') :
    o = some (e, t) := by
  cases o with
  | none => cases h
  | some p => cases h; rfl

theorem tbind_err {σ α β : Type} {m : TM σ α} {f : α → TM σ β} {s s' : σ} {e : Exn} {t : Str}
    (h : TM.bind m f s = .err e t s') : m s = .err e t s' ∨ ∃ a s1, m s = .ok a s1 ∧ f a s1 = .err e t s' := by
  unfold TM.bind at h
  cases hm : m s with
  | ok a s1 => rw [hm] at h; exact Or.inr ⟨a, s1, rfl, h⟩
  | err e1 t1 s1 => rw [hm] at h; cases h; exact Or.inl rfl

theorem tbind_ok {σ α β : Type} {m : TM σ α} {f : α → TM σ β} {s s' : σ} {b : β}
    (h : TM.bind m f s = .ok b s') : ∃ a s1, m s = .ok a s1 ∧ f a s1 = .ok b s' := by
  unfold TM.bind at h
  cases hm : m s with
  | ok a s1 => rw [hm] at h; exact ⟨a, s1, rfl, h⟩
  | err e1 t1 s1 => rw [hm] at h; cases h

theorem assignScalarT_err {wd : Wording} {nd : Bool} {ty : ElemTy} {x : VarId} {name v t : Str} {s s' : FState W} {e : Exn}
    (h : assignScalarT wd nd ty x name v s = .err e t s') (he : e.isParserError = true) :
    e = .userInputError ∧ Unreadable wd false ty name v t := by
  unfold assignScalarT at h
  cases hp : parseElemT ty v with
  | error p =>
    obtain ⟨e', t'⟩ := p
    rw [hp] at h
    cases h
    obtain ⟨names, rfl⟩ := parseElemT_error hp
    exact unreadable_of_enum hp he
  | ok p =>
    obtain ⟨res, written⟩ := p
    rw [hp] at h
    rcases tbind_err h with h | ⟨_, s1, _, h⟩
    · cases written <;> cases h
    · exact unreadable_of_throw hp (throwIfT_err h) he

theorem appendListT_err {wd : Wording} {nd : Bool} {ty : ElemTy} {x : VarId} {name v t : Str} {s s' : FState W} {e : Exn}
    (h : appendListT wd nd ty x name v s = .err e t s') (he : e.isParserError = true) :
    e = .userInputError ∧ Unreadable wd true ty name v t := by
  unfold appendListT at h
  cases hp : parseElemT ty v with
  | error p =>
    obtain ⟨e', t'⟩ := p
    rw [hp] at h
    cases h
    obtain ⟨names, rfl⟩ := parseElemT_error hp
    exact unreadable_of_enum hp he
  | ok p =>
    obtain ⟨res, written⟩ := p
    rw [hp] at h
    rcases tbind_err h with h | ⟨_, s1, _, h⟩
    · split at h <;> cases h
    · exact unreadable_of_throw hp (throwIfT_err h) he

/-! ### Arguments of options -/

theorem retrieve_written {d : OptDecl W} {id : Id} (hid : IdOf d id) {a text : Str} {rest blanks rest' : List Str}
    (hh : id.hits a = true) (h : retrieve id a rest = .ok (text, blanks, rest')) (front : List Str) :
    ValueWritten d id.dashed text (front ++ a :: rest) := by
  refine ⟨front, a, rest, rfl, ?_⟩
  by_cases hl : id.dashed.length < a.length
  · rw [retrieve_inline id a rest hl] at h
    cases hi : inlineVal id a with
    | none => rw [hi] at h; cases h
    | some v =>
      rw [hi] at h
      cases h
      have ha := Id.hits_decomp id a hh
      unfold inlineVal at hi
      by_cases hq : a[id.dashed.length]? = some '='
      · rw [if_pos hq] at hi
        by_cases hz : a.length = id.dashed.length + 1
        · rw [if_pos hz] at hi; cases hi
        · rw [if_neg hz] at hi
          cases hi
          left
          have h2 : a.drop id.dashed.length = '=' :: a.drop (id.dashed.length + 1) := by
            rw [List.drop_eq_getElem_cons hl]
            rw [List.getElem?_eq_getElem hl] at hq
            simp at hq
            rw [hq]
          refine ⟨?_, by rw [← h2]; exact ha⟩
          intro h3
          have := congrArg List.length h3
          simp at this
          omega
      · rw [if_neg hq] at hi
        cases hi
        have h2 : (a.drop id.dashed.length).head? ≠ some '=' := by
          rw [List.head?_drop]; exact hq
        right; left
        refine ⟨?_, h2, ?_, ha⟩
        · intro h3
          have := congrArg List.length h3
          simp at this
          omega
        · rcases hid with ⟨_, rfl⟩ | ⟨_, rfl⟩
          · rfl
          · rcases (Id.hits_long_iff _ _).1 hh with h4 | ⟨t, h4⟩
            · subst h4; simp [Id.dashed] at hl
            · subst h4
              simp [Id.dashed] at hq
  · have ha := Id.hits_exact id a hh hl
    rw [retrieve_sep id a rest hl] at h
    cases rest with
    | nil => cases h
    | cons v rest => cases h; exact Or.inr (Or.inr ⟨ha, rfl⟩)

theorem retrieve_missing {id : Id} {a : Str} {rest : List Str} {e : Exn}
    (hh : id.hits a = true) (h : retrieve id a rest = .error e) (front : List Str) :
    e = .tooFewArguments ∧ ValueMissing id.dashed (front ++ a :: rest) := by
  by_cases hl : id.dashed.length < a.length
  · rw [retrieve_inline id a rest hl] at h
    cases hi : inlineVal id a with
    | some v => rw [hi] at h; cases h
    | none =>
      rw [hi] at h
      cases h
      refine ⟨rfl, Or.inr ?_⟩
      have ha := Id.hits_decomp id a hh
      unfold inlineVal at hi
      by_cases hq : a[id.dashed.length]? = some '='
      · rw [if_pos hq] at hi
        by_cases hz : a.length = id.dashed.length + 1
        · have h2 : a.drop id.dashed.length = ['='] := by
            rw [List.drop_eq_getElem_cons hl]
            rw [List.getElem?_eq_getElem hl] at hq
            simp at hq
            rw [hq, List.drop_eq_nil_of_le (by omega)]
          rw [h2] at ha
          rw [← ha]; simp
        · rw [if_neg hz] at hi; cases hi
      · rw [if_neg hq] at hi; cases hi
  · have ha := Id.hits_exact id a hh hl
    rw [retrieve_sep id a rest hl] at h
    cases rest with
    | nil => cases h; exact ⟨rfl, Or.inl ⟨front, by rw [← ha]⟩⟩
    | cons v rest => cases h

theorem startsWith_of_hits {d : OptDecl W} {id : Id} (hid : IdOf d id) {a : Str} (h : id.hits a = true) :
    StartsWith d id.dashed a := by
  rcases hid with ⟨_, rfl⟩ | ⟨_, rfl⟩
  · obtain ⟨t, rfl⟩ := (Id.hits_short_iff _ _).1 h
    exact Or.inl ⟨rfl, t, rfl⟩
  · right
    refine ⟨rfl, ?_⟩
    rcases (Id.hits_long_iff _ _).1 h with rfl | ⟨t, rfl⟩
    · exact Or.inl rfl
    · exact Or.inr ⟨t, by simp [Id.dashed]⟩

/-- What a pass over the arguments `l` for one identifier may complain about. -/
inductive PassErr (wd : Wording) (d : OptDecl W) (id : Id) (l : List Str) : Exn → Str → Prop where
  | bad (v t : Str) : ValueWritten d id.dashed v l → Unreadable wd d.isList d.ty id.dashed v t →
      PassErr wd d id l .userInputError t
  | missing : ValueMissing id.dashed l → PassErr wd d id l .tooFewArguments (missingText id)
  | twice (a b : Str) (l₁ l₂ l₃ : List Str) : d.isList = false → l = l₁ ++ a :: l₂ ++ b :: l₃ → id.hits a = true →
      id.hits b = true → PassErr wd d id l .optionDeclaredMultipleTimes
        ("Option ".toList ++ id.dashed ++ " is no list/container but declared multiple times.".toList)

theorem retrieve_rest {id : Id} {a text : Str} {rest blanks rest' : List Str}
    (h : retrieve id a rest = .ok (text, blanks, rest')) : ∃ l, rest = l ++ rest' := by
  by_cases hl : id.dashed.length < a.length
  · rw [retrieve_inline id a rest hl] at h
    cases hi : inlineVal id a with
    | none => rw [hi] at h; cases h
    | some v => rw [hi] at h; cases h; exact ⟨[], rfl⟩
  · rw [retrieve_sep id a rest hl] at h
    cases rest with
    | nil => cases h
    | cons v rest => cases h; exact ⟨[text], rfl⟩

theorem scalarT_err {wd : Wording} {nd : Bool} {d : OptDecl W} {id : Id} (hid : IdOf d id) (hs : d.isList = false)
    {s s' : FState W} {e : Exn} {t : Str} (h : getOptionByIdScalarT wd nd d.ty d.var id s = .err e t s')
    (he : e.isParserError = true) : PassErr wd d id s.pre e t := by
  unfold getOptionByIdScalarT at h
  cases hf : findOptionId id s.pre with
  | mk front back =>
    obtain ⟨hl, -, hback⟩ := findOptionId_spec id s.pre front back hf
    rw [hf] at h
    cases back with
    | nil => cases h
    | cons a rest =>
      have hh := (hback a rfl).2
      dsimp only at h
      cases hr : retrieve id a rest with
      | error e2 =>
        rw [hr] at h
        cases h
        obtain ⟨rfl, hm⟩ := retrieve_missing hh hr front
        rw [← hl] at hm
        exact .missing hm
      | ok r =>
        obtain ⟨text, blanks, rest'⟩ := r
        rw [hr] at h
        dsimp only at h
        rcases tbind_err h with h | ⟨_, s1, _, h⟩
        · cases h
        · rcases tbind_err h with h | ⟨_, s2, _, h⟩
          · obtain ⟨rfl, hu⟩ := assignScalarT_err h he
            refine .bad text t ?_ (by rw [hs]; exact hu)
            rw [hl]; exact retrieve_written hid hh hr front
          · cases hf2 : findOptionId id rest' with
            | mk front2 back2 =>
              obtain ⟨hl2, -, hback2⟩ := findOptionId_spec id rest' front2 back2 hf2
              rw [hf2] at h
              cases back2 with
              | nil => cases h
              | cons b rest2 =>
                cases h
                obtain ⟨m, hm⟩ := retrieve_rest hr
                refine .twice a b front (m ++ front2) rest2 hs ?_ hh (hback2 b rfl).2
                rw [hl, hm, hl2]; simp

theorem collectT_err {wd : Wording} {nd : Bool} {d : OptDecl W} {id : Id} (hid : IdOf d id) (hs : d.isList = true)
    {e : Exn} {t : Str} (he : e.isParserError = true) :
    ∀ (n : Nat) (l pre front : List Str) (s s' : FState W), l.length ≤ n →
      collectT wd nd d.ty d.var id front l s = .err e t s' → PassErr wd d id (pre ++ l) e t := by
  intro n
  induction n with
  | zero =>
    intro l pre front s s' hn h
    have : l = [] := by simpa using hn
    subst this
    cases h
  | succ n ih =>
    intro l pre front s s' hn h
    cases l with
    | nil => cases h
    | cons a rest =>
      have hn' : rest.length ≤ n := by simpa using hn
      rw [collectT.eq_def] at h
      dsimp only at h
      by_cases hh : id.hits a = true
      · rw [if_pos hh] at h
        by_cases hl : id.dashed.length < a.length
        · rw [if_pos hl] at h
          cases hr : retrieve id a rest with
          | error e2 =>
            rw [hr] at h
            cases h
            obtain ⟨rfl, hm⟩ := retrieve_missing hh hr pre
            exact .missing hm
          | ok r =>
            obtain ⟨text, blanks, rest'⟩ := r
            rw [hr] at h
            dsimp only at h
            rcases tbind_err h with h | ⟨_, s1, _, h⟩
            · obtain ⟨rfl, hu⟩ := appendListT_err h he
              exact .bad text t (retrieve_written hid hh hr pre) (by rw [hs]; exact hu)
            · have := ih rest (pre ++ [a]) _ _ _ hn' h
              simpa using this
        · rw [if_neg hl] at h
          have ha := Id.hits_exact id a hh hl
          cases rest with
          | nil => cases h; exact .missing (Or.inl ⟨pre, by rw [← ha]⟩)
          | cons v rest =>
            dsimp only at h
            rcases tbind_err h with h | ⟨_, s1, _, h⟩
            · obtain ⟨rfl, hu⟩ := appendListT_err h he
              exact .bad v t ⟨pre, a, v :: rest, rfl, Or.inr (Or.inr ⟨ha, rfl⟩)⟩ (by rw [hs]; exact hu)
            · have := ih rest (pre ++ [a, v]) _ _ _ (by simp at hn'; omega) h
              simpa using this
      · rw [if_neg hh] at h
        have := ih rest (pre ++ [a]) _ _ _ hn' h
        simpa using this

theorem byIdT_err {wd : Wording} {nd : Bool} {d : OptDecl W} {id : Id} (hid : id.isEmpty = true ∨ IdOf d id)
    {s s' : FState W} {e : Exn} {t : Str} (h : getOptionByIdT wd nd d id s = .err e t s') (he : e.isParserError = true) :
    IdOf d id ∧ PassErr wd d id s.pre e t := by
  rcases hid with hid | hid
  · have hf : findOptionId id s.pre = (s.pre, []) := by unfold findOptionId; rw [if_pos hid]
    unfold getOptionByIdT at h
    split at h
    · unfold getOptionByIdListT at h; rw [hf] at h; cases h
    · unfold getOptionByIdScalarT at h; rw [hf] at h; cases h
  · refine ⟨hid, ?_⟩
    unfold getOptionByIdT at h
    by_cases hl : d.isList = true
    · rw [if_pos hl] at h
      unfold getOptionByIdListT at h
      split at h
      · cases h
      · rcases tbind_err h with h | ⟨_, s1, h1, h⟩
        · cases h
        · cases h1
          rcases tbind_err h with h | ⟨_, s2, _, h⟩
          · exact collectT_err hid hl he _ _ [] _ _ _ (Nat.le_refl _) h
          · cases h
    · rw [if_neg hl] at h
      exact scalarT_err hid (by simpa using hl) h he

/-! ### From what is left to what was written -/

/-- Arguments that are used become empty. -/
def Blanked (a b : Str) : Prop := b = [] ∨ b = a

theorem uses_blanked {D : Decls W} {l l' : List Str} (h : Uses D l l') : Pointwise Blanked l l' := by
  induction h with
  | nil => exact .nil
  | keep a _ ih => exact .cons (Or.inr rfl) ih
  | attached _ _ _ ih => exact .cons (Or.inl rfl) ih
  | pair v _ _ _ ih => exact .cons (Or.inl rfl) (.cons (Or.inl rfl) ih)
  | orphan _ _ _ ih => exact .cons (Or.inl rfl) ih

theorem pointwise_split {α β : Type} {R : α → β → Prop} {m : List α} {l₁ : List β} {b : β} {l₂ : List β}
    (h : Pointwise R m (l₁ ++ b :: l₂)) :
    ∃ m₁ a m₂, m = m₁ ++ a :: m₂ ∧ R a b ∧ Pointwise R m₂ l₂ := by
  induction l₁ generalizing m with
  | nil => cases h with | cons h1 h2 => exact ⟨[], _, _, rfl, h1, h2⟩
  | cons c l₁ ih =>
    cases h with
    | cons h1 h2 =>
      obtain ⟨m₁, a, m₂, rfl, h3⟩ := ih h2
      exact ⟨_ :: m₁, a, m₂, rfl, h3⟩

theorem pointwise_back {α β : Type} {R : α → β → Prop} {m : List α} {l : List β} (h : Pointwise R m l) {b : β} (hb : b ∈ l) :
    ∃ a ∈ m, R a b := by
  obtain ⟨l₁, l₂, rfl⟩ := List.append_of_mem hb
  obtain ⟨m₁, a, m₂, rfl, h1, _⟩ := pointwise_split h
  exact ⟨a, by simp, h1⟩

theorem blanked_eq {a b : Str} (h : Blanked a b) (hb : b ≠ []) : a = b := by
  rcases h with h | h
  · exact absurd h hb
  · exact h.symm

theorem bare_ne_nil {d : OptDecl W} {name : Str} (h : Bare d name) : name ≠ [] := by
  rcases h with ⟨_, rfl⟩ | ⟨_, rfl⟩ <;> simp

theorem written_lift {d : OptDecl W} {name v : Str} {m l : List Str} (hp : Pointwise Blanked m l) (hn : Bare d name)
    (h : ValueWritten d name v l) : ValueWritten d name v m ∨ ValueUsedUp name v m := by
  obtain ⟨front, a, rest, rfl, h⟩ := h
  obtain ⟨m₁, a', m₂, rfl, h1, h2⟩ := pointwise_split hp
  have hne := bare_ne_nil hn
  rcases h with ⟨hv, rfl⟩ | ⟨hv, h3, h4, rfl⟩ | ⟨rfl, h3⟩
  · have := blanked_eq h1 (by simp)
    subst this
    exact Or.inl ⟨m₁, _, m₂, rfl, Or.inl ⟨hv, rfl⟩⟩
  · have := blanked_eq h1 (by simp [hv])
    subst this
    exact Or.inl ⟨m₁, _, m₂, rfl, Or.inr (Or.inl ⟨hv, h3, h4, rfl⟩)⟩
  · have := blanked_eq h1 hne
    subst this
    cases h2 with
    | nil => cases h3
    | @cons u v' m₃ l₃ h5 h6 =>
      simp at h3
      subst h3
      rcases h5 with rfl | rfl
      · by_cases hu : u = []
        · subst hu; exact Or.inl ⟨m₁, _, _, rfl, Or.inr (Or.inr ⟨rfl, rfl⟩)⟩
        · exact Or.inr ⟨rfl, m₁, u, m₃, rfl, hu⟩
      · exact Or.inl ⟨m₁, _, _, rfl, Or.inr (Or.inr ⟨rfl, rfl⟩)⟩

theorem missing_lift {d : OptDecl W} {name : Str} {m l : List Str} (hp : Pointwise Blanked m l) (hn : Bare d name)
    (h : ValueMissing name l) : ValueMissing name m := by
  rcases h with ⟨front, rfl⟩ | h
  · obtain ⟨m₁, a', m₂, rfl, h1, h2⟩ := pointwise_split hp
    have := blanked_eq h1 (bare_ne_nil hn)
    subst this
    cases h2
    exact Or.inl ⟨m₁, rfl⟩
  · obtain ⟨a, ha, h1⟩ := pointwise_back hp h
    have := blanked_eq h1 (by simp)
    subst this
    exact Or.inr ha

theorem hits_ne_nil {id : Id} {a : Str} (h : id.hits a = true) : a ≠ [] := by
  rintro rfl
  simp at h

theorem pass_explained {wd : Wording} {D : TDecls W} {args l : List Str} {d : TOptDecl W} (hd : d ∈ D.options)
    {id : Id} (hid : IdOf d.decl id) (hp : Pointwise Blanked (before args) l) {e : Exn} {t : Str}
    (h : PassErr wd d.decl id l e t) : Explained wd D args e t := by
  cases h with
  | bad v t h1 h2 => exact .badValue d _ v t hd hid.bare (written_lift hp hid.bare h1) h2
  | missing h1 => exact .noValue d _ hd hid.bare (missing_lift hp hid.bare h1)
  | twice a b l₁ l₂ l₃ hs hl ha hb =>
    subst hl
    rw [List.append_assoc, List.cons_append] at hp
    obtain ⟨m₁, a', m₂, hm, h1, h2⟩ := pointwise_split hp
    obtain ⟨m₃, b', m₄, rfl, h3, _⟩ := pointwise_split h2
    have := blanked_eq h1 (hits_ne_nil ha)
    subst this
    have := blanked_eq h3 (hits_ne_nil hb)
    subst this
    exact .twice d _ a' b' m₁ m₃ m₄ hd hs hid.bare (by rw [hm]; simp) (startsWith_of_hits hid ha)
      (startsWith_of_hits hid hb)

theorem fullName_combine (d : OptDecl W) : FullName d (combineOptionNames d.short d.long) := by
  unfold combineOptionNames
  by_cases h : d.short = '\x00'
  · rw [if_pos h]; exact .long h
  · rw [if_neg h]
    by_cases h2 : d.long = []
    · rw [if_pos h2]; exact .short h h2
    · rw [if_neg h2]; exact .both h h2

theorem validateT_err {validator : Val → W → Bool × W} {why : Val → W → Str} {name : Str} {x : VarId} {s s' : FState W}
    {e : Exn} {t : Str} (h : validateT validator why name x s = .err e t s') : e = .validationError ∧
      (validator (s.store x) s.world).1 = false ∧
      t = "Validation failed for ".toList ++ name ++ ": ".toList ++ why (s.store x) s.world := by
  unfold validateT at h
  split at h
  · cases h
  · rename_i w hv
    cases h
    exact ⟨rfl, by rw [hv], rfl⟩

theorem tforget_ok {σ α : Type} {m : TM σ α} {n : M σ α} (hf : m.forget = n) {s s' : σ} {a : α} (h : m s = .ok a s') :
    n s = .ok a s' := by
  rw [← hf]; simp [TM.forget, h, TRes.forget]

/-- A successful pass that found something. -/
theorem byIdT_true {wd : Wording} {nd : Bool} {d : OptDecl W} {id : Id} {s s' : FState W}
    (h : getOptionByIdT wd nd d id s = .ok true s') : id.isEmpty = false ∧ ∃ a ∈ s.pre, id.hits a = true := by
  have h1 := tforget_ok (getOptionByIdT_forget wd nd d id) h
  have : ∀ back front, findOptionId id s.pre = (front, back) → back ≠ [] →
      id.isEmpty = false ∧ ∃ a ∈ s.pre, id.hits a = true := by
    intro back front hf hb
    obtain ⟨hl, -, hback⟩ := findOptionId_spec id s.pre front back hf
    cases back with
    | nil => exact absurd rfl hb
    | cons a rest => exact ⟨(hback a rfl).1, a, by rw [hl]; simp, (hback a rfl).2⟩
  cases hf : findOptionId id s.pre with
  | mk front back =>
    refine this back front hf ?_
    rintro rfl
    unfold getOptionByIdT at h
    split at h
    · unfold getOptionByIdListT at h; rw [hf] at h; cases h
    · unfold getOptionByIdScalarT at h; rw [hf] at h; cases h

theorem idOf_of_short {d : OptDecl W} (h : (Id.short d.short).isEmpty = false) : IdOf d (.short d.short) :=
  Or.inl ⟨by simpa [Id.isEmpty] using h, rfl⟩

theorem idOf_of_long {d : OptDecl W} (h : (Id.long d.long).isEmpty = false) : IdOf d (.long d.long) :=
  Or.inr ⟨by simpa [Id.isEmpty] using h, rfl⟩

/-- One option. -/
theorem getOptionT_err {wd : Wording} {nd : Bool} {D : TDecls W} {args : List Str} {d : TOptDecl W} (hd : d ∈ D.options)
    {s s' : FState W} (hu : Uses D.forget (before args) s.pre) {e : Exn} {t : Str}
    (h : getOptionT wd nd d s = .err e t s') (he : e.isParserError = true) : Explained wd D args e t := by
  have hd' : d.decl ∈ D.forget.options := List.mem_map.2 ⟨d, hd, rfl⟩
  unfold getOptionT at h
  rcases tbind_err h with h | ⟨b1, s1, h1, h⟩
  · obtain ⟨hid, hp⟩ := byIdT_err (idOf_short d.decl) h he
    exact pass_explained hd hid (uses_blanked hu) hp
  · obtain ⟨v1, l1, e1, h1'⟩ := (getOptionById_ok nd d.decl _ b1 s s1).1 (tforget_ok (getOptionByIdT_forget wd nd d.decl _) h1)
    obtain ⟨p1, -⟩ := byId_pre nd d.decl _ s s1 b1 v1 l1 e1 (tforget_ok (getOptionByIdT_forget wd nd d.decl _) h1)
    obtain ⟨u1, g1, k1⟩ := consumeId_done hd' _ (idOf_short d.decl) hu e1
    rw [← p1] at u1 g1 k1
    rcases tbind_err h with h | ⟨b2, s2, h2, h⟩
    · obtain ⟨hid, hp⟩ := byIdT_err (idOf_long d.decl) h he
      exact pass_explained hd hid (uses_blanked u1) hp
    · obtain ⟨v2, l2, e2, h2'⟩ := (getOptionById_ok nd d.decl _ b2 s1 s2).1 (tforget_ok (getOptionByIdT_forget wd nd d.decl _) h2)
      obtain ⟨p2, -⟩ := byId_pre nd d.decl _ s1 s2 b2 v2 l2 e2 (tforget_ok (getOptionByIdT_forget wd nd d.decl _) h2)
      have f1 : b1 = true → ∃ a ∈ before args, IdOf d.decl (.short d.decl.short) ∧ (Id.short d.decl.short).hits a = true := by
        rintro rfl
        obtain ⟨hem, a, ha, hh⟩ := byIdT_true h1
        obtain ⟨a', ha', hb⟩ := pointwise_back (uses_blanked hu) ha
        have := blanked_eq hb (hits_ne_nil hh)
        subst this
        exact ⟨a', ha', idOf_of_short hem, hh⟩
      have f2 : b2 = true → ∃ a ∈ before args, IdOf d.decl (.long d.decl.long) ∧ (Id.long d.decl.long).hits a = true := by
        rintro rfl
        obtain ⟨hem, a, ha, hh⟩ := byIdT_true h2
        obtain ⟨a', ha', hb⟩ := pointwise_back (uses_blanked u1) ha
        have := blanked_eq hb (hits_ne_nil hh)
        subst this
        exact ⟨a', ha', idOf_of_long hem, hh⟩
      by_cases hboth : (b1 && b2 && !d.decl.isList) = true
      · rw [if_pos hboth] at h
        cases h
        simp only [Bool.and_eq_true, Bool.not_eq_true'] at hboth
        obtain ⟨⟨t1, t2⟩, t3⟩ := hboth
        obtain ⟨a, ha, ia, ha2⟩ := f1 t1
        obtain ⟨b, hb, ib, hb2⟩ := f2 t2
        have hs : d.decl.short ≠ '\x00' := by
          rcases ia with ⟨x, _⟩ | ⟨_, x⟩
          · exact x
          · cases x
        have hl : d.decl.long ≠ [] := by
          rcases ib with ⟨_, x⟩ | ⟨x, _⟩
          · cases x
          · exact x
        exact .shortAndLong d a b _ hd t3 hs hl ha (startsWith_of_hits ia ha2) hb (startsWith_of_hits ib hb2)
          (fullName_combine d.decl)
      · rw [if_neg hboth] at h
        by_cases hany : (b1 || b2) = true
        · rw [if_pos hany] at h
          obtain ⟨rfl, hv, rfl⟩ := validateT_err h
          have : ∃ a ∈ before args, Names d.decl a := by
            simp only [Bool.or_eq_true] at hany
            rcases hany with hb | hb
            · obtain ⟨a, ha, ia, ha2⟩ := f1 hb
              exact ⟨a, ha, (names_iff _ _).2 ⟨_, ia, ha2⟩⟩
            · obtain ⟨a, ha, ia, ha2⟩ := f2 hb
              exact ⟨a, ha, (names_iff _ _).2 ⟨_, ia, ha2⟩⟩
          obtain ⟨a, ha, hn⟩ := this
          have := Explained.refused (wd := wd) (D := D) (args := args) d _ a _ _ hd (fullName_combine d.decl) ha hn hv
          rw [show ∀ x y : Str, "Validation failed for ".toList ++ ("option ".toList ++ x) ++ ": ".toList ++ y =
            "Validation failed for option ".toList ++ x ++ ": ".toList ++ y by intro x y; rfl]
          exact this
        · rw [if_neg hany] at h
          by_cases hr : d.decl.required = true
          · rw [if_pos hr] at h
            cases h
            simp only [Bool.or_eq_true, not_or, Bool.not_eq_true] at hany
            obtain ⟨rfl, rfl⟩ := hany
            have hdone := getOption_done (proc := []) hd' ⟨hu, by simp, fun a ha => ?_⟩ e1 (by rw [← p1]; exact e2)
            · refine .notGiven d _ l2 hd hr (fullName_combine d.decl) hdone.uses (fun a ha => hdone.gone a ha _ (by simp))
            · obtain ⟨a', ha', hb⟩ := pointwise_back (uses_blanked hu) ha
              rcases hb with hb | hb
              · exact Or.inl hb
              · subst hb; exact Or.inr ha'
          · rw [if_neg hr] at h; cases h

/-- The option phase. -/
theorem optionsT {wd : Wording} {nd : Bool} {D : TDecls W} {args : List Str} (rest : List (TOptDecl W)) :
    ∀ (proc : List (TOptDecl W)) (s : FState W), D.options = proc ++ rest →
      OptionsDone D.forget (proc.map (·.decl)) (before args) s.pre →
      (∀ e t s', TM.forEach (getOptionT wd nd) rest s = .err e t s' → e.isParserError = true → Explained wd D args e t) ∧
      (∀ u s', TM.forEach (getOptionT wd nd) rest s = .ok u s' → Uses D.forget (before args) s'.pre ∧ s'.post = s.post) := by
  induction rest with
  | nil =>
    intro proc s _ hs
    refine ⟨fun e t s' h => ?_, fun u s' h => ?_⟩
    · cases h
    · cases h; exact ⟨hs.uses, rfl⟩
  | cons d rest ih =>
    intro proc s hsplit hs
    have hd : d ∈ D.options := by rw [hsplit]; simp
    have hd' : d.decl ∈ D.forget.options := List.mem_map.2 ⟨d, hd, rfl⟩
    have next : ∀ u s1, getOptionT wd nd d s = .ok u s1 →
        OptionsDone D.forget ((proc ++ [d]).map (·.decl)) (before args) s1.pre ∧ s1.post = s.post := by
      intro u s1 h1
      have h1 := tforget_ok (getOptionT_forget wd nd d) h1
      obtain ⟨v1, l1, v2, l2, e1, e2, h3⟩ := (getOption_ok nd d.decl s s1 u).1 h1
      obtain ⟨h5, h6⟩ := (getOption_core nd d.decl s _ _ _ _ e1 e2).2 u s1 h1
      rw [h5, List.map_append]
      exact ⟨getOption_done hd' hs e1 e2, h6⟩
    refine ⟨fun e t s' h he => ?_, fun u s' h => ?_⟩
    · rcases tbind_err h with h | ⟨u, s1, h1, h⟩
      · exact getOptionT_err hd hs.uses h he
      · exact (ih (proc ++ [d]) s1 (by simp [hsplit]) (next u s1 h1).1).1 e t s' h he
    · obtain ⟨u1, s1, h1, h⟩ := tbind_ok h
      obtain ⟨a1, a2⟩ := next u1 s1 h1
      obtain ⟨b1, b2⟩ := (ih (proc ++ [d]) s1 (by simp [hsplit]) a1).2 u s' h
      exact ⟨b1, b2.trans a2⟩

/-! ### Flags and unknown identifiers -/

theorem hint_arguments (x : Str) : x
    ++ ". In case this is meant to be a non-option/argument/parameter, please specify the start of arguments with '--'. ".toList
    ++ "See -h/--help for program information.".toList = x ++ dashHint "arguments".toList := by
  rw [List.append_assoc]
  exact congrArg (x ++ ·) (by decide +kernel)

theorem hint_options (x : Str) : x
    ++ ". In case this is meant to be a non-option/argument/parameter, please specify the start of non-options with '--'. ".toList
    ++ "See -h/--help for program information.".toList = x ++ dashHint "non-options".toList := by
  rw [List.append_assoc]
  exact congrArg (x ++ ·) (by decide +kernel)

theorem validation_text (x y : Str) : "Validation failed for ".toList ++ ("positional option ".toList ++ x) ++ ": ".toList ++ y =
    "Validation failed for positional option ".toList ++ x ++ ": ".toList ++ y := by
  rw [← List.append_assoc, show "Validation failed for ".toList ++ "positional option ".toList =
    "Validation failed for positional option ".toList by decide +kernel]

theorem becomes_nil {D : Decls W} {a : Str} (h : Becomes D [] a) : a = [] := by
  cases h with
  | same => rfl
  | gone _ => rfl

theorem unknown_explained {wd : Wording} {D : TDecls W} {args l : List Str} {s s' : FState W} {e : Exn} {t : Str}
    (hu : Uses D.forget (before args) l) (hb : Pointwise (Becomes D.forget) l s.pre)
    (h : checkForUnknownIdsT s = .err e t s') : Explained wd D args e t := by
  unfold checkForUnknownIdsT at h
  cases hf : s.pre.find? looksLikeId with
  | none => rw [hf] at h; cases h
  | some arg =>
    rw [hf] at h
    have harg := List.find?_some hf
    have hmem := List.mem_of_find?_eq_some hf
    have hne : arg ≠ [] := by rintro rfl; cases harg
    have hcell : ∃ b ∈ before args, Becomes D.forget b arg := by
      obtain ⟨c, hc, h1⟩ := pointwise_back hb hmem
      obtain ⟨b, hb2, h2⟩ := pointwise_back (uses_blanked hu) hc
      have hcne : c ≠ [] := by rintro rfl; exact hne (becomes_nil h1)
      have := blanked_eq h2 hcne
      subst this
      exact ⟨b, hb2, h1⟩
    obtain ⟨b, hb2, hbec⟩ := hcell
    obtain ⟨x, y, rfl⟩ : ∃ x y, arg = '-' :: x :: y := by
      unfold looksLikeId at harg
      split at harg
      · exact ⟨_, _, rfl⟩
      · cases harg
    dsimp only at h
    unfold unknownText at h
    by_cases hg : ('-' :: x :: y)[1]? ≠ some '-' ∧ 2 < ('-' :: x :: y).length
    · rw [if_pos hg] at h
      simp only [List.getElem?_cons_succ, List.getElem?_cons_zero, ne_eq, Option.some.injEq, List.length_cons] at hg
      obtain ⟨hx, hlen⟩ := hg
      have hyne : y ≠ [] := by rintro rfl; simp at hlen
      have hsplit : '-' :: x :: y = '-' :: ((x :: y.dropLast) ++ [y.getLast hyne]) := by
        simp [List.dropLast_concat_getLast hyne]
      rw [hsplit, expandMultipleFlags_eq _ _ (by simp)] at h
      cases h
      rw [hsplit] at hbec
      have := Explained.unknownFlags (wd := wd) (D := D) (args := args) _ _ b hb2 hbec (by simp) (by simpa using hx)
      rw [hint_arguments, ← List.append_assoc, ← List.append_assoc]
      exact this
    · rw [if_neg hg] at h
      cases h
      have := Explained.unknownOption (wd := wd) (D := D) (args := args) _ b hb2 hbec (by
        simp only [List.getElem?_cons_succ, List.getElem?_cons_zero, ne_eq, Option.some.injEq, List.length_cons] at hg
        by_cases hx : x = '-'
        · subst hx; exact Or.inl ⟨y, rfl⟩
        · right
          have : y = [] := by
            cases y with
            | nil => rfl
            | cons z y => exact absurd ⟨hx, by simp⟩ hg
          subst this
          exact ⟨x, hx, rfl⟩)
      rw [hint_options]
      exact this

/-! ### Words -/

theorem fillListT_err {wd : Wording} {nd : Bool} {ty : ElemTy} {x : VarId} {e : Exn} {t : Str} (he : e.isParserError = true)
    (l : List Str) : ∀ (count : Nat) (front : List Str) (s s' : FState W),
      fillListT wd nd ty x count front l s = .err e t s' → e = .userInputError ∧ ∃ n v, (remaining l)[n]? = some v ∧
        Unreadable wd true ty ("positional option".toList ++ Sharg.showNat (count + n)) v t := by
  induction l with
  | nil => intro count front s s' h; cases h
  | cons a rest ih =>
    intro count front s s' h
    rw [fillListT.eq_def] at h
    dsimp only at h
    by_cases ha : a = []
    · rw [if_pos ha] at h
      subst ha
      exact ih _ _ _ _ h
    · rw [if_neg ha] at h
      have hrem : remaining (a :: rest) = a :: remaining rest := by simp [remaining, ha]
      rw [hrem]
      rcases tbind_err h with h | ⟨_, s1, _, h⟩
      · obtain ⟨rfl, hu⟩ := appendListT_err h he
        exact ⟨rfl, 0, a, rfl, hu⟩
      · obtain ⟨rfl, n, v, h1, h2⟩ := ih _ _ _ _ h
        refine ⟨rfl, n + 1, v, h1, ?_⟩
        rw [show count + (n + 1) = count + 1 + n by omega]
        exact h2

theorem fillListT_ok {wd : Wording} {nd : Bool} {ty : ElemTy} {x : VarId} (l : List Str) :
    ∀ (count count' : Nat) (front : List Str) (s s' : FState W),
      fillListT wd nd ty x count front l s = .ok count' s' → count' = count + (remaining l).length ∧
        remaining s'.pre = remaining front := by
  induction l with
  | nil => intro count count' front s s' h; cases h; exact ⟨rfl, rfl⟩
  | cons a rest ih =>
    intro count count' front s s' h
    rw [fillListT.eq_def] at h
    dsimp only at h
    have hfr : remaining (front ++ [[]]) = remaining front := by simp [remaining]
    by_cases ha : a = []
    · rw [if_pos ha] at h
      subst ha
      obtain ⟨h1, h2⟩ := ih _ _ _ _ _ h
      exact ⟨h1, h2.trans hfr⟩
    · rw [if_neg ha] at h
      have hrem : remaining (a :: rest) = a :: remaining rest := by simp [remaining, ha]
      rw [hrem]
      obtain ⟨_, s1, _, h⟩ := tbind_ok h
      obtain ⟨h1, h2⟩ := ih _ _ _ _ _ h
      exact ⟨by rw [h1, List.length_cons]; omega, h2.trans hfr⟩

theorem validateT_pre {validator : Val → W → Bool × W} {why : Val → W → Str} {name : Str} {x : VarId} {s s' : FState W}
    {u : Unit} (h : validateT validator why name x s = .ok u s') : s'.pre = s.pre := by
  unfold validateT at h
  split at h
  · cases h; rfl
  · cases h

/-- The positional options. -/
theorem positionalsT {wd : Wording} {nd : Bool} {D : TDecls W} {args pre post : List Str}
    (hlast : ∀ d ∈ D.positionals.dropLast, d.decl.isList = false) (hleft : Leftovers D.forget args pre post)
    (ds : List (TPosDecl W)) :
    ∀ (done : List (TPosDecl W)) (s : FState W), D.positionals = done ++ ds →
      remaining s.pre = (nonEmpty (pre ++ post)).drop done.length → done.length ≤ (nonEmpty (pre ++ post)).length →
      (∀ e t s', runPositionalsT wd nd D.positionals.length done.length ds s = .err e t s' → e.isParserError = true →
        Explained wd D args e t) ∧
      (∀ u s', runPositionalsT wd nd D.positionals.length done.length ds s = .ok u s' → remaining s'.pre ≠ [] →
        D.positionals.length < (nonEmpty (pre ++ post)).length ∧ ∀ d ∈ ds, d.decl.isList = false) := by
  induction ds with
  | nil =>
    intro done s hsplit hrem hle
    refine ⟨fun e t s' h => ?_, fun u s' h hne => ?_⟩
    · cases h
    · cases h
      rw [hrem] at hne
      rw [List.append_nil] at hsplit
      rw [hsplit]
      refine ⟨?_, by simp⟩
      apply Classical.byContradiction
      intro hlt
      exact hne (List.drop_eq_nil_of_le (by omega))
  | cons d ds ih =>
    intro done s hsplit hrem hle
    have hd : d ∈ D.positionals := by rw [hsplit]; simp
    have hget : D.positionals[done.length]? = some d := by rw [hsplit]; simp
    rcases dropWhile_blank s.pre with ⟨h1, h2⟩ | ⟨a, rest, h1, h2, h3⟩
    · have hrun : runPositionalsT wd nd D.positionals.length done.length (d :: ds) s = .err .tooFewArguments
          ("Not enough positional arguments provided (Need at least ".toList ++ Sharg.showNat D.positionals.length
            ++ "). See -h/--help for more information.".toList) s := by
        simp only [runPositionalsT, TM.bind, getPositionalT, h1]
      rw [hrun]
      refine ⟨fun e t s' h _ => ?_, fun u s' h => ?_⟩
      · cases h
        rw [h2] at hrem
        refine .tooFewWords pre post _ hleft ?_ (numberText_showNat _)
        have := congrArg List.length hrem
        simp at this
        have h4 := congrArg List.length hsplit
        simp at h4
        omega
      · cases h
    · have hlt : done.length < (nonEmpty (pre ++ post)).length := by
        have := congrArg List.length hrem
        rw [h3] at this
        simp at this
        omega
      have hword : (nonEmpty (pre ++ post))[done.length]? = some a := by
        rw [h3] at hrem
        have := congrArg List.head? hrem
        rw [List.head?_drop] at this
        exact this.symm
      have htail : remaining rest = (nonEmpty (pre ++ post)).drop (done.length + 1) := by
        rw [h3] at hrem
        have := congrArg List.tail hrem
        simpa using this
      by_cases hl : d.decl.isList = true
      · have hds : ds = [] := by
          cases ds with
          | nil => rfl
          | cons d2 ds =>
            exfalso
            have : d ∈ D.positionals.dropLast := by rw [hsplit]; simp
            rw [hlast d this] at hl
            cases hl
        subst hds
        have htot : D.positionals.length = done.length + 1 := by rw [hsplit]; simp
        have hone : ∀ r, runPositionalsT wd nd D.positionals.length done.length [d] s = r →
            (∀ e t s', r = .err e t s' → e.isParserError = true → Explained wd D args e t) ∧
            (∀ u s', r = .ok u s' → remaining s'.pre = []) := by
          intro r hr
          simp only [runPositionalsT] at hr
          have key : (∀ e t s', getPositionalT wd nd D.positionals.length (done.length + 1) d s = .err e t s' →
              e.isParserError = true → Explained wd D args e t) ∧
              (∀ k s', getPositionalT wd nd D.positionals.length (done.length + 1) d s = .ok k s' →
                remaining s'.pre = []) := by
            unfold getPositionalT
            rw [h1]
            dsimp only
            rw [if_pos hl]
            by_cases hb : (!nd && !(done.length + 1 == D.positionals.length)) = true
            · rw [if_pos hb]
              refine ⟨fun e t s' h he => ?_, fun k s' h => ?_⟩
              · cases h; cases he
              · cases h
            · rw [if_neg hb]
              have hwords : (nonEmpty (pre ++ post)).length + 1 = done.length + 1 + (remaining s.pre).length := by
                rw [hrem, List.length_drop]; omega
              refine ⟨fun e t s' h he => ?_, fun k s' h => ?_⟩
              · rcases tbind_err h with h | ⟨_, s1, e1, h⟩
                · cases h
                · rcases tbind_err h with h | ⟨c, s2, e2, h⟩
                  · obtain ⟨rfl, n, v, g1, g2⟩ := fillListT_err he _ _ _ _ _ h
                    refine .badWord d pre post (done.length + n) _ v t hd (numberText_showNat _) hleft ?_ (fun h => ?_)
                      (fun _ => by omega) (by
                        rw [hl, show done.length + n + 1 = done.length + 1 + n by omega]; exact g2)
                    · rw [hrem, List.getElem?_drop] at g1; exact g1
                    · rw [hl] at h; cases h
                  · rcases tbind_err h with h | ⟨_, s3, e3, h⟩
                    · obtain ⟨rfl, hv, rfl⟩ := validateT_err h
                      obtain ⟨rfl, _⟩ := fillListT_ok _ _ _ _ _ _ e2
                      have := Explained.refusedList (wd := wd) (D := D) (args := args) d pre post _ _ _ hd hl
                        (numberText_showNat _) hleft hv
                      rw [hwords] at this
                      rw [validation_text]
                      exact this
                    · cases h
              · obtain ⟨_, s1, e1, h⟩ := tbind_ok h
                obtain ⟨c, s2, e2, h⟩ := tbind_ok h
                obtain ⟨_, s3, e3, h⟩ := tbind_ok h
                cases h
                rw [validateT_pre e3]
                exact (fillListT_ok _ _ _ _ _ _ e2).2
          refine ⟨fun e t s' h he => ?_, fun u s' h => ?_⟩
          · rw [h] at hr
            rcases tbind_err hr with h | ⟨c, s1, e1, h⟩
            · exact key.1 e t s' h he
            · cases h
          · rw [h] at hr
            obtain ⟨c, s1, e1, h⟩ := tbind_ok hr
            cases h
            exact key.2 c _ e1
        have := hone _ rfl
        exact ⟨this.1, fun u s' h hne => absurd (this.2 u s' h) hne⟩
      · have hl' : d.decl.isList = false := by simpa using hl
        have key : (∀ e t s', getPositionalT wd nd D.positionals.length (done.length + 1) d s = .err e t s' →
              e.isParserError = true → Explained wd D args e t) ∧
            (∀ k s', getPositionalT wd nd D.positionals.length (done.length + 1) d s = .ok k s' →
                k = done.length + 1 ∧ remaining s'.pre = remaining rest) := by
          unfold getPositionalT
          rw [h1]
          dsimp only
          rw [if_neg hl]
          refine ⟨fun e t s' h he => ?_, fun k s' h => ?_⟩
          · rcases tbind_err h with h | ⟨_, s1, e1, h⟩
            · obtain ⟨rfl, hu⟩ := assignScalarT_err h he
              exact .badWord d pre post done.length _ a t hd (numberText_showNat _) hleft hword (fun _ => hget)
                (fun h => absurd h hl) (by rw [hl']; exact hu)
            · rcases tbind_err h with h | ⟨_, s2, e2, h⟩
              · cases h
              · rcases tbind_err h with h | ⟨_, s3, e3, h⟩
                · obtain ⟨rfl, hv, rfl⟩ := validateT_err h
                  rw [validation_text]
                  exact Explained.refusedWord (wd := wd) (D := D) (args := args) d done.length _ _ _ hget hl'
                    (numberText_showNat _) hv
                · cases h
          · obtain ⟨_, s1, e1, h⟩ := tbind_ok h
            obtain ⟨_, s2, e2, h⟩ := tbind_ok h
            obtain ⟨_, s3, e3, h⟩ := tbind_ok h
            cases h
            refine ⟨rfl, ?_⟩
            rw [validateT_pre e3]
            cases e2
            show remaining (s.pre.takeWhile (fun a => a = []) ++ [] :: rest) = _
            rw [remaining_append, remaining_takeWhile]
            simp [remaining]
        have hstep : ∀ k s1, getPositionalT wd nd D.positionals.length (done.length + 1) d s = .ok k s1 → _ :=
          fun k s1 h => ih (done ++ [d]) s1 (by simp [hsplit]) (by
            rw [(key.2 k s1 h).2, htail]; simp) (by simp; omega)
        refine ⟨fun e t s' h he => ?_, fun u s' h hne => ?_⟩
        · rcases tbind_err h with h | ⟨k, s1, e1, h⟩
          · exact key.1 e t s' h he
          · obtain ⟨rfl, _⟩ := key.2 k s1 e1
            have := hstep _ s1 e1
            rw [List.length_append] at this
            exact this.1 e t s' h he
        · obtain ⟨k, s1, e1, h⟩ := tbind_ok h
          obtain ⟨rfl, _⟩ := key.2 k s1 e1
          have := hstep _ s1 e1
          rw [List.length_append] at this
          obtain ⟨g1, g2⟩ := this.2 u s' h hne
          refine ⟨g1, fun d' hd' => ?_⟩
          rcases List.mem_cons.1 hd' with rfl | hd'
          · exact hl'
          · exact g2 d' hd'

/-! ### The whole run -/

theorem formatParseT_explained {wd : Wording} {nd : Bool} {D : TDecls W} (hD : IdsOk D.forget)
    (hlast : ∀ d ∈ D.positionals.dropLast, d.decl.isList = false) {args : List Str} {st : Store} {w : W} {e : Exn} {t : Str}
    {s' : FState W} (h : formatParseT wd nd D args st w = .err e t s') (he : e.isParserError = true) :
    Explained wd D args e t := by
  unfold formatParseT parseBodyT at h
  obtain ⟨k1, k2⟩ := optionsT (wd := wd) (nd := nd) (D := D) (args := args) D.options []
    { pre := args.takeWhile (fun a => a ≠ endMarker), post := args.dropWhile (fun a => a ≠ endMarker), store := st, world := w }
    rfl ⟨uses_refl _, by simp, fun a ha => Or.inr ha⟩
  rcases tbind_err h with h1 | ⟨_, s1, e1, h1⟩
  · exact k1 e t s' h1 he
  obtain ⟨hu, hpost⟩ := k2 _ s1 e1
  have hflags : (TM.forEach (getFlagT (W := W)) D.flags).forget = M.forEach getFlag D.flags := by
    have := forget_forEach (h := id) (fun d => getFlagT_forget (W := W) d) D.flags
    simpa using this
  rcases tbind_err h1 with h2 | ⟨_, s2, e2, h2⟩
  · obtain ⟨s2, h3⟩ := flags_never_throw D.flags s1
    rw [← hflags] at h3
    simp [TM.forget, h2, TRes.forget] at h3
  obtain ⟨b1, b2, -⟩ := flags_becomes hD (m := s1.post) D.flags s1 s2 _ (fun f hf => hf) (forall2_refl .same s1.pre)
    (forall2_refl .same s1.post) (tforget_ok hflags e2)
  rcases tbind_err h2 with h3 | ⟨_, s3, e3, h3⟩
  · exact unknown_explained hu b1 h3
  have hs3 : s3 = s2 := by
    unfold checkForUnknownIdsT at e3
    split at e3
    · cases e3; rfl
    · split at e3 <;> cases e3
  subst hs3
  rcases tbind_err h3 with h4 | ⟨_, s4, e4, h4⟩
  · cases h4
  have hpre : ∃ post, Pointwise (Becomes D.forget) (behind args) post ∧ remaining s4.pre = nonEmpty (s3.pre ++ post) := by
    cases e4
    rw [hpost] at b2
    show ∃ post, Pointwise (Becomes D.forget) ((args.dropWhile fun a => a ≠ endMarker).drop 1) post ∧
      remaining (s3.pre ++ blankHead s3.post) = _
    revert b2
    generalize (args.dropWhile fun a => a ≠ endMarker) = m
    generalize s3.post = p
    intro b2
    cases b2 with
    | nil => exact ⟨[], .nil, by simp [blankHead, remaining, nonEmpty]⟩
    | cons g1 g2 => exact ⟨_, g2, by simp [blankHead, remaining, nonEmpty]⟩
  obtain ⟨post, hp1, hp2⟩ := hpre
  have hleft : Leftovers D.forget args s3.pre post := ⟨⟨_, hu, b1⟩, hp1⟩
  obtain ⟨q1, q2⟩ := positionalsT (wd := wd) (nd := nd) hlast hleft D.positionals [] s4 rfl (by simpa using hp2) (by simp)
  rcases tbind_err h4 with h5 | ⟨_, s5, e5, h5⟩
  · exact q1 e t s' h5 he
  unfold checkForLeftOverArgsT at h5
  by_cases hany : s5.pre.any (fun a => a ≠ []) = true
  · rw [if_pos hany] at h5
    cases h5
    have hne : remaining s'.pre ≠ [] := by
      intro h0
      simp only [List.any_eq_true] at hany
      obtain ⟨a, ha, hx⟩ := hany
      have : a ∈ remaining s'.pre := List.mem_filter.2 ⟨ha, hx⟩
      rw [h0] at this
      cases this
    obtain ⟨g1, g2⟩ := q2 _ s' e5 hne
    exact .tooManyWords _ _ hleft g1 g2
  · rw [if_neg hany] at h5
    cases h5

end Sharg
