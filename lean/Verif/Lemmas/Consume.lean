import Verif.Lemmas.Basic

/-!
# One left-to-right pass for one identifier

`consumeAll id l` is what the code does with the arguments `l` for the identifier `id`: the value texts found
and the arguments with everything used blanked out. The functions of the model are characterised by it.
-/

namespace Sharg

/-- The value attached to an identifier (`-kV`, `-k=V`, `--key=V`); `none`: `-k=` without value. -/
def inlineVal (id : Id) (a : Str) : Option Str :=
  if a[id.dashed.length]? = some '=' then
    if a.length = id.dashed.length + 1 then none else some (a.drop (id.dashed.length + 1))
  else some (a.drop id.dashed.length)

def consumeAll (id : Id) : List Str → Option (List Str × List Str)
  | [] => some ([], [])
  | a :: rest =>
    if id.hits a then
      if id.dashed.length < a.length then
        match inlineVal id a with
        | none => none
        | some v => (consumeAll id rest).map fun p => (v :: p.1, [] :: p.2)
      else
        match rest with
        | [] => none
        | v :: rest' => (consumeAll id rest').map fun p => (v :: p.1, [] :: [] :: p.2)
    else (consumeAll id rest).map fun p => (p.1, a :: p.2)

theorem consumeAll_none_hit (id : Id) (l : List Str) (h : ∀ a ∈ l, id.hits a = false) :
    consumeAll id l = some ([], l) := by
  induction l with
  | nil => rfl
  | cons a l ih =>
    have ha := h a (by simp)
    have hl := ih (fun b hb => h b (by simp [hb]))
    unfold consumeAll
    simp [ha, hl]

theorem consumeAll_skip (id : Id) (l1 l2 : List Str) (h : ∀ a ∈ l1, id.hits a = false) :
    consumeAll id (l1 ++ l2) = (consumeAll id l2).map fun p => (p.1, l1 ++ p.2) := by
  induction l1 with
  | nil => simp
  | cons a l ih =>
    have ha := h a (by simp)
    have hl := ih (fun b hb => h b (by simp [hb]))
    rw [List.cons_append]
    rw [consumeAll.eq_def]
    simp [ha, hl, Function.comp_def]

theorem retrieve_inline (id : Id) (a : Str) (rest : List Str) (hl : id.dashed.length < a.length) :
    retrieve id a rest = match inlineVal id a with
      | none => .error .tooFewArguments
      | some v => .ok (v, [[]], rest) := by
  unfold retrieve inlineVal
  simp only [hl, if_true]
  split
  · split <;> rfl
  · rfl

theorem retrieve_sep (id : Id) (a : Str) (rest : List Str) (hl : ¬ id.dashed.length < a.length) :
    retrieve id a rest = match rest with
      | [] => .error .tooFewArguments
      | v :: rest' => .ok (v, [[], []], rest') := by
  unfold retrieve
  simp only [hl, if_false]
  cases rest <;> rfl

/-- `consumeAll` at the first hit, in terms of `retrieve`. -/
theorem consumeAll_hit (id : Id) (a : Str) (rest : List Str) (h : id.hits a = true) :
    consumeAll id (a :: rest) = match retrieve id a rest with
      | .error _ => none
      | .ok (v, blanks, rest') => (consumeAll id rest').map fun p => (v :: p.1, blanks ++ p.2) := by
  rw [consumeAll.eq_def]
  by_cases hl : id.dashed.length < a.length
  · rw [retrieve_inline id a rest hl]
    simp only [h, hl, if_true]
    cases inlineVal id a <;> simp
  · rw [retrieve_sep id a rest hl]
    simp only [h, hl, if_true, if_false]
    cases rest <;> simp

/-- The value of a text if it converts. -/
def readElem (ty : ElemTy) (text : Str) : Option Elem :=
  match parseElem ty text with
  | .ok (.success, some e) => some e
  | _ => none

/-- A successful conversion always writes. -/
theorem parseElem_success (ty : ElemTy) (t : Str) (w : Option Elem) (h : parseElem ty t = .ok (.success, w)) :
    ∃ e, w = some e ∧ readElem ty t = some e := by
  unfold readElem
  rw [h]
  cases w with
  | some e => simp
  | none =>
    exfalso
    cases ty with
    | string => simp [parseElem] at h
    | boolean => simp [parseElem, parseBool] at h; grind
    | integer lo hi => simp [parseElem, parseInteger] at h; grind
    | enumeration names => simp [parseElem, parseEnum] at h; grind
    | foreign a c => simp [parseElem, parseForeign] at h; grind

theorem readElem_some (ty : ElemTy) (t : Str) (e : Elem) :
    readElem ty t = some e ↔ parseElem ty t = .ok (.success, some e) := by
  unfold readElem
  constructor
  · intro h; split at h <;> simp_all
  · intro h; simp [h]

/-- Overflow is only reported for arithmetic types. -/
theorem parseElem_overflow (ty : ElemTy) (t : Str) (w : Option Elem) (h : parseElem ty t = .ok (.overflowError, w)) :
    ty.isArithmetic = true := by
  cases ty with
  | string => simp [parseElem] at h
  | boolean => simp [ElemTy.isArithmetic]
  | integer lo hi => simp [ElemTy.isArithmetic]
  | enumeration names => simp [parseElem, parseEnum] at h; grind
  | foreign a c =>
    simp [parseElem, parseForeign] at h
    cases hc : c t <;> simp [hc] at h
    simp [ElemTy.isArithmetic, h]

/-- What an element text contributes to a list: the element, nothing (only possible for an overflow in a
build with `NDEBUG`), or an exception. -/
def readListElem (ndebug : Bool) (ty : ElemTy) (text : Str) : Except Exn (List Elem) :=
  match parseElem ty text with
  | .error e => .error e
  | .ok (res, written) =>
    match throwOnInputError ndebug false res with
    | some e => .error e
    | none => .ok (if res = .success then [written.getD ty.init] else [])

def readListElems (ndebug : Bool) (ty : ElemTy) : List Str → Except Exn (List Elem)
  | [] => .ok []
  | t :: ts =>
    match readListElem ndebug ty t with
    | .error e => .error e
    | .ok es =>
      match readListElems ndebug ty ts with
      | .error e => .error e
      | .ok es' => .ok (es ++ es')

theorem appendList_ok {W : Type} (nd : Bool) (ty : ElemTy) (x : VarId) (t : Str) (s s' : FState W) (old : List Elem)
    (hold : s.store x = .many old) :
    appendList nd ty x t s = .ok () s' ↔
      ∃ es, readListElem nd ty t = .ok es ∧ s' = { s with store := s.store.set x (.many (old ++ es)) } := by
  unfold appendList readListElem
  cases hp : parseElem ty t with
  | error e => simp
  | ok r =>
    obtain ⟨res, written⟩ := r
    have hself : s.store.set x (.many old) = s.store := by
      funext y; by_cases h : y = x
      · subst h; simp [hold]
      · simp [Store.set_ne _ _ h]
    simp only [M.do_bind]
    cases res with
    | success =>
      simp only [throwOnInputError, if_true, M.bind_run, M.modify_run, throwIf, M.pure_run, hold, Val.pushBack]
      constructor
      · intro h; cases h; exact ⟨_, rfl, rfl⟩
      · rintro ⟨es, h1, h2⟩; cases h1; rw [h2]
    | error => simp [throwOnInputError]
    | overflowError =>
      cases nd
      · simp [throwOnInputError]
      · simp only [throwOnInputError, throwIf]
        constructor
        · intro h; cases h; exact ⟨[], rfl, by simp [hself]⟩
        · rintro ⟨es, h1, h2⟩; cases h1; rw [h2]; simp [hself]

theorem collect_nil_ok {W : Type} (nd : Bool) (ty : ElemTy) (x : VarId) (id : Id) (front : List Str)
    (s s' : FState W) (old : List Elem) (hself : s.store.set x (.many old) = s.store) :
    collect nd ty x id front [] s = .ok () s' ↔
        ∃ vals l' es, consumeAll id [] = some (vals, l') ∧ readListElems nd ty vals = .ok es ∧
          s' = { s with pre := front ++ l', store := s.store.set x (.many (old ++ es)) } := by
  simp only [collect, setPre_run, consumeAll]
  constructor
  · intro h; cases h; exact ⟨[], [], [], rfl, rfl, by simp [hself]⟩
  · rintro ⟨vals, l', es, h1, h2, h3⟩
    cases h1; simp [readListElems] at h2; subst h2; simp [hself] at h3; rw [h3]

theorem collect_ok {W : Type} (nd : Bool) (ty : ElemTy) (x : VarId) (id : Id) :
    ∀ (n : Nat) (l front : List Str) (s s' : FState W) (old : List Elem), l.length ≤ n → s.store x = .many old →
      (collect nd ty x id front l s = .ok () s' ↔
        ∃ vals l' es, consumeAll id l = some (vals, l') ∧ readListElems nd ty vals = .ok es ∧
          s' = { s with pre := front ++ l', store := s.store.set x (.many (old ++ es)) }) := by
  intro n
  induction n with
  | zero =>
    intro l front s s' old hn hold
    have hself : s.store.set x (.many old) = s.store := by
      funext y; by_cases h : y = x
      · subst h; simp [hold]
      · simp [Store.set_ne _ _ h]
    have : l = [] := by simpa using hn
    subst this
    exact collect_nil_ok nd ty x id front s s' old hself
  | succ n ih =>
    intro l front s s' old hn hold
    have hself : s.store.set x (.many old) = s.store := by
      funext y; by_cases h : y = x
      · subst h; simp [hold]
      · simp [Store.set_ne _ _ h]
    cases l with
    | nil => exact collect_nil_ok nd ty x id front s s' old hself
    | cons a rest =>
      have hr : rest.length ≤ n := by simpa using hn
      rw [collect.eq_def, consumeAll.eq_def]
      by_cases hh : id.hits a = true
      · simp only [hh, if_true]
        by_cases hl : id.dashed.length < a.length
        · simp only [hl, if_true]
          rw [retrieve_inline id a rest hl]
          cases hi : inlineVal id a with
          | none => simp
          | some v =>
            simp only [M.bind_eq_ok]
            constructor
            · rintro ⟨_, s₁, h1, h2⟩
              obtain ⟨es, he, rfl⟩ := (appendList_ok nd ty x v s s₁ old hold).1 h1
              obtain ⟨vals, l', es', hc, hre, rfl⟩ := (ih rest _ _ _ (old ++ es) hr (by simp)).1 h2
              refine ⟨v :: vals, [] :: l', es ++ es', ?_, ?_, ?_⟩
              · simp [hc]
              · simp [readListElems, he, hre]
              · simp
            · rintro ⟨vals, l', es, hc, hre, rfl⟩
              rw [Option.map_eq_some_iff] at hc
              obtain ⟨⟨vs, l''⟩, hc, hp⟩ := hc
              simp only [Prod.mk.injEq] at hp
              obtain ⟨rfl, rfl⟩ := hp
              simp only [readListElems] at hre
              cases he : readListElem nd ty v with
              | error e => simp [he] at hre
              | ok es1 =>
                cases he2 : readListElems nd ty vs with
                | error e => simp [he, he2] at hre
                | ok es2 =>
                  simp [he, he2] at hre
                  subst hre
                  refine ⟨(), _, (appendList_ok nd ty x v s _ old hold).2 ⟨es1, he, rfl⟩, ?_⟩
                  exact (ih rest _ _ _ (old ++ es1) hr (by simp)).2 ⟨vs, l'', es2, hc, he2, by simp⟩
        · simp only [hl, if_false]
          cases rest with
          | nil => simp
          | cons v rest' =>
            have hr' : rest'.length ≤ n := by simp at hr; omega
            simp only [M.bind_eq_ok]
            constructor
            · rintro ⟨_, s₁, h1, h2⟩
              obtain ⟨es, he, rfl⟩ := (appendList_ok nd ty x v s s₁ old hold).1 h1
              obtain ⟨vals, l', es', hc, hre, rfl⟩ := (ih rest' _ _ _ (old ++ es) hr' (by simp)).1 h2
              refine ⟨v :: vals, [] :: [] :: l', es ++ es', ?_, ?_, ?_⟩
              · simp [hc]
              · simp [readListElems, he, hre]
              · simp
            · rintro ⟨vals, l', es, hc, hre, rfl⟩
              rw [Option.map_eq_some_iff] at hc
              obtain ⟨⟨vs, l''⟩, hc, hp⟩ := hc
              simp only [Prod.mk.injEq] at hp
              obtain ⟨rfl, rfl⟩ := hp
              simp only [readListElems] at hre
              cases he : readListElem nd ty v with
              | error e => simp [he] at hre
              | ok es1 =>
                cases he2 : readListElems nd ty vs with
                | error e => simp [he, he2] at hre
                | ok es2 =>
                  simp [he, he2] at hre
                  subst hre
                  refine ⟨(), _, (appendList_ok nd ty x v s _ old hold).2 ⟨es1, he, rfl⟩, ?_⟩
                  exact (ih rest' _ _ _ (old ++ es1) hr' (by simp)).2 ⟨vs, l'', es2, hc, he2, by simp⟩
      · simp only [hh]
        simp only [Bool.false_eq_true, if_false]
        rw [ih rest _ _ _ old hr hold]
        constructor
        · rintro ⟨vals, l', es, hc, hre, rfl⟩
          exact ⟨vals, a :: l', es, by simp [hc], hre, by simp⟩
        · rintro ⟨vals, l', es, hc, hre, rfl⟩
          rw [Option.map_eq_some_iff] at hc
          obtain ⟨⟨vs, l''⟩, hc, hp⟩ := hc
          simp only [Prod.mk.injEq] at hp
          obtain ⟨rfl, rfl⟩ := hp
          exact ⟨vs, l'', es, hc, hre, by simp⟩

/-- `consumeAll`, but an empty identifier finds nothing. -/
def consumeId (id : Id) (l : List Str) : Option (List Str × List Str) :=
  if id.isEmpty then some ([], l) else consumeAll id l

theorem findOptionId_spec (id : Id) (l front back : List Str) (h : findOptionId id l = (front, back)) :
    l = front ++ back ∧ (id.isEmpty = false → ∀ a ∈ front, id.hits a = false) ∧
      (∀ a, back.head? = some a → id.isEmpty = false ∧ id.hits a = true) := by
  induction l generalizing front back with
  | nil =>
    unfold findOptionId at h
    split at h <;> simp at h <;> obtain ⟨rfl, rfl⟩ := h <;> simp
  | cons a l ih =>
    by_cases he : id.isEmpty = true
    · simp [findOptionId, he] at h
      obtain ⟨rfl, rfl⟩ := h
      simp [he]
    · have he : id.isEmpty = false := by simpa using he
      rw [findOptionId_cons id a l he] at h
      by_cases ha : id.hits a = true
      · simp [ha] at h
        obtain ⟨rfl, rfl⟩ := h
        simp [he, ha]
      · have ha : id.hits a = false := by simpa using ha
        simp [ha] at h
        obtain ⟨rfl, rfl⟩ := h
        obtain ⟨h1, h2, h3⟩ := ih (findOptionId id l).1 (findOptionId id l).2 rfl
        refine ⟨?_, ?_, h3⟩
        · simp [← h1]
        · intro _ b hb
          simp at hb
          rcases hb with rfl | hb
          · exact ha
          · exact h2 he b hb

theorem consumeAll_vals_nil (id : Id) (l l' : List Str) (h : consumeAll id l = some ([], l')) :
    l' = l ∧ ∀ a ∈ l, id.hits a = false := by
  induction l generalizing l' with
  | nil => simp [consumeAll] at h; simp [h]
  | cons a rest ih =>
    rw [consumeAll.eq_def] at h
    simp only at h
    split at h
    · split at h
      · split at h <;> simp at h
      · split at h <;> simp at h
    · rename_i ha
      rw [Option.map_eq_some_iff] at h
      obtain ⟨⟨vs, l''⟩, hc, hp⟩ := h
      simp at hp
      obtain ⟨rfl, rfl⟩ := hp
      obtain ⟨rfl, h2⟩ := ih _ hc
      simp at ha
      exact ⟨rfl, by simpa [ha] using h2⟩

theorem consumeId_vals_nil (id : Id) (l l' : List Str) (h : consumeId id l = some ([], l')) : l' = l := by
  unfold consumeId at h
  split at h
  · simp at h; exact h.symm
  · exact (consumeAll_vals_nil id l l' h).1

theorem assignScalar_ok {W : Type} (nd : Bool) (ty : ElemTy) (x : VarId) (t : Str) (s s' : FState W) (u : Unit) :
    assignScalar nd ty x t s = .ok u s' ↔
      ∃ e, readElem ty t = some e ∧ s' = { s with store := s.store.set x (.one e) } := by
  unfold assignScalar
  cases hp : parseElem ty t with
  | error e => simp [readElem, hp]
  | ok r =>
    obtain ⟨res, written⟩ := r
    simp only [M.do_bind]
    cases res with
    | success =>
      obtain ⟨e, rfl, he⟩ := parseElem_success ty t written hp
      simp only [he, throwOnInputError, throwIf, M.bind_run, setVar_run, M.pure_run]
      constructor
      · intro h; cases h; exact ⟨e, rfl, rfl⟩
      · rintro ⟨e', h, rfl⟩; cases h; rfl
    | error => cases written <;> simp [readElem, hp, throwOnInputError]
    | overflowError =>
      cases written <;> simp [readElem, hp, throwOnInputError, parseElem_overflow ty t _ hp]

theorem getOptionByIdScalar_ok {W : Type} (nd : Bool) (ty : ElemTy) (x : VarId) (id : Id) (b : Bool)
    (s s' : FState W) :
    getOptionByIdScalar nd ty x id s = .ok b s' ↔
      ∃ vals l', consumeId id s.pre = some (vals, l') ∧
        ((vals = [] ∧ b = false ∧ s' = s) ∨
          ∃ v e, vals = [v] ∧ b = true ∧ readElem ty v = some e ∧
            s' = { s with pre := l', store := s.store.set x (.one e) }) := by
  unfold getOptionByIdScalar
  cases hf : findOptionId id s.pre with
  | mk front back =>
    obtain ⟨hl, hfront, hback⟩ := findOptionId_spec id s.pre front back hf
    cases back with
    | nil =>
      have hc : consumeId id s.pre = some ([], s.pre) := by
        unfold consumeId
        split
        · rfl
        · rename_i he
          apply consumeAll_none_hit
          simp at he
          rw [hl]
          simpa using hfront he
      simp only [hc]
      constructor
      · intro h; cases h; exact ⟨[], s.pre, rfl, Or.inl ⟨rfl, rfl, rfl⟩⟩
      · rintro ⟨vals, l', h1, h2⟩
        cases h1
        rcases h2 with ⟨_, rfl, rfl⟩ | ⟨v, e, h, _⟩
        · rfl
        · cases h
    | cons a rest =>
      obtain ⟨he, ha⟩ := hback a rfl
      have hc : consumeId id s.pre = (consumeAll id (a :: rest)).map fun p => (p.1, front ++ p.2) := by
        unfold consumeId
        simp only [he, Bool.false_eq_true, if_false]
        conv => lhs; rw [hl]
        exact consumeAll_skip id front _ (hfront he)
      rw [hc, consumeAll_hit id a rest ha]
      dsimp only
      cases hr : retrieve id a rest with
      | error e => simp
      | ok r =>
        obtain ⟨text, blanks, rest'⟩ := r
        simp only [M.bind_eq_ok, setPre_run, assignScalar_ok]
        constructor
        · rintro ⟨_, s1, h1, _, s2, ⟨e, h2, rfl⟩, h3⟩
          cases h1
          cases hf2 : findOptionId id rest' with
          | mk front2 back2 =>
            cases back2 with
            | cons b2 r2 => simp [hf2] at h3
            | nil =>
              simp [hf2] at h3
              obtain ⟨rfl, rfl⟩ := h3
              obtain ⟨hl2, hfront2, _⟩ := findOptionId_spec id rest' front2 [] hf2
              have := consumeAll_none_hit id rest' (by rw [hl2]; simpa using hfront2 he)
              refine ⟨[text], front ++ (blanks ++ rest'), ?_, Or.inr ⟨text, e, rfl, rfl, h2, ?_⟩⟩
              · simp [this]
              · simp
        · rintro ⟨vals, l', h1, h2⟩
          simp only [Option.map_eq_some_iff] at h1
          obtain ⟨_, ⟨⟨vs, l2⟩, h3, rfl⟩, h4⟩ := h1
          simp only [Prod.mk.injEq] at h4
          obtain ⟨rfl, rfl⟩ := h4
          rcases h2 with ⟨h, _⟩ | ⟨v, e, h5, rfl, h6, rfl⟩
          · cases h
          · simp only [List.cons.injEq] at h5
            obtain ⟨rfl, rfl⟩ := h5
            obtain ⟨rfl, hno⟩ := consumeAll_vals_nil id _ _ h3
            refine ⟨(), _, rfl, (), _, ⟨e, h6, rfl⟩, ?_⟩
            have : (findOptionId id l2).2 = [] := (findOptionId_nil_iff id l2).2 (Or.inr hno)
            cases hf2 : findOptionId id l2 with
            | mk front2 back2 =>
              rw [hf2] at this
              simp at this
              subst this
              simp

theorem getOptionByIdList_ok {W : Type} (nd : Bool) (ty : ElemTy) (x : VarId) (id : Id) (b : Bool)
    (s s' : FState W) :
    getOptionByIdList nd ty x id s = .ok b s' ↔
      ∃ vals l', consumeId id s.pre = some (vals, l') ∧
        ((vals = [] ∧ b = false ∧ s' = s) ∨
          ∃ es, vals ≠ [] ∧ b = true ∧ readListElems nd ty vals = .ok es ∧
            s' = { s with pre := l', store := s.store.set x (.many es) }) := by
  unfold getOptionByIdList
  cases hf : findOptionId id s.pre with
  | mk front back =>
    obtain ⟨hl, hfront, hback⟩ := findOptionId_spec id s.pre front back hf
    cases back with
    | nil =>
      have hc : consumeId id s.pre = some ([], s.pre) := by
        unfold consumeId
        split
        · rfl
        · rename_i he
          apply consumeAll_none_hit
          simp at he
          rw [hl]
          simpa using hfront he
      simp only [hc]
      constructor
      · intro h; cases h; exact ⟨[], s.pre, rfl, Or.inl ⟨rfl, rfl, rfl⟩⟩
      · rintro ⟨vals, l', h1, h2⟩
        cases h1
        rcases h2 with ⟨_, rfl, rfl⟩ | ⟨e, h, _⟩
        · rfl
        · exact absurd rfl h
    | cons a rest =>
      obtain ⟨he, ha⟩ := hback a rfl
      have hc : consumeId id s.pre = consumeAll id s.pre := by
        unfold consumeId
        simp [he]
      rw [hc]
      have hne : ∀ vals l', consumeAll id s.pre = some (vals, l') → vals ≠ [] := by
        rintro vals l' h rfl
        have := (consumeAll_vals_nil id _ _ h).2 a (by rw [hl]; simp)
        simp [ha] at this
      simp only [M.bind_eq_ok, setVar_run]
      constructor
      · rintro ⟨_, s1, h1, _, s2, h2, h3⟩
        cases h1
        cases h3
        obtain ⟨vals, l', es, h4, h5, rfl⟩ :=
          (collect_ok nd ty x id _ s.pre [] _ _ [] (Nat.le_refl _) (by simp)).1 h2
        exact ⟨vals, l', h4, Or.inr ⟨es, hne _ _ h4, rfl, h5, by simp⟩⟩
      · rintro ⟨vals, l', h1, h2⟩
        rcases h2 with ⟨h, _⟩ | ⟨es, _, rfl, h3, rfl⟩
        · exact absurd h (hne _ _ h1)
        · exact ⟨(), _, rfl, (), _,
            (collect_ok nd ty x id _ s.pre [] _ _ [] (Nat.le_refl _) (by simp)).2
              ⟨vals, l', es, h1, h3, rfl⟩, by simp⟩

end Sharg
