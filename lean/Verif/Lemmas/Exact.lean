import Verif.Lemmas.Line
import Verif.Lemmas.Returned

/-!
# Exact outcomes on well-formed lines
-/

set_option linter.unusedSimpArgs false

namespace Sharg

open Spec

variable {W : Type}

theorem Res.core_ok {α : Type} {r : Res (FState W) α} {a : α} {c : Core W} (h : r.core = .ok a c) :
    ∃ s, r = .ok a s ∧ s.core = c := by
  cases r with
  | ok b s => simp only [Res.core, Res.ok.injEq] at h; obtain ⟨rfl, rfl⟩ := h; exact ⟨s, rfl, rfl⟩
  | err e s => simp [Res.core] at h

theorem Res.core_err {α : Type} {r : Res (FState W) α} {e : Exn} {c : Core W} (h : r.core = .err e c) :
    ∃ s, r = .err e s ∧ s.core = c := by
  cases r with
  | ok b s => simp [Res.core] at h
  | err e s => simp only [Res.core, Res.err.injEq] at h; obtain ⟨rfl, rfl⟩ := h; exact ⟨s, rfl, rfl⟩

section Options

variable {D : Decls W} (hD : IdsOk D) (items : List Item) (hit : ∀ it ∈ items, it.Loose D)
include hD hit

theorem absOption_ok {proc rest : List (OptDecl W)} {d : OptDecl W} (hsplit : D.options = proc ++ d :: rest)
    (huni : d.isList = true → Uniform d items) (nd : Bool) (st : Store) (w : W) (u : Unit) (c : Core W) :
    absOption nd d (shortValues d items) (longValues d items) (st, w) = .ok u c ↔
      (given d items = [] ∧ d.required = false ∧ c = (st, w)) ∨
      (given d items ≠ [] ∧ ∃ val w₁, optValue nd d (given d items) [] = some val ∧
        d.validator val w = (true, w₁) ∧ c = (st.set d.var val, w₁)) := by
  obtain ⟨l1, h1, h2⟩ := getOption_loose hD items hit hsplit
  have hc := (getOption_core nd d ⟨stage (doneBy proc) items, [], st, w⟩ _ _ _ _ h1 h2).1
  have hs := fun s' u => getOption_stage hD hsplit items hit huni nd ⟨stage (doneBy proc) items, [], st, w⟩ s' u rfl
  constructor
  · intro h
    rw [show ((st, w) : Core W) = FState.core ⟨stage (doneBy proc) items, [], st, w⟩ from rfl, ← hc] at h
    obtain ⟨s, h3, rfl⟩ := Res.core_ok h
    rcases (hs s u).1 h3 with ⟨a, b, rfl⟩ | ⟨a, val, w1, b, c, rfl⟩
    · exact Or.inl ⟨a, b, rfl⟩
    · exact Or.inr ⟨a, val, w1, b, c, rfl⟩
  · intro h
    rw [show ((st, w) : Core W) = FState.core ⟨stage (doneBy proc) items, [], st, w⟩ from rfl, ← hc]
    rcases h with ⟨a, b, rfl⟩ | ⟨a, val, w1, b, c, rfl⟩
    · rw [(hs _ u).2 (Or.inl ⟨a, b, rfl⟩)]; rfl
    · rw [(hs _ u).2 (Or.inr ⟨a, val, w1, b, c, rfl⟩)]; rfl

theorem absOptions_mean (huni : ∀ d ∈ D.options, d.isList = true → Uniform d items) (nd : Bool)
    (ds : List (OptDecl W)) : ∀ (proc rest : List (OptDecl W)) (st : Store) (w : W) (st' : Store) (w' : W),
      D.options = proc ++ (ds ++ rest) → OptionsMean items ds st w st' w' →
      absOptions nd items ds (st, w) = .ok () (st', w') := by
  induction ds with
  | nil => rintro proc rest st w st' w' _ ⟨rfl, rfl⟩; rfl
  | cons d ds ih =>
    intro proc rest st w st' w' hsplit hm
    have hsplit' : D.options = proc ++ d :: (ds ++ rest) := by simpa using hsplit
    have hd : d ∈ D.options := by rw [hsplit']; simp
    have key := absOption_ok hD items hit hsplit' (huni d hd) nd st w ()
    unfold absOptions
    rw [M.forEach_cons, M.bind_run]
    rcases hm with ⟨h1, h2, h3⟩ | ⟨h1, val, w1, h2, h3, h4⟩
    · rw [(key _).2 (Or.inl ⟨h1, h2, rfl⟩)]
      exact ih (proc ++ [d]) rest st w st' w' (by simp [hsplit]) h3
    · rw [(key _).2 (Or.inr ⟨h1, val, w1, optValue_of_valueOf nd d _ _ h2, h3, rfl⟩)]
      exact ih (proc ++ [d]) rest _ w1 st' w' (by simp [hsplit]) h4

end Options

theorem absOptions_append (nd : Bool) (items : List Item) (ds es : List (OptDecl W)) :
    absOptions nd items (ds ++ es) = M.bind (absOptions nd items ds) fun _ => absOptions nd items es :=
  forEach_append _ _ _

/-- The first option that goes wrong decides. -/
theorem formatParse_option_error {D : Decls W} (hD : IdsOk D) (items : List Item) (hit : ∀ it ∈ items, it.Loose D)
    (tail : Option (List Str)) (huni : ∀ d ∈ D.options, d.isList = true → Uniform d items) (nd : Bool)
    {front back : List (OptDecl W)} {d : OptDecl W} (hsplit : D.options = front ++ d :: back) (st st₁ : Store) (w w₁ : W)
    (hm : OptionsMean items front st w st₁ w₁) (e : Exn) (c : Core W)
    (he : absOption nd d (shortValues d items) (longValues d items) (st₁, w₁) = .err e c) :
    (formatParse nd D (renderLine items tail) st w).core = .err e c := by
  rw [formatParse_core hD items hit tail nd st w]
  have h1 := absOptions_mean hD items hit huni nd front [] (d :: back) st w st₁ w₁ (by simpa using hsplit) hm
  rw [M.bind_run]
  have : absOptions nd items D.options (st, w) = .err e c := by
    rw [hsplit, absOptions_append, M.bind_run, h1]
    dsimp only
    unfold absOptions
    rw [M.forEach_cons, M.bind_run, he]
  rw [this]

/-- The phases behind the options, on a well-formed line. -/
theorem absRest_line {D : Decls W} (hD : IdsOk D) (items : List Item) (tail : Option (List Str))
    (hl : LineOk D items tail) (nd : Bool) (st : Store) (w : W) :
    absRest nd D (others items) (tailCells tail) (st, w) =
      absPositionals nd D.positionals (words items tail) (setFlags items D.flags st, w) := by
  have hit : ∀ it ∈ items, it.Loose D := fun it h => (hl.itemsOk it h).loose hD
  have h1 : (parseRest nd D ⟨others items, tailCells tail, st, w⟩).core =
      (parseRest nd D ⟨stage (doneBy D.options) items, tailCells tail, st, w⟩).core :=
    parseRest_alike nd D _ _ ⟨by rw [← remaining_stage items hit]; simp [remaining], rfl, rfl, rfl⟩
  unfold absRest
  rw [h1]
  unfold parseRest
  rw [M.bind_run, flags_stage hD items hl.itemsOk hl.flagsOnce D.flags [] _ rfl
    (stage_eq_flagStage items hl.itemsOk) (fun f hf => tail_no_flag hl f hf)]
  dsimp only
  rw [M.bind_run, checkForUnknownIds_run _ (by exact (flagStage_final items hl.itemsOk).2)]
  simp only [M.bind_run, blankEndOfOptions, M.modify_run]
  have := positionals_core nd D.positionals
    { pre := flagStage (removedShort D.flags) (removedLong D.flags) items ++ blankHead (tailCells tail)
      post := [], store := setFlags items D.flags st, world := w }
  rw [remaining_final hl hl.itemsOk] at this
  simp only [M.bind_run] at this
  exact this

/-- The outcome on a well-formed line. -/
theorem line_core {D : Decls W} (hD : IdsOk D) (items : List Item) (tail : Option (List Str))
    (hl : LineOk D items tail) (nd : Bool) (st : Store) (w : W) :
    (formatParse nd D (renderLine items tail) st w).core =
      M.bind (absOptions nd items D.options) (fun _ c =>
        absPositionals nd D.positionals (words items tail) (setFlags items D.flags c.1, c.2)) (st, w) := by
  rw [formatParse_core hD items (fun it h => (hl.itemsOk it h).loose hD) tail nd st w]
  unfold M.bind
  cases absOptions nd items D.options (st, w) with
  | err e c => rfl
  | ok u c => exact absRest_line hD items tail hl nd c.1 c.2

/-! ### Flags given twice -/

theorem argMentions_append (f : FlagDecl) (l m : List Str) : argMentions f (l ++ m) = argMentions f l + argMentions f m := by
  simp [argMentions]

theorem argMentions_others {D : Decls W} (hD : IdsOk D) {f : FlagDecl} (items : List Item)
    (hit : ∀ it ∈ items, it.Ok D) : argMentions f (others items) = mentions f items := by
  induction items with
  | nil => rfl
  | cons it items ih =>
    have h1 := ih (fun i hi => hit i (by simp [hi]))
    simp only [others, List.flatMap_cons, mentions, List.map_cons, List.sum_cons] at h1 ⊢
    rw [argMentions_append, h1]
    congr 1
    have hok := hit it (by simp)
    cases it with
    | short c form v => rfl
    | long s sep v => rfl
    | flags cs =>
      obtain ⟨hne, hcs⟩ := hok
      have hd : '-' ∉ cs := by
        intro hm
        obtain ⟨h0, g, hg, h⟩ := hcs '-' hm
        exact flag_short_dash hD hg h
      simp only [Item.other, Item.render, List.filter_cons, List.filter_nil, Item.mentions]
      simp only [ne_eq, reduceCtorEq, not_false_eq_true, decide_true, if_true, argMentions, List.map_cons, List.map_nil,
        List.sum_cons, List.sum_nil, Nat.add_zero]
      rw [cellMentions_of_group f cs hd]
      split
      · rename_i h0
        symm
        rw [List.count_eq_zero, h0]
        intro hm
        exact (hcs _ hm).1 rfl
      · rfl
    | longFlag s =>
      obtain ⟨hne, _⟩ := hok
      simp only [Item.other, Item.render, List.filter_cons, List.filter_nil, Item.mentions]
      simp only [ne_eq, reduceCtorEq, not_false_eq_true, decide_true, if_true, argMentions, List.map_cons, List.map_nil,
        List.sum_cons, List.sum_nil, Nat.add_zero]
      rw [cellMentions_long]
      by_cases h : s = f.long
      · simp [h]; exact fun h0 => hne (h.trans h0)
      · simp [h]
    | word w =>
      obtain ⟨hne, hw⟩ := hok
      simp only [Item.other, Item.render, List.filter_cons, List.filter_nil, Item.mentions]
      simp only [ne_eq, hne, not_false_eq_true, decide_true, if_true, argMentions, List.map_cons, List.map_nil,
        List.sum_cons, List.sum_nil, Nat.add_zero]
      rcases hw with rfl | hw
      · exact cellMentions_dash f
      · unfold cellMentions
        split <;> simp at hw ⊢

theorem absRest_repeated {D : Decls W} (hD : IdsOk D) {f : FlagDecl} (hf : f ∈ D.flags) (items : List Item)
    (hit : ∀ it ∈ items, it.Ok D) (h2 : 2 ≤ mentions f items) (nd : Bool) (post : List Str) (st : Store) (w : W) :
    ∃ c, absRest nd D (others items) post (st, w) = .err .unknownOption c := by
  unfold absRest parseRest
  obtain ⟨s', hs'⟩ := flags_never_throw D.flags ⟨others items, post, st, w⟩
  have h3 := flags_mentions hD hf _ _ _ hs'
  rw [argMentions_others hD items hit] at h3
  rw [M.bind_run, hs']
  dsimp only
  have : s'.pre.any looksLikeId = true := by
    rw [List.any_eq_true]
    apply Classical.byContradiction
    intro hno
    have := argMentions_zero f s'.pre (fun a ha => by
      rw [← Bool.not_eq_true]; exact fun h => hno ⟨a, ha, h⟩)
    omega
  refine ⟨s'.core, ?_⟩
  rw [M.bind_run]
  unfold checkForUnknownIds
  rw [if_pos this]
  rfl

/-! ### Reading one text -/

theorem lift_assign_ok (nd : Bool) {ty : ElemTy} (x : VarId) {t : Str} {e : Elem} (h : Denotes ty t e) (c : Core W) :
    lift (assignScalar nd ty x t) c = .ok () (c.1.set x (.one e), c.2) := by
  have := (readElem_some ty t e).1 ((readElem_iff ty t e).2 h)
  unfold lift assignScalar
  rw [this]
  rfl

theorem parseElem_bad {ty : ElemTy} {t : Str} (h : BadText ty t) :
    parseElem ty t = .error .userInputError ∨
    ∃ res written, parseElem ty t = .ok (res, written) ∧ ∀ nd, throwOnInputError nd ty.isArithmetic res = some .userInputError := by
  obtain ⟨h1, h2⟩ := h
  cases hp : parseElem ty t with
  | error e =>
    left
    cases ty with
    | enumeration names =>
      simp only [parseElem, parseEnum] at hp
      have := h2 names rfl
      split at hp
      · simp at hp
      · rw [if_neg (by simpa using this)] at hp; simpa using hp.symm
    | _ => simp [parseElem] at hp
  | ok r =>
    right
    obtain ⟨res, written⟩ := r
    refine ⟨res, written, rfl, fun nd => ?_⟩
    cases res with
    | success =>
      obtain ⟨e, _, he⟩ := parseElem_success ty t written hp
      exact absurd ((readElem_iff ty t e).1 he) (h1 e)
    | error => rfl
    | overflowError => simp [throwOnInputError, parseElem_overflow ty t written hp]

theorem lift_assign_bad (nd : Bool) {ty : ElemTy} (x : VarId) {t : Str} (h : BadText ty t) (c : Core W) :
    ∃ c', lift (assignScalar nd ty x t) c = .err .userInputError c' ∧ c'.2 = c.2 ∧ ∀ y, y ≠ x → c'.1 y = c.1 y := by
  rcases parseElem_bad h with hp | ⟨res, written, hp, ht⟩
  · exact ⟨c, by unfold lift assignScalar; rw [hp]; rfl, rfl, fun _ _ => rfl⟩
  · unfold lift assignScalar
    rw [hp]
    dsimp only
    rw [ht nd]
    cases written with
    | none => exact ⟨c, rfl, rfl, fun _ _ => rfl⟩
    | some e => exact ⟨(c.1.set x (.one e), c.2), rfl, rfl, fun y hy => Store.set_ne _ _ hy⟩

theorem lift_validate (f : Val → W → Bool × W) (x : VarId) (c : Core W) :
    lift (validate f x) c =
      if (f (c.1 x) c.2).1 then .ok () (c.1, (f (c.1 x) c.2).2) else .err .validationError (c.1, (f (c.1 x) c.2).2) := by
  unfold lift validate
  dsimp only
  cases f (c.1 x) c.2 with
  | mk b w => cases b <;> rfl

theorem lift_append (nd : Bool) {ty : ElemTy} (x : VarId) {t : Str} {e : Elem} (h : Denotes ty t e) (st : Store) (w : W)
    (es : List Elem) : lift (appendList nd ty x t) (st.set x (.many es), w) = .ok () (st.set x (.many (es ++ [e])), w) := by
  have := (readElem_some ty t e).1 ((readElem_iff ty t e).2 h)
  unfold lift appendList
  rw [this]
  simp only [if_true, throwOnInputError, throwIf]
  simp [M.do_bind, M.bind_run, M.modify_run, M.pure_run, Res.core, FState.core, Store.set_self, Store.set_set, Val.pushBack]

theorem lift_appends (nd : Bool) {ty : ElemTy} (x : VarId) (ts : List Str) :
    ∀ (es₀ es : List Elem) (st : Store) (w : W), DenoteAll ty ts es →
      M.forEach (fun t => lift (appendList nd ty x t)) ts (st.set x (.many es₀), w) =
        .ok () (st.set x (.many (es₀ ++ es)), w) := by
  induction ts with
  | nil =>
    intro es₀ es st w h
    cases es with
    | nil => simp [M.forEach_nil, M.pure_run]
    | cons => exact h.elim
  | cons t ts ih =>
    intro es₀ es st w h
    cases es with
    | nil => exact h.elim
    | cons e es =>
      rw [M.forEach_cons, M.bind_run, lift_append nd x h.1 st w es₀]
      dsimp only
      rw [ih _ es st w h.2]
      simp

/-! ### Exact outcomes of one option -/

theorem absOption_swap (nd : Bool) (d : OptDecl W) (ts : List Str) : absOption nd d [] ts = absOption nd d ts [] := by
  unfold absOption
  have h0 : ∀ d : OptDecl W, absById nd d [] = M.pure false := by intro d; unfold absById; split <;> rfl
  funext c
  rw [h0]
  simp only [M.bind_run, M.pure_run]
  cases absById nd d ts c with
  | err e c' => rfl
  | ok b c' => cases b <;> cases d.isList <;> rfl

theorem absOption_uniform (nd : Bool) (d : OptDecl W) (items : List Item) (h : Uniform d items) :
    absOption nd d (shortValues d items) (longValues d items) = absOption nd d (given d items) [] := by
  by_cases hs : shortValues d items = []
  · rw [given_of_long d items hs, hs, absOption_swap]; rfl
  · by_cases hl : longValues d items = []
    · rw [given_of_short d items hl, hl]; rfl
    · exfalso
      apply h
      constructor
      · obtain ⟨v, hv⟩ := List.exists_mem_of_ne_nil _ hs
        obtain ⟨it, hi, he⟩ := List.mem_filterMap.1 hv
        cases it <;> simp [Id.valueIn] at he
        obtain ⟨rfl, rfl⟩ := he
        exact ⟨_, _, hi⟩
      · obtain ⟨v, hv⟩ := List.exists_mem_of_ne_nil _ hl
        obtain ⟨it, hi, he⟩ := List.mem_filterMap.1 hv
        cases it <;> simp [Id.valueIn] at he
        obtain ⟨rfl, rfl⟩ := he
        exact ⟨_, _, hi⟩

theorem absOption_single (nd : Bool) (d : OptDecl W) (items : List Item) (h : (given d items).length ≤ 1) :
    absOption nd d (shortValues d items) (longValues d items) = absOption nd d (given d items) [] := by
  have hl := given_length d items
  by_cases hs : shortValues d items = []
  · rw [given_of_long d items hs, hs, absOption_swap]; rfl
  · have : longValues d items = [] := by
      have : (shortValues d items).length ≠ 0 := by simpa using hs
      unfold shortValues at this
      apply List.eq_nil_of_length_eq_zero
      unfold longValues
      omega
    rw [given_of_short d items this, this]; rfl

theorem absOption_missing (nd : Bool) (d : OptDecl W) (hr : d.required = true) (c : Core W) :
    absOption nd d [] [] c = .err .requiredOptionMissing c := by
  have h0 : ∀ d : OptDecl W, absById nd d [] = M.pure false := by intro d; unfold absById; split <;> rfl
  unfold absOption
  rw [h0]
  simp [M.bind_run, M.pure_run, hr]

theorem absOption_bad (nd : Bool) (d : OptDecl W) (hl : d.isList = false) (t : Str) (hb : BadText d.ty t) (c : Core W) :
    ∃ c', absOption nd d [t] [] c = .err .userInputError c' ∧ c'.2 = c.2 ∧ ∀ y, y ≠ d.var → c'.1 y = c.1 y := by
  obtain ⟨c', h1, h2⟩ := lift_assign_bad nd d.var hb c
  refine ⟨c', ?_, h2⟩
  unfold absOption absById absScalar
  simp [hl, M.bind_run, h1]

theorem absOption_rejected (nd : Bool) (d : OptDecl W) (ts : List Str) (hne : ts ≠ []) (val : Val)
    (hv : ValueOf d.isList d.ty ts val) (c : Core W) (w' : W) (hr : d.validator val c.2 = (false, w')) :
    absOption nd d ts [] c = .err .validationError (c.1.set d.var val, w') := by
  unfold absOption absById ValueOf at *
  cases hl : d.isList with
  | false =>
    rw [hl] at hv
    simp only [Bool.false_eq_true, if_false] at hv ⊢
    obtain ⟨t, e, rfl, rfl, hd⟩ := hv
    simp only [absScalar, M.bind_run, lift_assign_ok nd d.var hd c, M.pure_run]
    simp [lift_validate, Store.set_self, hr]
  | true =>
    rw [hl] at hv
    simp only [if_true] at hv ⊢
    obtain ⟨es, rfl, hd⟩ := hv
    cases ts with
    | nil => exact absurd rfl hne
    | cons t ts =>
      have h1 : lift (setVar d.var (.many [])) c = .ok () (c.1.set d.var (.many []), c.2) := rfl
      have h2 := lift_appends nd d.var (t :: ts) [] es c.1 c.2 hd
      simp only [absList, M.bind_run, h1, h2, M.pure_run]
      simp [lift_validate, Store.set_self, hr]

/-- Two texts for a scalar option. -/
theorem absOption_twice (nd : Bool) (d : OptDecl W) (hl : d.isList = false) (v1 v2 : List Str)
    (hlen : 2 ≤ v1.length + v2.length) (hd : ∀ t ∈ v1 ++ v2, ∃ e, Denotes d.ty t e) (c : Core W) :
    ∃ c', absOption nd d v1 v2 c = .err .optionDeclaredMultipleTimes c' ∧ c'.2 = c.2 ∧ ∀ y, y ≠ d.var → c'.1 y = c.1 y := by
  unfold absOption absById
  simp only [hl, Bool.false_eq_true, if_false]
  have two : ∀ (t u : Str) (l : List Str) (c : Core W), (∃ e, Denotes d.ty t e) →
      ∃ c', absScalar nd d.ty d.var (t :: u :: l) c = .err .optionDeclaredMultipleTimes c' ∧ c'.2 = c.2 ∧
        ∀ y, y ≠ d.var → c'.1 y = c.1 y := by
    rintro t u l c ⟨e, he⟩
    refine ⟨(c.1.set d.var (.one e), c.2), ?_, rfl, fun y hy => Store.set_ne _ _ hy⟩
    simp only [absScalar, M.bind_run, lift_assign_ok nd d.var he c]
    rfl
  have one : ∀ (t : Str) (c : Core W), (∃ e, Denotes d.ty t e) →
      ∃ c', absScalar nd d.ty d.var [t] c = .ok true c' ∧ c'.2 = c.2 ∧ ∀ y, y ≠ d.var → c'.1 y = c.1 y := by
    rintro t c ⟨e, he⟩
    refine ⟨(c.1.set d.var (.one e), c.2), ?_, rfl, fun y hy => Store.set_ne _ _ hy⟩
    simp only [absScalar, M.bind_run, lift_assign_ok nd d.var he c]
    rfl
  match v1, v2, hlen, hd with
  | [], t :: u :: l, _, hd =>
    obtain ⟨c', h1, h2⟩ := two t u l c (hd t (by simp))
    refine ⟨c', ?_, h2⟩
    have h0 : absScalar nd d.ty d.var [] c = .ok false c := rfl
    simp only [M.bind_run, h0, h1]
  | [t], [u], _, hd =>
    obtain ⟨c', h1, h2, h3⟩ := one t c (hd t (by simp))
    obtain ⟨c'', h4, h5, h6⟩ := one u c' (hd u (by simp))
    refine ⟨c'', ?_, h5.trans h2, fun y hy => (h6 y hy).trans (h3 y hy)⟩
    simp only [M.bind_run, h1, h4]
    rfl
  | [t], u :: x :: l, _, hd =>
    obtain ⟨c', h1, h2, h3⟩ := one t c (hd t (by simp))
    obtain ⟨c'', h4, h5, h6⟩ := two u x l c' (hd u (by simp))
    refine ⟨c'', ?_, h5.trans h2, fun y hy => (h6 y hy).trans (h3 y hy)⟩
    simp only [M.bind_run, h1, h4]
  | t :: u :: l, v2, _, hd =>
    obtain ⟨c', h1, h2⟩ := two t u l c (hd t (by simp))
    refine ⟨c', ?_, h2⟩
    simp only [M.bind_run, h1]

/-! ### Positional options -/

theorem absPositional_scalar_ok (nd last : Bool) (p : PosDecl W) (hp : p.isList = false) (t : Str) (ts : List Str)
    (val : Val) (hv : ValueOf false p.ty [t] val) (c : Core W) (w' : W) (h : p.validator val c.2 = (true, w')) :
    absPositional nd last p (t :: ts) c = .ok () (c.1.set p.var val, w') := by
  obtain ⟨t', e, h1, rfl, hd⟩ := hv
  simp at h1
  subst h1
  simp only [absPositional, hp, Bool.false_eq_true, if_false, M.bind_run, lift_assign_ok nd p.var hd c]
  simp [lift_validate, Store.set_self, h]

theorem absPositionals_append (nd : Bool) (ps : List (PosDecl W)) (hps : ∀ p ∈ ps, p.isList = false) (qs : List (PosDecl W))
    (xs : List Str) : ∀ (ws : List Str) (st : Store) (w : W) (st' : Store) (w' : W),
      PositionalsMean ps ws st w st' w' →
      absPositionals nd (ps ++ qs) (ws ++ xs) (st, w) = absPositionals nd qs xs (st', w') := by
  induction ps with
  | nil => rintro ws st w st' w' ⟨rfl, rfl, rfl⟩; rfl
  | cons p ps ih =>
    intro ws st w st' w' h
    have hp := hps p (by simp)
    simp only [PositionalsMean, hp, Bool.false_eq_true, if_false] at h
    obtain ⟨t, ts, val, w1, rfl, h1, h2, h3⟩ := h
    simp only [List.cons_append, absPositionals, M.bind_run]
    rw [absPositional_scalar_ok nd _ p hp t _ val h1 (st, w) w1 h2]
    simp only [hp, Bool.false_eq_true, if_false, List.drop_one, List.tail_cons]
    exact ih (fun q hq => hps q (by simp [hq])) ts _ w1 st' w' h3

theorem absPositionals_too_few (nd : Bool) (p : PosDecl W) (qs : List (PosDecl W)) (c : Core W) :
    absPositionals nd (p :: qs) [] c = .err .tooFewArguments c := rfl

theorem absPositionals_too_many (nd : Bool) (t : Str) (ts : List Str) (c : Core W) :
    absPositionals (W := W) nd [] (t :: ts) c = .err .tooManyArguments c := rfl

theorem absPositionals_bad (nd : Bool) (p : PosDecl W) (hp : p.isList = false) (qs : List (PosDecl W)) (t : Str)
    (ts : List Str) (hb : BadText p.ty t) (c : Core W) :
    ∃ c', absPositionals nd (p :: qs) (t :: ts) c = .err .userInputError c' ∧ c'.2 = c.2 ∧
      ∀ y, y ≠ p.var → c'.1 y = c.1 y := by
  obtain ⟨c', h1, h2⟩ := lift_assign_bad nd p.var hb c
  refine ⟨c', ?_, h2⟩
  simp [absPositionals, absPositional, hp, M.bind_run, h1]

theorem absPositionals_rejected (nd : Bool) (p : PosDecl W) (hp : p.isList = false) (qs : List (PosDecl W)) (t : Str)
    (ts : List Str) (val : Val) (hv : ValueOf false p.ty [t] val) (c : Core W) (w' : W)
    (h : p.validator val c.2 = (false, w')) :
    absPositionals nd (p :: qs) (t :: ts) c = .err .validationError (c.1.set p.var val, w') := by
  obtain ⟨t', e, h1, rfl, hd⟩ := hv
  simp at h1
  subst h1
  simp only [absPositionals, absPositional, hp, Bool.false_eq_true, if_false, M.bind_run, lift_assign_ok nd p.var hd c]
  simp [lift_validate, Store.set_self, h]

theorem absPositionals_list_rejected (nd : Bool) (p : PosDecl W) (hp : p.isList = true) (ws : List Str) (hne : ws ≠ [])
    (val : Val) (hv : ValueOf true p.ty ws val) (c : Core W) (w' : W) (h : p.validator val c.2 = (false, w')) :
    absPositionals nd [p] ws c = .err .validationError (c.1.set p.var val, w') := by
  obtain ⟨es, rfl, hd⟩ := hv
  cases ws with
  | nil => exact absurd rfl hne
  | cons t ts =>
    have h1 : lift (setVar p.var (.many [])) c = .ok () (c.1.set p.var (.many []), c.2) := rfl
    have h2 := lift_appends nd p.var (t :: ts) [] es c.1 c.2 hd
    simp only [absPositionals, absPositional, hp, if_true, List.isEmpty_nil, Bool.not_true, Bool.and_false,
      Bool.false_eq_true, if_false, M.bind_run, h1, h2]
    simp [lift_validate, Store.set_self, h]

/-! ### `parse()` -/

theorem ready_of {p : Parser W} (h1 : p.parseWasCalled = false) (h2 : CleanName p.appName) (h3 : p.subcommands = []) :
    Ready p := ⟨h1, h2, by rw [h3]; simp⟩

/-- The outcome of `parse()` is that of the option parser. -/
def outcomeOf (p : Parser W) : Res (Core W) Unit → Outcome × Prog W
  | .ok _ c => (.returned, ⟨p, c.1, c.2⟩)
  | .err e c => (.threw e, ⟨p, c.1, c.2⟩)

theorem parse_unrequested_core {env : Env W} {g : Prog W} (hp : Ready g.parser) {args : List Str}
    (ha : ∃ exe, g.parser.arguments = exe :: args) (hs : g.parser.subcommands = []) (hne : args ≠ [])
    (hu : Unrequested g.parser.options args) {w₁ : W} (hv : CheckPasses env g w₁) :
    ∃ exe, g.parser.arguments = exe :: args ∧
    parse env g = outcomeOf (plainScanned g.parser exe args)
      (formatParse env.ndebug (declsOf g.parser.operations) args g.store w₁).core := by
  obtain ⟨exe, ha⟩ := ha
  refine ⟨exe, ha, ?_⟩
  rw [parse_unrequested env _ hp exe _ ha hs hne hu, hv]
  dsimp only
  cases formatParse env.ndebug _ args _ w₁ <;> rfl

theorem inv_reachable {env : Env W} {g : Prog W} (hg : Reachable env g) : Inv g.parser := by
  obtain ⟨i, st, w, as, rfl⟩ := hg
  exact inv_history env as (start i st w) (inv_start i)

theorem parse_line {env : Env W} {g : Prog W} (hg : Reachable env g) {items : List Item} {tail : Option (List Str)}
    (hl : LineGiven g items tail) (hit : ∀ it ∈ items, it.Ok (declsOf g.parser.operations)) {w₁ : W}
    (hv : CheckPasses env g w₁) : ∃ exe, g.parser.arguments = exe :: renderLine items tail ∧
    parse env g = outcomeOf (plainScanned g.parser exe (renderLine items tail))
      (formatParse env.ndebug (declsOf g.parser.operations) (renderLine items tail) g.store w₁).core :=
  parse_unrequested_core (ready_of hl.notParsed hl.cleanName hl.noSubcommands) hl.arguments hl.noSubcommands hl.notEmpty
    (unrequested_line (inv_reachable hg) items hit tail hl.notRequest) hv

theorem parse_loose {env : Env W} {g : Prog W} (hg : Reachable env g) {items : List Item} {tail : Option (List Str)}
    (hl : LooseGiven g items tail) {w₁ : W}
    (hv : CheckPasses env g w₁) : ∃ exe, g.parser.arguments = exe :: renderLine items tail ∧
    parse env g = outcomeOf (plainScanned g.parser exe (renderLine items tail))
      (formatParse env.ndebug (declsOf g.parser.operations) (renderLine items tail) g.store w₁).core :=
  parse_unrequested_core (ready_of hl.notParsed hl.cleanName hl.noSubcommands) hl.arguments hl.noSubcommands hl.notEmpty
    (unrequested_loose (inv_reachable hg) items hl.itemsLoose hl.others tail hl.tailPlain) hv

/-! ### From the chain of effects to the final variables -/

theorem options_delivered (items : List Item) (ds : List (OptDecl W)) : ∀ (st : Store) (w : W) (st' : Store) (w' : W),
    (ds.map (·.var)).Nodup → OptionsMean items ds st w st' w' →
    (∀ d ∈ ds, given d items ≠ [] → ValueOf d.isList d.ty (given d items) (st' d.var) ∧
      ∃ u u', d.validator (st' d.var) u = (true, u')) ∧
    (∀ d ∈ ds, given d items = [] → st' d.var = st d.var) ∧
    (∀ d ∈ ds, d.required = true → given d items ≠ []) ∧
    (∀ x, (∀ d ∈ ds, d.var ≠ x) → st' x = st x) := by
  induction ds with
  | nil => rintro st w st' w' _ ⟨rfl, rfl⟩; simp
  | cons d ds ih =>
    intro st w st' w' hn hm
    rw [List.map_cons, List.nodup_cons] at hn
    have hfresh : ∀ e ∈ ds, e.var ≠ d.var := fun e he h => hn.1 (List.mem_map.2 ⟨e, he, h⟩)
    rcases hm with ⟨h1, h2, h3⟩ | ⟨h1, val, w1, h2, h3, h4⟩
    · obtain ⟨a, b, c, e⟩ := ih st w st' w' hn.2 h3
      refine ⟨?_, ?_, ?_, ?_⟩
      · intro d' hd' hg
        rcases List.mem_cons.1 hd' with rfl | hd'
        · exact absurd h1 hg
        · exact a d' hd' hg
      · intro d' hd' hg
        rcases List.mem_cons.1 hd' with rfl | hd'
        · exact e _ hfresh
        · exact b d' hd' hg
      · intro d' hd' hg
        rcases List.mem_cons.1 hd' with rfl | hd'
        · rw [h2] at hg; simp at hg
        · exact c d' hd' hg
      · intro x hx
        exact e x fun d' hd' => hx d' (by simp [hd'])
    · obtain ⟨a, b, c, e⟩ := ih _ w1 st' w' hn.2 h4
      have hval : st' d.var = val := by rw [e _ hfresh, Store.set_self]
      refine ⟨?_, ?_, ?_, ?_⟩
      · intro d' hd' hg
        rcases List.mem_cons.1 hd' with rfl | hd'
        · rw [hval]; exact ⟨h2, _, _, h3⟩
        · exact a d' hd' hg
      · intro d' hd' hg
        rcases List.mem_cons.1 hd' with rfl | hd'
        · exact absurd hg h1
        · rw [b d' hd' hg, Store.set_ne _ _ (hfresh d' hd')]
      · intro d' hd' hg
        rcases List.mem_cons.1 hd' with rfl | hd'
        · exact h1
        · exact c d' hd' hg
      · intro x hx
        rw [e x fun d' hd' => hx d' (by simp [hd']), Store.set_ne _ _ (Ne.symm (hx d (by simp)))]

theorem flags_delivered (items : List Item) (fs : List FlagDecl) : ∀ (st : Store), (fs.map (·.var)).Nodup →
    (∀ f ∈ fs, mentions f items ≠ 0 → setFlags items fs st f.var = .one (.bool true)) ∧
    (∀ f ∈ fs, mentions f items = 0 → setFlags items fs st f.var = st f.var) ∧
    (∀ x, (∀ f ∈ fs, f.var ≠ x) → setFlags items fs st x = st x) := by
  induction fs with
  | nil => intro st _; simp [setFlags]
  | cons f fs ih =>
    intro st hn
    rw [List.map_cons, List.nodup_cons] at hn
    have hfresh : ∀ e ∈ fs, e.var ≠ f.var := fun e he h => hn.1 (List.mem_map.2 ⟨e, he, h⟩)
    obtain ⟨a, b, c⟩ := ih (if mentions f items = 0 then st else st.set f.var (.one (.bool true))) hn.2
    have hoff : ∀ x, x ≠ f.var → (if mentions f items = 0 then st else st.set f.var (.one (.bool true))) x = st x := by
      intro x hx; split
      · rfl
      · exact Store.set_ne _ _ hx
    simp only [setFlags]
    refine ⟨?_, ?_, ?_⟩
    · intro g hg hm
      rcases List.mem_cons.1 hg with rfl | hg
      · rw [c _ hfresh, if_neg hm, Store.set_self]
      · exact a g hg hm
    · intro g hg hm
      rcases List.mem_cons.1 hg with rfl | hg
      · rw [c _ hfresh, if_pos hm]
      · rw [b g hg hm, hoff _ (hfresh g hg)]
    · intro x hx
      rw [c x fun g hg => hx g (by simp [hg]), hoff _ (Ne.symm (hx f (by simp)))]

/-- All validators of the positional options accepted the final values. -/
def positionalsAccepted (ds : List (PosDecl W)) (st : Store) : Prop :=
  ∀ d ∈ ds, ∃ u u', d.validator (st d.var) u = (true, u')

theorem positionals_delivered (ds : List (PosDecl W)) : ∀ (ws : List Str) (st : Store) (w : W) (st' : Store) (w' : W),
    (ds.map (·.var)).Nodup → PositionalsMean ds ws st w st' w' →
    PositionalValues ds ws st' ∧ positionalsAccepted ds st' ∧ (∀ x, (∀ d ∈ ds, d.var ≠ x) → st' x = st x) := by
  induction ds with
  | nil => rintro ws st w st' w' _ ⟨rfl, rfl, rfl⟩; simp [PositionalValues, positionalsAccepted]
  | cons d ds ih =>
    intro ws st w st' w' hn hm
    rw [List.map_cons, List.nodup_cons] at hn
    have hfresh : ∀ e ∈ ds, e.var ≠ d.var := fun e he h => hn.1 (List.mem_map.2 ⟨e, he, h⟩)
    unfold PositionalsMean at hm
    unfold PositionalValues
    cases hl : d.isList with
    | true =>
      rw [hl] at hm
      simp only [if_true] at hm ⊢
      obtain ⟨rfl, h1, val, h2, h3, rfl⟩ := hm
      refine ⟨⟨rfl, h1, by rw [Store.set_self]; exact h2⟩, ?_, ?_⟩
      · intro e he
        simp at he; subst he
        rw [Store.set_self]; exact ⟨_, _, h3⟩
      · intro x hx; exact Store.set_ne _ _ (Ne.symm (hx d (by simp)))
    | false =>
      rw [hl] at hm
      simp only [Bool.false_eq_true, if_false] at hm ⊢
      obtain ⟨t, ts, val, w1, rfl, h1, h2, h3⟩ := hm
      obtain ⟨a, b, c⟩ := ih ts _ w1 st' w' hn.2 h3
      have hval : st' d.var = val := by rw [c _ hfresh, Store.set_self]
      refine ⟨⟨t, ts, rfl, by rw [hval]; exact h1, a⟩, ?_, ?_⟩
      · intro e he
        rcases List.mem_cons.1 he with rfl | he
        · rw [hval]; exact ⟨_, _, h2⟩
        · exact b e he
      · intro x hx
        rw [c x fun e he => hx e (by simp [he]), Store.set_ne _ _ (Ne.symm (hx d (by simp)))]

theorem line_delivered {D : Decls W} (hv : VarsDistinct D) {items : List Item} {tail : Option (List Str)} {st st' : Store}
    {w w' : W} (hm : LineMeans D items tail st w st' w') :
    Delivered D items tail st st' ∧
    (∀ d ∈ D.options, given d items ≠ [] → ∃ u u', d.validator (st' d.var) u = (true, u')) ∧
    positionalsAccepted D.positionals st' := by
  obtain ⟨st1, w1, h1, h2⟩ := hm
  unfold VarsDistinct at hv
  rw [List.nodup_append, List.nodup_append] at hv
  obtain ⟨⟨n1, n2, n12⟩, n3, n123⟩ := hv
  obtain ⟨a1, a2, a3, a4⟩ := options_delivered items D.options st w st1 w1 n1 h1
  obtain ⟨b1, b2, b3⟩ := flags_delivered items D.flags st1 n2
  obtain ⟨c1, c2, c3⟩ := positionals_delivered D.positionals _ _ _ _ _ n3 h2
  have ho : ∀ d ∈ D.options, st' d.var = st1 d.var := by
    intro d hd
    rw [c3 d.var, b3 d.var]
    · intro f hf e
      exact n12 _ (List.mem_map.2 ⟨d, hd, rfl⟩) _ (List.mem_map.2 ⟨f, hf, rfl⟩) e.symm
    · intro f hf e
      exact n123 _ (List.mem_append_left _ (List.mem_map.2 ⟨d, hd, rfl⟩)) _ (List.mem_map.2 ⟨f, hf, rfl⟩) e.symm
  have hf : ∀ f ∈ D.flags, st' f.var = setFlags items D.flags st1 f.var ∧ st1 f.var = st f.var := by
    intro f hf
    constructor
    · apply c3
      intro d hd e
      exact n123 _ (List.mem_append_right _ (List.mem_map.2 ⟨f, hf, rfl⟩)) _ (List.mem_map.2 ⟨d, hd, rfl⟩) e.symm
    · apply a4
      intro d hd e
      exact n12 _ (List.mem_map.2 ⟨d, hd, rfl⟩) _ (List.mem_map.2 ⟨f, hf, rfl⟩) e
  refine ⟨⟨?_, ?_, a3, ?_, ?_, c1, ?_⟩, ?_, c2⟩
  · intro d hd hg; rw [ho d hd]; exact (a1 d hd hg).1
  · intro d hd hg; rw [ho d hd]; exact a2 d hd hg
  · intro f hm hg; rw [(hf f hm).1]; exact b1 f hm hg
  · intro f hm hg; rw [(hf f hm).1, b2 f hm hg]; exact (hf f hm).2
  · intro x h1 h2 h3
    rw [c3 x h3, b3 x h2, a4 x h1]
  · intro d hd hg; rw [ho d hd]; exact (a1 d hd hg).2

/-- Acceptable lines have a meaning. -/
theorem means_of_accepted {D : Decls W} {items : List Item} {tail : Option (List Str)} (h : Accepted D items tail)
    (st : Store) (w : W) : ∃ st' w', LineMeans D items tail st w st' w' := by
  have key : ∀ (ds : List (OptDecl W)), (∀ d ∈ ds, d ∈ D.options) → ∀ (st : Store) (w : W), ∃ st' w', OptionsMean items ds st w st' w' := by
    intro ds
    induction ds with
    | nil => intro _ st w; exact ⟨st, w, rfl, rfl⟩
    | cons d ds ih =>
      intro hds st w
      have hd := hds d (by simp)
      by_cases hg : given d items = []
      · obtain ⟨st', w', h'⟩ := ih (fun e he => hds e (by simp [he])) st w
        refine ⟨st', w', Or.inl ⟨hg, ?_, h'⟩⟩
        rw [← Bool.not_eq_true]
        exact fun hr => h.required d hd hr hg
      · obtain ⟨val, hv, hok⟩ := h.values d hd hg
        obtain ⟨st', w', h'⟩ := ih (fun e he => hds e (by simp [he])) (st.set d.var val) (d.validator val w).2
        exact ⟨st', w', Or.inr ⟨hg, val, (d.validator val w).2, hv, by rw [← hok w], h'⟩⟩
  have pos : ∀ (ds : List (PosDecl W)) (ws : List Str), PositionalsFit ds ws → ∀ (st : Store) (w : W),
      ∃ st' w', PositionalsMean ds ws st w st' w' := by
    intro ds
    induction ds with
    | nil => intro ws h st w; exact ⟨st, w, h, rfl, rfl⟩
    | cons d ds ih =>
      intro ws h st w
      unfold PositionalsFit at h
      unfold PositionalsMean
      cases hl : d.isList with
      | true =>
        rw [hl] at h
        simp only [if_true] at h ⊢
        obtain ⟨rfl, hne, val, hv, hok⟩ := h
        exact ⟨_, (d.validator val w).2, rfl, hne, val, hv, by rw [← hok w], rfl⟩
      | false =>
        rw [hl] at h
        simp only [Bool.false_eq_true, if_false] at h ⊢
        obtain ⟨t, ts, val, rfl, hv, hok, hfit⟩ := h
        obtain ⟨st', w', h'⟩ := ih ts hfit (st.set d.var val) (d.validator val w).2
        exact ⟨st', w', t, ts, val, (d.validator val w).2, rfl, hv, by rw [← hok w], h'⟩
  obtain ⟨st1, w1, h1⟩ := key D.options (fun _ h => h) st w
  obtain ⟨st2, w2, h2⟩ := pos _ _ h.positionals (setFlags items D.flags st1) w1
  exact ⟨st2, w2, st1, w1, h1, h2⟩

end Sharg
