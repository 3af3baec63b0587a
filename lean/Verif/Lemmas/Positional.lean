import Verif.Lemmas.RoundTrip

/-!
# The positional phase
-/

set_option linter.unusedSimpArgs false

namespace Sharg

open Spec

/-- The arguments that are not used up. -/
def remaining (l : List Str) : List Str := l.filter (· ≠ [])

theorem dropWhile_blank (l : List Str) :
    (l.dropWhile (fun a => a = []) = [] ∧ remaining l = []) ∨
    ∃ a rest, l.dropWhile (fun a => a = []) = a :: rest ∧ a ≠ [] ∧ remaining l = a :: remaining rest := by
  induction l with
  | nil => left; simp [remaining]
  | cons a l ih =>
    by_cases h : a = []
    · subst h
      simpa [remaining] using ih
    · right
      exact ⟨a, l, by simp [h], h, by simp [remaining, h]⟩

theorem remaining_takeWhile (l : List Str) : remaining (l.takeWhile (fun a => a = [])) = [] := by
  unfold remaining
  rw [List.filter_eq_nil_iff]
  intro a ha
  induction l with
  | nil => simp at ha
  | cons b l ih =>
    by_cases h : b = []
    · subst h
      simp at ha
      rcases ha with rfl | ha
      · simp
      · exact ih (by simpa using ha)
    · simp [h] at ha

theorem remaining_append (l1 l2 : List Str) : remaining (l1 ++ l2) = remaining l1 ++ remaining l2 := by
  simp [remaining]

theorem remaining_blanks (l : List Str) : remaining (l.map fun _ => []) = [] := by
  simp [remaining]

theorem fillList_ok {W : Type} (nd : Bool) (ty : ElemTy) (x : VarId) (l : List Str) :
    ∀ (front : List Str) (s s' : FState W) (old : List Elem) (u : Unit), s.store x = .many old →
      (fillList nd ty x front l s = .ok u s' ↔
        ∃ es, readListElems nd ty (remaining l) = .ok es ∧
          s' = { s with pre := front ++ l.map (fun _ => []), store := s.store.set x (.many (old ++ es)) }) := by
  induction l with
  | nil =>
    intro front s s' old u hold
    have hself : s.store.set x (.many old) = s.store := by
      funext y; by_cases h : y = x
      · subst h; simp [hold]
      · simp [Store.set_ne _ _ h]
    simp only [fillList, setPre_run, remaining, List.filter_nil, readListElems]
    constructor
    · intro h; cases h; exact ⟨[], rfl, by simp [hself]⟩
    · rintro ⟨es, h1, rfl⟩; cases h1; simp [hself]
  | cons a rest ih =>
    intro front s s' old u hold
    rw [fillList.eq_def]
    by_cases ha : a = []
    · subst ha
      simp only [if_true]
      rw [ih _ _ _ old u hold]
      simp [remaining]
    · simp only [ha, if_false, M.bind_eq_ok]
      have hrem : remaining (a :: rest) = a :: remaining rest := by simp [remaining, ha]
      rw [hrem]
      constructor
      · rintro ⟨u1, s1, h1, h2⟩
        obtain ⟨es1, he1, rfl⟩ := (appendList_ok nd ty x a s s1 old hold).1 h1
        obtain ⟨es2, he2, rfl⟩ := (ih _ _ _ (old ++ es1) u (by simp)).1 h2
        exact ⟨es1 ++ es2, by simp [readListElems, he1, he2], by simp⟩
      · rintro ⟨es, h1, rfl⟩
        simp only [readListElems] at h1
        cases he : readListElem nd ty a with
        | error e => simp [he] at h1
        | ok es1 =>
          cases he2 : readListElems nd ty (remaining rest) with
          | error e => simp [he, he2] at h1
          | ok es2 =>
            simp [he, he2] at h1
            subst h1
            exact ⟨(), _, (appendList_ok nd ty x a s _ old hold).2 ⟨es1, he, rfl⟩,
              (ih _ _ _ (old ++ es1) u (by simp)).2 ⟨es2, he2, by simp⟩⟩

theorem getPositional_scalar_ok {W : Type} (nd last : Bool) (d : PosDecl W) (hl : d.isList = false)
    (s s' : FState W) (u : Unit) :
    getPositional nd last d s = .ok u s' ↔
      ∃ t ts e w pre', remaining s.pre = t :: ts ∧ readElem d.ty t = some e ∧ d.validator (.one e) s.world = (true, w) ∧
        pre' = s.pre.takeWhile (fun a => a = []) ++ [] :: (s.pre.dropWhile (fun a => a = [])).tail ∧
        remaining pre' = ts ∧
        s' = { s with pre := pre', store := s.store.set d.var (.one e), world := w } := by
  unfold getPositional
  rcases dropWhile_blank s.pre with ⟨h1, h2⟩ | ⟨a, rest, h1, h2, h3⟩
  · rw [h1, h2]; simp
  · rw [h1, h3]
    have hrem : remaining (s.pre.takeWhile (fun a => a = []) ++ [] :: rest) = remaining rest := by
      rw [remaining_append, remaining_takeWhile]; simp [remaining]
    simp only [hl, Bool.false_eq_true, if_false, M.bind_eq_ok, assignScalar_ok, setPre_run, validate_ok, List.tail_cons]
    constructor
    · rintro ⟨_, s1, ⟨e, he, rfl⟩, _, s2, h4, w, hw, rfl⟩
      cases h4
      simp at hw
      exact ⟨a, _, e, w, _, rfl, he, hw, rfl, hrem, rfl⟩
    · rintro ⟨t, ts, e, w, pre', h4, he, hw, rfl, _, rfl⟩
      simp at h4
      obtain ⟨rfl, rfl⟩ := h4
      exact ⟨(), _, ⟨e, he, rfl⟩, (), _, rfl, w, by simpa using hw, rfl⟩

theorem getPositional_list_ok {W : Type} (nd last : Bool) (d : PosDecl W) (hl : d.isList = true)
    (s s' : FState W) (u : Unit) :
    getPositional nd last d s = .ok u s' ↔
      (nd = true ∨ last = true) ∧ remaining s.pre ≠ [] ∧
        ∃ es w, readListElems nd d.ty (remaining s.pre) = .ok es ∧ d.validator (.many es) s.world = (true, w) ∧
        s' = { s with pre := s.pre.map (fun _ => []), store := s.store.set d.var (.many es), world := w } := by
  unfold getPositional
  rcases dropWhile_blank s.pre with ⟨h1, h2⟩ | ⟨a, rest, h1, h2, h3⟩
  · rw [h1, h2]; simp
  · rw [h1]
    have hne : remaining s.pre ≠ [] := by rw [h3]; simp
    simp only [hl, if_true]
    by_cases hb : (!nd && !last) = true
    · simp only [hb, if_true]
      simp at hb
      simp [hb]
    · simp only [hb, Bool.false_eq_true, if_false, M.bind_eq_ok, setVar_run, validate_ok]
      have hb' : nd = true ∨ last = true := by cases nd <;> cases last <;> simp_all
      constructor
      · rintro ⟨_, s1, h4, u2, s2, h5, w, hw, rfl⟩
        cases h4
        obtain ⟨es, he, rfl⟩ := (fillList_ok nd d.ty d.var s.pre [] _ _ [] u2 (by simp)).1 h5
        simp at hw
        exact ⟨hb', hne, es, w, he, hw, by simp⟩
      · rintro ⟨_, _, es, w, he, hw, rfl⟩
        exact ⟨(), _, rfl, (), _, (fillList_ok nd d.ty d.var s.pre [] _ _ [] () (by simp)).2 ⟨es, he, rfl⟩, w,
          by simpa using hw, by simp⟩

theorem checkForLeftOverArgs_ok {W : Type} (s s' : FState W) (u : Unit) :
    checkForLeftOverArgs s = .ok u s' ↔ remaining s.pre = [] ∧ s' = s := by
  unfold checkForLeftOverArgs
  by_cases h : s.pre.any (fun a => a ≠ []) = true
  · simp only [h, if_true]
    simp at h
    obtain ⟨a, ha, hne⟩ := h
    simp only [reduceCtorEq, false_iff, not_and]
    intro h0
    simp only [remaining, List.filter_eq_nil_iff] at h0
    exact absurd hne (by simpa using h0 a ha)
  · simp only [h, Bool.false_eq_true, if_false]
    have h0 : remaining s.pre = [] := by
      simp only [remaining, List.filter_eq_nil_iff]
      intro a ha
      simp at h
      simp [h a ha]
    constructor
    · intro h'; cases h'; exact ⟨h0, rfl⟩
    · rintro ⟨_, rfl⟩; rfl

/-- Positional part with the final check: success if the words have a meaning. -/
theorem positionals_of_mean {W : Type} (nd : Bool) (ds : List (PosDecl W)) :
    ∀ (s : FState W) (st' : Store) (w' : W), PositionalsMean ds (remaining s.pre) s.store s.world st' w' →
      ∃ s', M.bind (runPositionals nd ds) (fun _ => checkForLeftOverArgs) s = .ok () s' ∧
        s'.store = st' ∧ s'.world = w' := by
  induction ds with
  | nil =>
    rintro s st' w' ⟨h1, rfl, rfl⟩
    refine ⟨s, ?_, rfl, rfl⟩
    simp only [runPositionals, M.bind_run, M.pure_run]
    exact (checkForLeftOverArgs_ok s s ()).2 ⟨h1, rfl⟩
  | cons d ds ih =>
    intro s st' w' hm
    unfold PositionalsMean at hm
    split at hm
    · rename_i hl
      obtain ⟨rfl, hne, val, ⟨es, rfl, hd⟩, hv, rfl⟩ := hm
      have h1 := (getPositional_list_ok nd true d hl s _ ()).2
        ⟨Or.inr rfl, hne, es, w', readListElems_of_denoteAll nd d.ty _ es hd, hv, rfl⟩
      refine ⟨{ s with pre := s.pre.map (fun _ => []), store := s.store.set d.var (.many es), world := w' },
        ?_, rfl, rfl⟩
      simp only [runPositionals, M.bind_eq_ok]
      exact ⟨(), _, ⟨(), _, h1, rfl⟩, (checkForLeftOverArgs_ok _ _ ()).2 ⟨remaining_blanks _, rfl⟩⟩
    · rename_i hl
      obtain ⟨t, ts, val, w1, h0, ⟨t', e, h1, rfl, hd⟩, hv, hrec⟩ := hm
      simp at h1
      subst h1
      have hrem : remaining (s.pre.takeWhile (fun a => a = []) ++ [] :: (s.pre.dropWhile (fun a => a = [])).tail)
          = ts := by
        rcases dropWhile_blank s.pre with ⟨_, h2⟩ | ⟨a, rest, h3, _, h4⟩
        · rw [h2] at h0; cases h0
        · rw [h3, remaining_append, remaining_takeWhile]
          rw [h4] at h0
          simp [remaining] at h0 ⊢
          exact h0.2
      have h2 := (getPositional_scalar_ok nd ds.isEmpty d (by simpa using hl) s _ ()).2
        ⟨t, ts, e, w1, _, h0, (readElem_iff _ _ _).2 hd, hv, rfl, hrem, rfl⟩
      obtain ⟨s', h3, h4, h5⟩ := ih { s with
        pre := s.pre.takeWhile (fun a => a = []) ++ [] :: (s.pre.dropWhile (fun a => a = [])).tail
        store := s.store.set d.var (.one e), world := w1 } st' w' (by rw [hrem]; exact hrec)
      refine ⟨s', ?_, h4, h5⟩
      simp only [runPositionals, M.bind_eq_ok] at h3 ⊢
      obtain ⟨u1, s1, h6, h7⟩ := h3
      exact ⟨u1, s1, ⟨(), _, h2, h6⟩, h7⟩

theorem positionals_mean_of {W : Type} (nd : Bool) (ds : List (PosDecl W)) :
    ∀ (s s' : FState W) (u : Unit), (∀ d ∈ ds, d.isList = true → ∀ t ∈ remaining s.pre, nd = false ∨ ¬ OutOfRange d.ty t) →
      M.bind (runPositionals nd ds) (fun _ => checkForLeftOverArgs) s = .ok u s' →
      PositionalsMean ds (remaining s.pre) s.store s.world s'.store s'.world := by
  induction ds with
  | nil =>
    intro s s' u _ h
    simp only [runPositionals, M.bind_run, M.pure_run] at h
    obtain ⟨h1, rfl⟩ := (checkForLeftOverArgs_ok _ _ _).1 h
    exact ⟨h1, rfl, rfl⟩
  | cons d ds ih =>
    intro s s' u hnd h
    simp only [runPositionals, M.bind_eq_ok] at h
    obtain ⟨u1, s1, ⟨u2, s2, h1, h2⟩, h3⟩ := h
    unfold PositionalsMean
    split
    · rename_i hl
      obtain ⟨h4, h5, es, w, he, hv, rfl⟩ := (getPositional_list_ok _ _ d hl _ _ _).1 h1
      have hds : ds = [] := by
        cases ds with
        | nil => rfl
        | cons d2 ds =>
          exfalso
          simp only [runPositionals, M.bind_eq_ok] at h2
          obtain ⟨u3, s3, h6, _⟩ := h2
          unfold getPositional at h6
          have hnone : (s.pre.map fun _ => ([] : Str)).dropWhile (fun a => a = []) = [] := by
            generalize s.pre = l
            induction l with
            | nil => rfl
            | cons a l ih => simpa using ih
          dsimp only at h6
          rw [hnone] at h6
          simp at h6
      subst hds
      simp only [runPositionals] at h2
      cases h2
      obtain ⟨_, rfl⟩ := (checkForLeftOverArgs_ok _ _ _).1 h3
      exact ⟨rfl, h5, .many es, ⟨es, rfl, readListElems_denote nd _ _ _ (hnd d (by simp) hl) he⟩, hv, rfl⟩
    · rename_i hl
      obtain ⟨t, ts, e, w, pre', h4, he, hv, _, hrem, rfl⟩ :=
        (getPositional_scalar_ok _ _ d (by simpa using hl) _ _ _).1 h1
      have := ih ⟨pre', s.post, s.store.set d.var (.one e), w⟩ s' u (by
          intro d' hd' hl' t' ht'
          refine hnd d' (by simp [hd']) hl' t' ?_
          dsimp only at ht'
          rw [hrem] at ht'
          rw [h4]; simp [ht'])
        (by simp only [M.bind_eq_ok]; exact ⟨u1, s1, h2, h3⟩)
      simp only [hrem] at this
      exact ⟨t, ts, .one e, w, h4, ⟨t, e, rfl, rfl, (readElem_iff _ _ _).1 he⟩, hv, this⟩

/-! ### The whole line -/

theorem render_ne_endMarker {W : Type} {D : Decls W} (hD : IdsOk D) (it : Item) (hit : it.Ok D) :
    ∀ a ∈ it.render, a ≠ endMarker := by
  intro a ha
  unfold endMarker
  cases it with
  | short c form v =>
    obtain ⟨hc, ⟨d, hd, rfl⟩, hform⟩ := hit
    have hcd := (hD.shortChars _ (mem_shortIds_option hd hc)).2
    cases form with
    | attached => simp [Item.render] at ha; subst ha; simp [hcd]
    | equals => simp [Item.render] at ha; subst ha; simp
    | separate =>
      simp [Item.render] at ha
      rcases ha with rfl | rfl
      · simp [hcd]
      · exact hform.2
  | long s sep v =>
    obtain ⟨hs, _, hsep⟩ := hit
    cases sep with
    | false => simp [Item.render] at ha; subst ha; simp
    | true =>
      simp [Item.render] at ha
      rcases ha with rfl | rfl
      · simp [hs]
      · exact hsep.2
  | flags cs =>
    simp [Item.render] at ha
    subst ha
    intro he
    simp at he
    obtain ⟨h0, f, hf, hfs⟩ := hit.2 '-' (by simp [he])
    exact flag_short_ne_dash hD hf hfs
  | longFlag s => simp [Item.render] at ha; subst ha; simp [hit.1]
  | word w =>
    simp [Item.render] at ha
    subst ha
    intro he
    have := hit.2
    rw [he] at this
    simp at this

/-- `--` and what follows. -/
def tailCells : Option (List Str) → List Str
  | none => []
  | some ws => endMarker :: ws

theorem split_line {W : Type} {D : Decls W} (hD : IdsOk D) (items : List Item) (hit : ∀ it ∈ items, it.Ok D)
    (tail : Option (List Str)) :
    (renderLine items tail).takeWhile (fun a => a ≠ endMarker) = items.flatMap Item.render ∧
    (renderLine items tail).dropWhile (fun a => a ≠ endMarker) =
      tailCells tail := by
  have hall : ∀ a ∈ items.flatMap Item.render, decide (a ≠ endMarker) = true := by
    intro a ha
    obtain ⟨it, hi, ha⟩ := List.mem_flatMap.1 ha
    simpa using render_ne_endMarker hD it (hit it hi) a ha
  unfold renderLine
  rw [List.takeWhile_append_of_pos hall, List.dropWhile_append_of_pos hall]
  cases tail with
  | none => simp [tailCells]
  | some ws => simp [tailCells, endMarker, List.takeWhile_cons, List.dropWhile_cons]

theorem stage_none (items : List Item) : stage (doneBy (W := W) []) items = items.flatMap Item.render := by
  unfold stage
  congr 1

theorem flagCell_none_of_not_eaten (c : Char) (w : Str) (h : ¬ EatenBy c w) : flagCell c w = none := by
  unfold flagCell
  split
  · split
    · rename_i y t hy
      exact absurd ⟨y, t, rfl, hy⟩ h
    · rfl
  · rfl

theorem tail_no_flag {W : Type} {D : Decls W} {items : List Item} {tail : Option (List Str)}
    (hl : LineOk D items tail) (f : FlagDecl) (hf : f ∈ D.flags) :
    flagShort f.short (tailCells tail) = none := by
  cases tail with
  | none => rfl
  | some ws =>
    apply flagShort_none
    intro a ha
    simp only [tailCells, List.mem_cons] at ha
    rcases ha with rfl | ha
    · rfl
    · exact flagCell_none_of_not_eaten _ _ ((hl.tailOk ws rfl a ha).2 f hf)

theorem remaining_final {W : Type} {D : Decls W} {items : List Item} {tail : Option (List Str)}
    (hl : LineOk D items tail) (hit : ∀ it ∈ items, it.Ok D) :
    remaining (flagStage (removedShort D.flags) (removedLong D.flags) items ++
        blankHead (tailCells tail)) = words items tail := by
  rw [remaining_append]
  have h1 := (flagStage_final items hit).1
  unfold words
  rw [remaining, h1]
  congr 1
  cases tail with
  | none => simp [remaining, tailCells, blankHead]
  | some ws =>
    simp only [remaining, tailCells, blankHead, Option.getD_some]
    simp
    intro a ha
    exact (hl.tailOk ws rfl a ha).1

theorem checkForUnknownIds_run {W : Type} (s : FState W) (h : ∀ a ∈ s.pre, looksLikeId a = false) :
    checkForUnknownIds s = .ok () s := by
  unfold checkForUnknownIds
  rw [if_neg]
  simp
  exact h

theorem formatParse_of_means {W : Type} (nd : Bool) {D : Decls W} (hD : IdsOk D) (items : List Item)
    (tail : Option (List Str)) (hl : LineOk D items tail) (st : Store) (w : W) (st' : Store) (w' : W)
    (hm : LineMeans D items tail st w st' w') :
    ∃ s, formatParse nd D (renderLine items tail) st w = .ok () s ∧ s.store = st' ∧ s.world = w' := by
  obtain ⟨st1, w1, hopt, hpos⟩ := hm
  obtain ⟨hsp1, hsp2⟩ := split_line hD items hl.itemsOk tail
  unfold formatParse parseBody
  rw [hsp1, hsp2]
  simp only [M.bind_run]
  rw [options_stage hD items (fun it h => (hl.itemsOk it h).loose hD) hl.listsUniform nd D.options [] _ st1 w1 rfl (stage_none items).symm hopt]
  dsimp only
  rw [flags_stage hD items hl.itemsOk hl.flagsOnce D.flags [] _ rfl
    (stage_eq_flagStage items hl.itemsOk) (fun f hf => tail_no_flag hl f hf)]
  dsimp only
  rw [checkForUnknownIds_run _ (by exact (flagStage_final items hl.itemsOk).2)]
  simp only [blankEndOfOptions, M.modify_run]
  obtain ⟨s', h1, h2, h3⟩ := positionals_of_mean nd D.positionals
    { pre := flagStage (removedShort D.flags) (removedLong D.flags) items ++
        blankHead (tailCells tail)
      post := [], store := setFlags items D.flags st1, world := w1 } st' w'
    (by rw [remaining_final hl hl.itemsOk]; exact hpos)
  refine ⟨s', ?_, h2, h3⟩
  rw [M.bind_run] at h1
  exact h1

theorem means_of_formatParse {W : Type} (nd : Bool) {D : Decls W} (hD : IdsOk D) (items : List Item)
    (tail : Option (List Str)) (hl : LineOk D items tail) (st : Store) (w : W) (s : FState W) (u : Unit)
    (hnd : nd = false ∨ ListsRepresentable D items tail)
    (h : formatParse nd D (renderLine items tail) st w = .ok u s) :
    LineMeans D items tail st w s.store s.world := by
  obtain ⟨hsp1, hsp2⟩ := split_line hD items hl.itemsOk tail
  unfold formatParse parseBody at h
  rw [hsp1, hsp2] at h
  rw [M.bind_eq_ok] at h
  obtain ⟨u1, s1, h1, h2⟩ := h
  obtain ⟨p1, p2, hopt⟩ := options_stage_conv hD items (fun it h => (hl.itemsOk it h).loose hD) hl.listsUniform nd (fun d hd hl t ht => hnd.imp id (fun h => h.1 d hd hl t ht))
    D.options [] _ s1 u1 rfl (stage_none items).symm h1
  rw [M.bind_run, flags_stage hD items hl.itemsOk hl.flagsOnce D.flags [] _ rfl
    (p1.trans (stage_eq_flagStage items hl.itemsOk)) (fun f hf => by rw [p2]; exact tail_no_flag hl f hf)] at h2
  dsimp only at h2
  rw [M.bind_run, checkForUnknownIds_run _ (by exact (flagStage_final items hl.itemsOk).2)] at h2
  simp only [M.bind_run, blankEndOfOptions, M.modify_run] at h2
  have hrf := remaining_final hl hl.itemsOk
  have := positionals_mean_of nd D.positionals
    ⟨flagStage (removedShort D.flags) (removedLong D.flags) items ++ blankHead s1.post, [],
      setFlags items D.flags s1.store, s1.world⟩ s u
    (by
      intro d hd hl' t ht
      dsimp only at ht p2
      rw [p2, hrf] at ht
      exact hnd.imp id (fun h => h.2 d hd hl' t ht)) (by rw [M.bind_run]; exact h2)
  dsimp only at this p2
  rw [p2, remaining_final hl hl.itemsOk] at this
  exact ⟨s1.store, s1.world, hopt, this⟩

end Sharg
