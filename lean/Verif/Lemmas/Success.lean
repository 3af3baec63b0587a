import Verif.Lemmas.Exact
import Verif.Lemmas.Returned

/-!
# More about successful runs on arbitrary arguments
-/

set_option linter.unusedSimpArgs false

namespace Sharg

open Spec

variable {W : Type}

/-! ### Arguments behind `--` survive scanning -/

theorem requests_reserved {f : Format} {args : List Str} (h : Requests f args) :
    (∃ a rest, args = a :: rest ∧ Reserved a) ∧ ∀ a ∈ args, a ≠ ['-', '-'] := by
  cases h <;> refine ⟨⟨_, _, rfl, ?_⟩, ?_⟩ <;>
    first | decide | exact Or.inl (by decide) | exact Or.inr ⟨_, rfl⟩

theorem kept_unreserved (options : List Str) (toks : List Tok) (stop : Stop) (hok : ∀ t ∈ toks, t.Ok options [])
    (hs : stop.Ok options []) (hexn : stop.exn? = none) :
    ∀ b, (∀ w ∈ b, ¬ Reserved w) → renderToks toks ++ stop.render = b → kept toks ++ stop.kept = b := by
  induction toks with
  | nil =>
    intro b _ h
    cases stop <;> simp [Stop.exn?] at hexn <;> simp [renderToks, kept, Stop.render, Stop.kept] at h ⊢ <;> try exact h
    exact absurd hs.2 (by simp)
  | cons t toks ih =>
    intro b hb h
    have ih := ih (fun t ht => hok t (by simp [ht]))
    have ht := hok t (by simp)
    simp only [renderToks, kept, List.flatMap_cons, List.append_assoc] at h ⊢
    subst h
    have ih := ih _ (fun w hw => hb w (List.mem_append_right _ hw)) rfl
    simp only [renderToks, kept] at ih
    rw [ih]
    congr 1
    cases t with
    | option o v => rfl
    | plain a => rfl
    | request f args =>
      exfalso
      obtain ⟨⟨a, rest, rfl, hr⟩, _⟩ := requests_reserved ht.1
      exact hb a (by simp [Tok.render]) hr
    | check c v => exact absurd (Or.inl (by decide)) (hb "--version-check".toList (by simp [Tok.render]))

/-- Without reserved words behind `--`, everything from `--` on survives scanning. -/
theorem kept_behind (options : List Str) (toks : List Tok) (stop : Stop) (hok : ∀ t ∈ toks, t.Ok options [])
    (hs : stop.Ok options []) (hexn : stop.exn? = none) (b : List Str) (hb : ∀ w ∈ b, ¬ Reserved w) :
    ∀ a, renderToks toks ++ stop.render = a ++ ['-', '-'] :: b →
      ∃ a', kept toks ++ stop.kept = a' ++ ['-', '-'] :: b ∧ a'.Sublist a := by
  induction toks with
  | nil =>
    intro a h
    simp only [renderToks, kept, List.flatMap_nil, List.nil_append] at h ⊢
    cases stop with
    | atEnd => simp [Stop.render] at h
    | lastOption o =>
      cases a with
      | nil => exact ⟨[], by simpa [Stop.kept, Stop.render] using h, List.Sublist.refl _⟩
      | cons x a => simp [Stop.render] at h
    | subcommand s rest => exact absurd hs.2 (by simp)
    | _ => simp [Stop.exn?] at hexn
  | cons t toks ih =>
    intro a h
    have hok' : ∀ t ∈ toks, t.Ok options [] := fun t ht => hok t (by simp [ht])
    have ht := hok t (by simp)
    have hrest := kept_unreserved options toks stop hok' hs hexn b hb
    have ih := ih hok'
    simp only [renderToks, kept, List.flatMap_cons, List.append_assoc] at h ih hrest ⊢
    have hskip : ∀ (front : List Str), (∀ x ∈ front, x ≠ ['-', '-']) →
        front ++ (toks.flatMap Tok.render ++ stop.render) = a ++ ['-', '-'] :: b →
        ∃ a₂, a = front ++ a₂ ∧ toks.flatMap Tok.render ++ stop.render = a₂ ++ ['-', '-'] :: b := by
      intro front
      clear h
      induction front generalizing a with
      | nil => exact fun _ h => ⟨a, rfl, h⟩
      | cons x front ihf =>
        intro hx he
        cases a with
        | nil => injection he with e1 _; exact absurd e1 (hx x (by simp))
        | cons y a =>
          injection he with e1 e2
          subst e1
          obtain ⟨a₂, rfl, e⟩ := ihf a (fun z hz => hx z (by simp [hz])) e2
          exact ⟨a₂, rfl, e⟩
    cases t with
    | option o v =>
      simp only [Tok.render, Tok.kept, List.cons_append, List.nil_append] at h ⊢
      cases a with
      | nil =>
        injection h with e1 e2
        subst e1
        refine ⟨[], ?_, List.Sublist.refl _⟩
        rw [List.nil_append, ← e2]
        congr 2
        exact kept_unreserved options toks stop hok' hs hexn _ (fun w hw => hb w (e2 ▸ List.mem_cons_of_mem _ hw)) rfl
      | cons x a =>
        injection h with e1 e2
        subst e1
        cases a with
        | nil =>
          injection e2 with e1 e3
          subst e1
          exact ⟨[o], by rw [hrest e3]; rfl, List.Sublist.refl _⟩
        | cons y a =>
          injection e2 with e1 e3
          subst e1
          obtain ⟨a', h1, h2⟩ := ih a e3
          exact ⟨o :: v :: a', by rw [h1]; rfl, (h2.cons_cons v).cons_cons o⟩
    | plain x =>
      simp only [Tok.render, Tok.kept, List.cons_append, List.nil_append] at h ⊢
      cases a with
      | nil =>
        injection h with e1 e2
        subst e1
        exact ⟨[], by rw [hrest e2]; rfl, List.Sublist.refl _⟩
      | cons y a =>
        injection h with e1 e3
        subst e1
        obtain ⟨a', h1, h2⟩ := ih a e3
        exact ⟨x :: a', by rw [h1]; rfl, h2.cons_cons x⟩
    | request f args =>
      obtain ⟨a₂, rfl, e⟩ := hskip args (requests_reserved ht.1).2 h
      obtain ⟨a', h1, h2⟩ := ih a₂ e
      exact ⟨a', by simpa [Tok.kept] using h1, h2.trans (List.sublist_append_right _ _)⟩
    | check c v =>
      have hv : v ≠ ['-', '-'] := by
        have := ht.1
        unfold CheckValue at this
        split at this <;> rcases this with rfl | rfl <;> decide
      obtain ⟨a₂, rfl, e⟩ := hskip ["--version-check".toList, v] (by
        intro x hx; simp at hx; rcases hx with rfl | rfl
        · decide
        · exact hv) h
      obtain ⟨a', h1, h2⟩ := ih a₂ e
      exact ⟨a', by simpa [Tok.kept] using h1, h2.trans (List.sublist_append_right _ _)⟩

theorem before_behind (a b : List Str) (ha : ['-', '-'] ∉ a) :
    before (a ++ ['-', '-'] :: b) = a ∧ behind (a ++ ['-', '-'] :: b) = b := by
  induction a with
  | nil => constructor <;> simp [before, behind]
  | cons x a ih =>
    have hx : x ≠ ['-', '-'] := fun e => ha (by simp [e])
    obtain ⟨h1, h2⟩ := ih (fun h => ha (by simp [h]))
    unfold before behind at *
    constructor
    · rw [List.cons_append, List.takeWhile_cons_of_pos (by simpa using hx), h1]
    · rw [List.cons_append, List.dropWhile_cons_of_pos (by simpa using hx), h2]

/-! ### Options: what happened to the variable -/

theorem keeps_options {x : VarId} (nd : Bool) (ds : List (OptDecl W)) (h : ∀ d ∈ ds, x ≠ d.var) :
    Keeps x (M.forEach (getOption nd) ds) := keeps_forEach _ fun d hd => keeps_getOption nd d (h d hd)

theorem keeps_flags {x : VarId} (ds : List FlagDecl) (h : ∀ d ∈ ds, x ≠ d.var) :
    Keeps (W := W) x (M.forEach getFlag ds) := keeps_forEach _ fun d hd => keeps_getFlag d (h d hd)

/-- After a successful run, the variable of an option has its old value or one that its validator accepted; the latter
if the option is named by an argument that is not a possible value. -/
theorem option_final {D : Decls W} (hD : IdsOk D) (hv : VarsDistinct D) {d : OptDecl W} (hd : d ∈ D.options) (nd : Bool)
    {args : List Str} {st : Store} {w : W} {s : FState W} (ph : Phases nd D args st w s) :
    (s.store d.var = st d.var ∧ d.required = false ∧ ∀ a ∈ free D false (before args), ¬ Names d a) ∨
    ((∃ u u', d.validator (s.store d.var) u = (true, u')) ∧
      ∃ vs vl, vs ++ vl ≠ [] ∧ optValue nd d vs vl = some (s.store d.var)) := by
  obtain ⟨front, back, hsplit⟩ := List.append_of_mem hd
  obtain ⟨s1, s2, u1, v1, l1, v2, l2, h1, _, h3, _, hcount, e1, e2, h5⟩ := options_at hD hsplit nd _ _ _ ph.optRun
  unfold VarsDistinct at hv
  rw [hsplit] at hv
  simp only [List.map_append, List.map_cons, List.nodup_append, List.nodup_cons, List.mem_append, List.mem_map,
    List.mem_cons] at hv
  obtain ⟨⟨⟨_, ⟨hb, _⟩, hfr⟩, _, hfl⟩, _, hpo⟩ := hv
  have k1 : ∀ e ∈ front, d.var ≠ e.var := fun e he h => hfr _ ⟨e, he, rfl⟩ _ (Or.inl rfl) h.symm
  have k2 : ∀ e ∈ back, d.var ≠ e.var := fun e he h => hb ⟨e, he, h.symm⟩
  have k3 : ∀ e ∈ D.flags, d.var ≠ e.var := fun e he => hfl _ (Or.inr (Or.inl rfl)) _ ⟨e, he, rfl⟩
  have k4 : ∀ e ∈ D.positionals, d.var ≠ e.var := fun e he =>
    hpo _ (Or.inl (Or.inr (Or.inl rfl))) _ ⟨e, he, rfl⟩
  have f1 := keeps_options nd front k1 ⟨before args, args.dropWhile (· ≠ endMarker), st, w⟩
  rw [h1] at f1
  have f2 := keeps_options nd back k2 s2
  rw [h3] at f2
  have f3 := keeps_flags D.flags k3 ph.opt
  rw [ph.flgRun] at f3
  have f4 := keeps_bind (keeps_runPositionals nd D.positionals k4) (fun _ => keeps_leftOver d.var)
    { ph.flg with pre := ph.flg.pre ++ blankHead ph.flg.post, post := [] }
  rw [ph.posRun] at f4
  simp only [Res.state] at f1 f2 f3 f4
  rw [f4, f3, f2]
  rcases h5 with ⟨rfl, rfl, hq, rfl⟩ | ⟨hne, val, w', hval, hacc, rfl⟩
  · left
    refine ⟨f1, hq, ?_⟩
    have hc : ∀ id, IdOf d id → count D id false (before args) = 0 := by
      intro id hid
      refine Nat.le_zero.1 (Nat.le_trans (hcount id hid) ?_)
      have hopt : OptId D id := by
        rcases hid with ⟨h0, rfl⟩ | ⟨h0, rfl⟩ <;> exact ⟨h0, d, hd, rfl⟩
      rcases hid with ⟨h0, rfl⟩ | ⟨h0, rfl⟩
      · exact consumeId_count hopt (by simp [Id.isEmpty, h0]) e1
      · have := consumeId_vals_nil _ _ _ e1
        rw [this] at e2
        exact consumeId_count hopt (by simp [Id.isEmpty, h0]) e2
    intro a ha hn
    obtain ⟨id, hid, hh⟩ := (names_iff d a).1 hn
    have := hc id hid
    unfold count at this
    rw [List.length_eq_zero_iff, List.filter_eq_nil_iff] at this
    exact this a ha hh
  · right
    simp only [Store.set_self]
    refine ⟨⟨_, _, hacc⟩, v1, v2, ?_, hval⟩
    intro h
    rw [List.append_eq_nil_iff] at h
    exact hne h

/-! ### Options that are not named do nothing -/

theorem dropWhile_nil {α : Type} (p : α → Bool) (l : List α) (h : ∀ a ∈ l, p a = true) : l.dropWhile p = [] := by
  induction l with
  | nil => rfl
  | cons a l ih => rw [List.dropWhile_cons_of_pos (h a (by simp)), ih (fun b hb => h b (by simp [hb]))]

theorem getOption_unnamed (nd : Bool) (d : OptDecl W) (s : FState W) (h : ∀ a ∈ s.pre, ¬ Names d a) :
    getOption nd d s = if d.required then .err .requiredOptionMissing s else .ok () s := by
  have hid : ∀ id : Id, (id.isEmpty = true ∨ IdOf d id) → getOptionById nd d id s = .ok false s := by
    intro id hid
    have hf : (findOptionId id s.pre).2 = [] := by
      unfold findOptionId
      split
      · rfl
      · rename_i he
        have hid : IdOf d id := by
          rcases hid with h | h
          · exact absurd h he
          · exact h
        simp only
        refine dropWhile_nil _ _ fun a ha => ?_
        simp only [Bool.not_eq_true']
        cases hh : id.hits a with
        | false => rfl
        | true => exact absurd ((names_iff d a).2 ⟨id, hid, hh⟩) (h a ha)
    obtain ⟨x, y⟩ : ∃ x, findOptionId id s.pre = (x, []) := ⟨(findOptionId id s.pre).1, by rw [← hf]⟩
    unfold getOptionById
    split
    · unfold getOptionByIdList; rw [y]
    · unfold getOptionByIdScalar; rw [y]
  unfold getOption
  simp only [M.bind_run, hid _ (idOf_short d), hid _ (idOf_long d), Bool.false_and, Bool.false_eq_true, if_false, Bool.or_self]
  split <;> rfl

/-- Replacing the validator of an option that is not named changes nothing. -/
theorem options_validator (nd : Bool) (front back : List (OptDecl W)) (d : OptDecl W) (v : Val → W → Bool × W) (s : FState W)
    (h : ∀ a ∈ s.pre, ¬ Names d a) :
    M.forEach (getOption nd) (front ++ { d with validator := v } :: back) s = M.forEach (getOption nd) (front ++ d :: back) s := by
  rw [forEach_append, forEach_append, M.bind_run, M.bind_run]
  cases h1 : M.forEach (getOption nd) front s with
  | err e s1 => rfl
  | ok u s1 =>
    simp only
    rw [M.forEach_cons, M.forEach_cons, M.bind_run, M.bind_run]
    have hm := (options_done (D := ⟨front, [], []⟩) nd s.pre front [] s s1 u rfl
      ⟨uses_refl _, by simp, fun a ha => Or.inr ha⟩ h1).1.mem
    have hn : ∀ a ∈ s1.pre, ¬ Names d a := by
      intro a ha
      rcases hm a ha with rfl | ha
      · exact not_names_nil d
      · exact h a ha
    rw [getOption_unnamed nd d s1 hn, getOption_unnamed nd { d with validator := v } s1 hn]

end Sharg

namespace Sharg

open Spec

variable {W : Type}

/-! ### Bad elements of lists -/

/-- The exception an element text that denotes no value gives. -/
theorem lift_append_bad (nd : Bool) {ty : ElemTy} (x : VarId) {t : Str} (h : BadText ty t) (c : Core W) :
    (¬ OutOfRange ty t → lift (appendList nd ty x t) c = .err .userInputError c) ∧
    (OutOfRange ty t → nd = false → lift (appendList nd ty x t) c = .err .assertFailed c) ∧
    (OutOfRange ty t → nd = true → lift (appendList nd ty x t) c = .ok () c) := by
  rw [← parseElem_outOfRange]
  obtain ⟨h1, h2⟩ := h
  cases hp : parseElem ty t with
  | error e =>
    have he : e = .userInputError := by
      cases ty with
      | enumeration names =>
        simp only [parseElem, parseEnum] at hp
        have := h2 names rfl
        split at hp
        · simp at hp
        · rw [if_neg (by simpa using this)] at hp; simpa using hp.symm
      | _ => simp [parseElem] at hp
    subst he
    refine ⟨fun _ => ?_, ?_, ?_⟩
    · unfold lift appendList; rw [hp]; rfl
    · rintro ⟨w, h⟩; simp at h
    · rintro ⟨w, h⟩; simp at h
  | ok r =>
    obtain ⟨res, written⟩ := r
    cases res with
    | success =>
      obtain ⟨e, _, he⟩ := parseElem_success ty t written hp
      exact absurd ((readElem_iff ty t e).1 he) (h1 e)
    | error =>
      refine ⟨fun _ => ?_, ?_, ?_⟩
      · unfold lift appendList; rw [hp]; rfl
      · rintro ⟨w, h⟩; simp at h
      · rintro ⟨w, h⟩; simp at h
    | overflowError =>
      refine ⟨fun h => absurd ⟨written, rfl⟩ h, ?_, ?_⟩
      · rintro _ rfl; unfold lift appendList; rw [hp]; rfl
      · rintro _ rfl; unfold lift appendList; rw [hp]; rfl

theorem appends_bad (nd : Bool) {ty : ElemTy} (x : VarId) (good more : List Str) (es : List Elem) (t : Str)
    (hg : DenoteAll ty good es) (e : Exn) (hb : ∀ c : Core W, lift (appendList nd ty x t) c = .err e c) (st : Store) (w : W) :
    M.forEach (fun t => lift (appendList nd ty x t)) (good ++ t :: more) (st.set x (.many []), w) =
      .err e (st.set x (.many es), w) := by
  rw [forEach_append, M.bind_run, lift_appends nd x good [] es st w hg]
  dsimp only
  rw [M.forEach_cons, M.bind_run, hb]
  rfl

theorem absOption_list_bad (nd : Bool) (d : OptDecl W) (hl : d.isList = true) (good more : List Str) (es : List Elem) (t : Str)
    (hg : DenoteAll d.ty good es) (e : Exn) (hb : ∀ c : Core W, lift (appendList nd d.ty d.var t) c = .err e c) (c : Core W) :
    absOption nd d (good ++ t :: more) [] c = .err e (c.1.set d.var (.many es), c.2) := by
  have h1 : lift (setVar d.var (.many [])) c = .ok () (c.1.set d.var (.many []), c.2) := rfl
  have h2 := appends_bad nd d.var good more es t hg e hb c.1 c.2
  unfold absOption absById
  simp only [hl, if_true]
  cases hts : good ++ t :: more with
  | nil => simp at hts
  | cons y ys =>
    rw [hts] at h2
    simp only [absList, M.bind_run, h1, h2]

theorem absPositionals_list_bad (nd : Bool) (p : PosDecl W) (hp : p.isList = true) (good more : List Str) (es : List Elem)
    (t : Str) (hg : DenoteAll p.ty good es) (e : Exn) (hb : ∀ c : Core W, lift (appendList nd p.ty p.var t) c = .err e c)
    (c : Core W) : absPositionals nd [p] (good ++ t :: more) c = .err e (c.1.set p.var (.many es), c.2) := by
  have h1 : lift (setVar p.var (.many [])) c = .ok () (c.1.set p.var (.many []), c.2) := rfl
  have h2 := appends_bad nd p.var good more es t hg e hb c.1 c.2
  cases hts : good ++ t :: more with
  | nil => simp at hts
  | cons y ys =>
    rw [hts] at h2
    simp only [absPositionals, absPositional, hp, if_true, List.isEmpty_nil, Bool.not_true, Bool.and_false,
      Bool.false_eq_true, if_false, M.bind_run, h1, h2]

/-! ### Flags and the arguments behind `--` -/

theorem flagShort_none_of (f : FlagDecl) (l : List Str) (h : ∀ a ∈ l, ¬ InGroup f a) (hc : f.short ≠ '-') :
    flagShort f.short l = none := by
  cases hx : flagShort f.short l with
  | none => rfl
  | some l' =>
    obtain ⟨l1, a, a', l2, rfl, _, hcell, _⟩ := flagShort_spec _ _ _ hx
    obtain ⟨y, t, rfl, hy, hmem, _⟩ := flagCell_spec _ hc _ _ hcell
    exact absurd ⟨y :: t, rfl, by simpa using hy, hmem⟩ (h _ (by simp))

theorem flags_post (fs : List FlagDecl) : ∀ (s s' : FState W) (u : Unit), (∀ f ∈ fs, f.short ≠ '-') →
    (∀ f ∈ fs, ∀ a ∈ s.post, ¬ InGroup f a) → M.forEach getFlag fs s = .ok u s' → s'.post = s.post := by
  induction fs with
  | nil => intro s s' u _ _ h; cases h; rfl
  | cons f fs ih =>
    intro s s' u hd hn h
    rw [M.forEach_cons, M.bind_eq_ok] at h
    obtain ⟨u1, s1, h1, h2⟩ := h
    have e1 : s1.post = s.post := by
      unfold getFlag at h1
      rw [flagShort_none_of f s.post (hn f (by simp)) (hd f (by simp))] at h1
      split at h1
      · cases h1; rfl
      · split at h1
        · rename_i hp; cases hp
        · split at h1 <;> cases h1 <;> rfl
    rw [← e1]
    exact ih s1 s' u (fun g hg => hd g (by simp [hg])) (fun g hg a ha => hn g (by simp [hg]) a (e1 ▸ ha)) h2

end Sharg
