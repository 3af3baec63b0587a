import Verif.Lemmas.PathValue
import Verif.Lemmas.World
import Verif.Props.Success
import Verif.Props.Files
import Verif.Props.Crash
import Verif.Spec.PathCheck

/-!
# In which world a value was checked
-/

namespace Sharg

open Spec

variable {W : Type}

/-- As `option_final`, with the worlds in which the validator was called and returned: what the validators of the options registered before keep holds
when it is called; what the validators of the others keep, holds at the end if it held when the validator returned. -/
theorem option_world {D : Decls W} (hD : IdsOk D) (hv : VarsDistinct D) {front back : List (OptDecl W)} {d : OptDecl W}
    (hsplit : D.options = front ++ d :: back) (nd : Bool)
    {args : List Str} {st : Store} {w : W} {s : FState W} (ph : Phases nd D args st w s)
    (hn : ∃ a ∈ free D false (before args), Names d a) :
    ∃ u u', d.validator (s.store d.var) u = (true, u') ∧
      (∀ P : W → Prop, (∀ e ∈ front, ValidatorKeeps P e.validator) → P w → P u) ∧
      (∀ P : W → Prop, (∀ e ∈ back, ValidatorKeeps P e.validator) → (∀ e ∈ D.positionals, ValidatorKeeps P e.validator) → P u' → P s.world) := by
  have hd : d ∈ D.options := by rw [hsplit]; simp
  obtain ⟨s1, s2, u1, v1, l1, v2, l2, h1, _, h3, _, hcount, e1, e2, h5⟩ := options_at hD hsplit nd _ _ _ ph.optRun
  unfold VarsDistinct at hv
  rw [hsplit] at hv
  simp only [List.map_append, List.map_cons, List.nodup_append, List.nodup_cons, List.mem_append, List.mem_map,
    List.mem_cons] at hv
  obtain ⟨⟨⟨_, ⟨hb, _⟩, hfr⟩, _, hfl⟩, _, hpo⟩ := hv
  have k2 : ∀ e ∈ back, d.var ≠ e.var := fun e he h => hb ⟨e, he, h.symm⟩
  have k3 : ∀ e ∈ D.flags, d.var ≠ e.var := fun e he => hfl _ (Or.inr (Or.inl rfl)) _ ⟨e, he, rfl⟩
  have k4 : ∀ e ∈ D.positionals, d.var ≠ e.var := fun e he =>
    hpo _ (Or.inl (Or.inr (Or.inl rfl))) _ ⟨e, he, rfl⟩
  have f2 := keeps_options nd back k2 s2
  rw [h3] at f2
  have f3 := keeps_flags D.flags k3 ph.opt
  rw [ph.flgRun] at f3
  have f4 := keeps_bind (keeps_runPositionals nd D.positionals k4) (fun _ => keeps_leftOver d.var)
    { ph.flg with pre := ph.flg.pre ++ blankHead ph.flg.post, post := [] }
  rw [ph.posRun] at f4
  simp only [Res.state] at f2 f3 f4
  rw [f4, f3, f2]
  rcases h5 with ⟨rfl, rfl, hq, rfl⟩ | ⟨hne, val, w', hval, hacc, rfl⟩
  · exfalso
    have hc : ∀ id, IdOf d id → count D id false (before args) = 0 := by
      intro id hid
      refine Nat.le_zero.1 (Nat.le_trans (hcount id hid) ?_)
      have hopt : OptId D id := by
        rcases hid with ⟨h0, rfl⟩ | ⟨h0, rfl⟩ <;> exact ⟨h0, d, hd, rfl⟩
      rcases hid with ⟨h0, rfl⟩ | ⟨h0, rfl⟩
      · exact consumeId_count hopt (by simp [Id.isEmpty, h0]) e1
      · have := consumeId_vals_nil _ _ _ e1
        rw [this] at e2
        exact consumeId_count hopt (by simp [Id.isEmpty, h0]) e2
    obtain ⟨a, ha, hn⟩ := hn
    obtain ⟨id, hid, hh⟩ := (names_iff d a).1 hn
    have := hc id hid
    unfold count at this
    rw [List.length_eq_zero_iff, List.filter_eq_nil_iff] at this
    exact this a ha hh
  · simp only [Store.set_self]
    refine ⟨_, _, hacc, fun P hP hw => ?_, fun P hP hP' hw => ?_⟩
    · have := guards_forEach (P := P) front (fun e he => guards_getOption nd e (hP e he))
        ⟨before args, args.dropWhile (· ≠ endMarker), st, w⟩ hw
      rw [h1] at this
      exact this
    · have g2 := guards_forEach (P := P) back (fun e he => guards_getOption nd e (hP e he))
        { s1 with pre := l2, store := s1.store.set d.var val, world := w' } hw
      rw [h3] at g2
      have g3 := guards_forEach (P := P) D.flags (fun f _ => guards_getFlag P f) ph.opt g2
      rw [ph.flgRun] at g3
      have g4 := guards_bind (guards_runPositionals (P := P) nd D.positionals hP')
        (fun _ => guards_same (P := P) (m := checkForLeftOverArgs) fun s => by unfold checkForLeftOverArgs; split <;> rfl)
        { ph.flg with pre := ph.flg.pre ++ blankHead ph.flg.post, post := [] } g3
      rw [ph.posRun] at g4
      exact g4

/-- The same for positional options. -/
theorem positional_world (ds : List (PosDecl W)) : ∀ (ws : List Str) (st : Store) (w : W) (st' : Store) (w' : W),
    (ds.map (·.var)).Nodup → PositionalsMean ds ws st w st' w' → ∀ d ∈ ds,
    ∃ u u', d.validator (st' d.var) u = (true, u') ∧ ∀ P : W → Prop, (∀ e ∈ ds, ValidatorKeeps P e.validator) → P w → P u ∧ P w' := by
  induction ds with
  | nil => simp
  | cons d ds ih =>
    intro ws st w st' w' hnd hm e he
    rw [List.map_cons, List.nodup_cons] at hnd
    have hfresh : ∀ e ∈ ds, e.var ≠ d.var := fun e he h => hnd.1 (List.mem_map.2 ⟨e, he, h⟩)
    unfold PositionalsMean at hm
    split at hm
    · obtain ⟨rfl, _, val, _, hacc, rfl⟩ := hm
      rw [List.mem_singleton] at he
      subst he
      refine ⟨w, w', by rw [Store.set_self]; exact hacc, fun P hP hw => ⟨hw, ?_⟩⟩
      have := hP e (.head _) val w hw
      rw [hacc] at this
      exact this
    · obtain ⟨t, ts, val, w₁, _, _, hacc, hm⟩ := hm
      have step : ∀ P : W → Prop, (∀ e ∈ d :: ds, ValidatorKeeps P e.validator) → P w → P w₁ := by
        intro P hP hw
        have := hP d (.head _) val w hw
        rw [hacc] at this
        exact this
      rcases List.mem_cons.1 he with rfl | he
      · obtain ⟨_, _, hf⟩ := positionals_delivered ds ts _ _ _ _ hnd.2 hm
        refine ⟨w, w₁, by rw [hf _ hfresh, Store.set_self]; exact hacc, fun P hP hw => ⟨hw, ?_⟩⟩
        exact (meanKeeps ds ts _ _ _ _ hm P (fun e he => hP e (.tail _ he)) (step P hP hw))
      · obtain ⟨u, u', h1, h2⟩ := ih ts _ _ _ _ hnd.2 hm e he
        exact ⟨u, u', h1, fun P hP hw => h2 P (fun e he => hP e (.tail _ he)) (step P hP hw)⟩
where
  meanKeeps (ds : List (PosDecl W)) : ∀ (ws : List Str) (st : Store) (w : W) (st' : Store) (w' : W), PositionalsMean ds ws st w st' w' →
      ∀ P : W → Prop, (∀ e ∈ ds, ValidatorKeeps P e.validator) → P w → P w' := by
    induction ds with
    | nil => rintro ws st w st' w' ⟨_, _, rfl⟩ P _ hw; exact hw
    | cons d ds ih =>
      intro ws st w st' w' hm P hP hw
      unfold PositionalsMean at hm
      split at hm
      · obtain ⟨rfl, _, val, _, hacc, rfl⟩ := hm
        have := hP d (.head _) val w hw
        rw [hacc] at this
        exact this
      · obtain ⟨t, ts, val, w₁, _, _, hacc, hm⟩ := hm
        have := hP d (.head _) val w hw
        rw [hacc] at this
        exact ih ts _ _ _ _ hm P (fun e he => hP e (.tail _ he)) this

/-- Two systems with the same files and the same current directory. -/
def sameFiles (d : Disk) (c : Loc) (s : System) : Prop := s.disk = d ∧ s.cwd = c

theorem keeps_files {v : Val → System → Bool × System} (h : LeavesFiles v) (d : Disk) (c : Loc) : ValidatorKeeps (sameFiles d c) v := by
  intro x s hs
  obtain ⟨h1, h2⟩ := h x s
  exact ⟨h1.trans hs.1, h2.trans hs.2⟩

theorem nameOf_unique {p name : Str} (h : NameOf p name) : fileName p = name := by
  obtain ⟨h1, rfl | ⟨dir, rfl⟩⟩ := h
  · unfold fileName
    rw [← List.append_nil p.reverse, List.takeWhile_append_of_pos, List.takeWhile_nil, List.append_nil, List.reverse_reverse]
    intro x hx
    rw [List.mem_reverse] at hx
    simp only [ne_eq, decide_not, Bool.not_eq_eq_eq_not, Bool.not_true, decide_eq_false_iff_not]
    rintro rfl
    exact h1 hx
  · unfold fileName
    rw [List.reverse_append, List.reverse_cons, List.append_assoc, List.takeWhile_append_of_pos, List.singleton_append, List.takeWhile_cons_of_neg,
      List.append_nil, List.reverse_reverse]
    · simp
    · intro x hx
      rw [List.mem_reverse] at hx
      simp only [ne_eq, decide_not, Bool.not_eq_eq_eq_not, Bool.not_true, decide_eq_false_iff_not]
      rintro rfl
      exact h1 hx

theorem elemPath_path (p : Str) : elemPath (pathElem p) = some p := by
  show some (pathText (pathCode p)) = _
  rw [pathText_code]

/-- A single path. -/
theorem onSystem_run (v : Validator Disk PathArg) (t : Str) (s : System) :
    v.onSystem.run t s = match v.run (pathArg s.cwd t) s.disk with
      | .ok _ d => .ok () { s with disk := d }
      | .err e d => .err e { s with disk := d } := by
  show onDisk (v.run (pathArg s.cwd t)) s = _
  unfold onDisk
  cases v.run (pathArg s.cwd t) s.disk <;> rfl

/-- A validator of paths that does not change the disk. -/
def Still (v : Validator Disk PathArg) : Prop := ∀ p fs, (v.run p fs).state = fs

theorem still_onSystem {v : Validator Disk PathArg} (h : Still v) (t : Str) (s : System) : (v.onSystem.run t s).state = s := by
  rw [onSystem_run]
  have := h (pathArg s.cwd t) s.disk
  cases hr : v.run (pathArg s.cwd t) s.disk with
  | ok u d => rw [hr] at this; simp only [Res.state] at this ⊢; rw [this]
  | err e d => rw [hr] at this; simp only [Res.state] at this ⊢; rw [this]

theorem still_each {v : Validator Disk PathArg} (h : Still v) (ts : List Str) (s : System) : (v.onSystem.each.run ts s).state = s := by
  show (M.forEach v.onSystem.run ts s).state = s
  induction ts with
  | nil => rfl
  | cons t ts ih =>
    rw [M.forEach_cons, M.bind_run]
    have := still_onSystem h t s
    cases hr : v.onSystem.run t s with
    | ok u d => rw [hr] at this; cases this; exact ih
    | err e d => rw [hr] at this; exact this

theorem inParser_state {α : Type} (v : Validator W α) (x : α) (w : W) : (v.inParser x w).2 = (v.run x w).state := by
  unfold Validator.inParser
  cases v.run x w <;> rfl

theorem inParser_true {α : Type} {v : Validator W α} {x : α} {w w' : W} (h : v.inParser x w = (true, w')) : v.run x w = .ok () w' := by
  unfold Validator.inParser at h
  split at h
  · rename_i u w'' hr; simp only [Prod.mk.injEq, true_and] at h; subst h; exact hr
  · simp at h

/-- File validators that do not change the disk leave the files alone wherever they are used. -/
theorem still_leaves {v : Validator Disk PathArg} (h : Still v) : LeavesFiles v.onPaths := by
  intro x s
  have : (v.onPaths x s).2 = s := by
    unfold Validator.onPaths
    split
    · split
      · rw [inParser_state, still_onSystem h]
      · rfl
    · rw [inParser_state, still_each h]
  rw [this]
  exact ⟨rfl, rfl⟩

theorem still_each_ok {v : Validator Disk PathArg} (h : Still v) (ts : List Str) (s s' : System) (hr : v.onSystem.each.run ts s = .ok () s') :
    ∀ t ∈ ts, v.run (pathArg s.cwd t) s.disk = .ok () s.disk := by
  induction ts with
  | nil => simp
  | cons t ts ih =>
    intro q hq
    change M.forEach v.onSystem.run (t :: ts) s = .ok () s' at hr
    rw [M.forEach_cons, M.bind_run] at hr
    have hs := still_onSystem h t s
    have hd := h (pathArg s.cwd t) s.disk
    cases hv : v.onSystem.run t s with
    | err e d => rw [hv] at hr; cases hr
    | ok u d =>
      rw [hv] at hr hs
      have hs : d = s := hs
      subst hs
      change M.forEach v.onSystem.run ts d = .ok () s' at hr
      rcases List.mem_cons.1 hq with rfl | hq
      · rw [onSystem_run] at hv
        cases hw : v.run (pathArg d.cwd q) d.disk with
        | ok u d' => rw [hw] at hd; have hd : d' = d.disk := hd; rw [hd]
        | err e d' => rw [hw] at hv; cases hv
      · exact ih hr q hq

/-- Every path in a value that was accepted was accepted. -/
theorem still_accepted {v : Validator Disk PathArg} (h : Still v) {x : Val} {s s' : System} (ha : v.onPaths x s = (true, s')) (p : Str)
    (hp : Holds x p) : v.run (pathArg s.cwd p) s.disk = .ok () s.disk := by
  have one : ∀ e, elemPath e = some p → v.onPaths (.one e) s = (true, s') → v.run (pathArg s.cwd p) s.disk = .ok () s.disk := by
    intro e he ha
    unfold Validator.onPaths at ha
    simp only [he] at ha
    have ha := inParser_true ha
    refine still_each_ok h [p] s s' ?_ p (.head _)
    show M.forEach v.onSystem.run [p] s = _
    rw [M.forEach_cons, M.bind_run, ha]
    rfl
  rcases hp with rfl | rfl | ⟨es, rfl, hp⟩
  · exact one _ (elemPath_path p) ha
  · exact one _ rfl ha
  · unfold Validator.onPaths at ha
    refine still_each_ok h _ s s' (inParser_true ha) p (List.mem_filterMap.2 ?_)
    rcases hp with hp | hp
    · exact ⟨_, hp, elemPath_path p⟩
    · exact ⟨_, hp, rfl⟩

theorem still_inputFile (exts : List Str) (help : Str) : Still (inputFile exts help) := by
  intro p fs
  by_cases h : (∃ n, Reaches fs p.loc n ∧ Readable n) ∧ NameAccepted exts p.name
  · rw [(C40_input_file exts help p fs).1.2 h]; rfl
  · rw [(C40_input_file exts help p fs).2.2 h]; rfl

theorem still_inputDirectory : Still inputDirectory := by
  intro p fs
  by_cases h : ∃ w x, Reaches fs p.loc (.dir true w x)
  · rw [(C40_input_directory p fs).1.2 h]; rfl
  · rw [(C40_input_directory p fs).2.2 h]; rfl

theorem still_createNew (nd : Bool) (exts : List Str) (help : Str) : Still (outputFile nd .createNew exts help) :=
  fun p fs => C41_create_new_changes_nothing nd exts help p fs

/-- What `open_or_create` leaves of a file it accepts. -/
theorem openOrCreate_leaves_nothing (nd : Bool) (exts : List Str) (help : Str) (p : PathArg) {fs fs' : Disk} (hw : WellFormed fs)
    (h : (outputFile nd .openOrCreate exts help).run p fs = .ok () fs') :
    ∀ q, fs'.node? q = if q = p.loc then none else fs.node? q := by
  intro q
  obtain ⟨hc, hn, _⟩ := (C41_open_or_create_accepts_exactly nd exts help p hw).1 (by rw [h]; rfl)
  by_cases hex : ∃ n, Reaches fs p.loc n
  · obtain ⟨n, hr⟩ := hex
    have hnd : ∀ r w x, n ≠ .dir r w x := by
      rintro r w x rfl
      exact hn _ hr
    have := C41_open_or_create_deletes_the_file nd exts help p fs hw n hr hnd hc q
    rw [h] at this
    exact this
  · have hno : ∀ n, ¬ Reaches fs p.loc n := fun n hn => hex ⟨n, hn⟩
    have hs := (C41_open_or_create_new_file_partial nd exts help p fs hno).2
    rw [h] at hs
    have hs : fs' = fs := hs
    subst hs
    split
    · rename_i hq
      subst hq
      rcases lookup_cases fs' p.loc with ⟨n, h1, _⟩ | ⟨hl, _⟩ | ⟨_, hd, _⟩
      · exact absurd h1 (hno n)
      · exact node_none hl hc
      · exact absurd hd (canCreate_not_denied hc)
    · rfl

end Sharg
