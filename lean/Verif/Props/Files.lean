import Verif.Lemmas.Files

/-!
# Properties C40-C42: validators of files and directories
-/

set_option linter.unusedSimpArgs false

namespace Sharg

open Spec

/-! ## C40 -/

theorem validateReadability_spec (p : Loc) (fs : Disk) :
    (∀ n, Reaches fs p n → Readable n → validateReadability p fs = .ok () fs) ∧
    (∀ n, Reaches fs p n → ¬ Readable n → validateReadability p fs = .err .validationError fs) := by
  constructor
  · intro n h hr
    have h := (lookup_found_iff _ _ _).2 h
    cases n with
    | file c r w =>
      have hr : r = true := hr
      simp [validateReadability, M.bind, fsIsDirectory, fsIsRegularFile, fsCanRead, fsCanList, h, hr, M.pure]
    | dir r w x =>
      have hr : r = true := hr
      simp [validateReadability, M.bind, fsIsDirectory, fsIsRegularFile, fsCanRead, fsCanList, h, hr, M.pure]
    | special r w => exact hr.elim
  · intro n h hr
    have h := (lookup_found_iff _ _ _).2 h
    cases n with
    | file c r w =>
      have hr : r = false := by cases r; rfl; exact absurd rfl hr
      simp [validateReadability, M.bind, fsIsDirectory, fsIsRegularFile, fsCanRead, fsCanList, h, hr, M.pure, M.throw]
    | dir r w x =>
      have hr : r = false := by cases r; rfl; exact absurd rfl hr
      simp [validateReadability, M.bind, fsIsDirectory, fsIsRegularFile, fsCanRead, fsCanList, h, hr, M.pure, M.throw]
    | special r w =>
      simp [validateReadability, M.bind, fsIsDirectory, fsIsRegularFile, fsCanRead, fsCanList, h, M.pure, M.throw]

/-- Not reachable: missing or denied. -/
theorem lookup_cases (fs : Disk) (p : Loc) :
    (∃ n, Reaches fs p n ∧ fs.lookup p = .found n) ∨ (fs.lookup p = .missing ∧ ∀ n, ¬ Reaches fs p n) ∨
      (fs.lookup p = .denied ∧ Denied fs p ∧ ∀ n, ¬ Reaches fs p n) := by
  cases h : fs.lookup p with
  | found n => exact Or.inl ⟨n, (lookup_found_iff _ _ _).1 h, rfl⟩
  | missing => exact Or.inr (Or.inl ⟨rfl, fun n hn => by rw [← lookup_found_iff, h] at hn; cases hn⟩)
  | denied =>
    exact Or.inr (Or.inr ⟨rfl, (lookup_denied_iff _ _).1 h, fun n hn => by rw [← lookup_found_iff, h] at hn; cases hn⟩)

theorem ok_or_rejected {P : Prop} {α : Type} {r a b : α} (hab : a ≠ b) (h1 : P → r = a) (h2 : ¬ P → r = b) :
    (r = a ↔ P) ∧ (r = b ↔ ¬ P) := by
  by_cases h : P
  · rw [h1 h]; simp [h, hab]
  · rw [h2 h]; simp [h, hab.symm]

/-- C40: `input_file_validator` accepts exactly the paths that lead to a readable regular file or directory and have an accepted
name, throws `validation_error` for all others, and never changes the file system. -/
theorem C40_input_file (exts : List Str) (help : Str) (p : PathArg) (fs : Disk) :
    ((inputFile exts help).run p fs = .ok () fs ↔ (∃ n, Reaches fs p.loc n ∧ Readable n) ∧ NameAccepted exts p.name) ∧
    ((inputFile exts help).run p fs = .err .validationError fs ↔
      ¬ ((∃ n, Reaches fs p.loc n ∧ Readable n) ∧ NameAccepted exts p.name)) := by
  refine ok_or_rejected (by simp) ?_ ?_
  · rintro ⟨⟨n, h1, h2⟩, h3⟩
    have hl := (lookup_found_iff _ _ _).2 h1
    simp [inputFile, rethrowFs, M.bind, fsExists, hl, (validateReadability_spec p.loc fs).1 n h1 h2, (validateFilename_spec exts p.name fs).1 h3]
  · intro h
    rcases lookup_cases fs p.loc with ⟨n, h1, hl⟩ | ⟨hl, _⟩ | ⟨hl, _, _⟩
    · by_cases h2 : Readable n
      · have h3 : ¬ NameAccepted exts p.name := fun h3 => h ⟨⟨n, h1, h2⟩, h3⟩
        simp [inputFile, rethrowFs, M.bind, fsExists, hl, (validateReadability_spec p.loc fs).1 n h1 h2, (validateFilename_spec exts p.name fs).2 h3]
      · simp [inputFile, rethrowFs, M.bind, fsExists, hl, (validateReadability_spec p.loc fs).2 n h1 h2]
    · simp [inputFile, rethrowFs, M.bind, fsExists, hl, M.throw]
    · simp [inputFile, rethrowFs, M.bind, fsExists, hl, M.throw]

/-- C40: `input_directory_validator` accepts exactly the paths that lead to a readable directory, throws `validation_error` for all
others, and never changes the file system. -/
theorem C40_input_directory (p : PathArg) (fs : Disk) :
    (inputDirectory.run p fs = .ok () fs ↔ ∃ w x, Reaches fs p.loc (.dir true w x)) ∧
    (inputDirectory.run p fs = .err .validationError fs ↔ ¬ ∃ w x, Reaches fs p.loc (.dir true w x)) := by
  refine ok_or_rejected (by simp) ?_ ?_
  · rintro ⟨w, x, h1⟩
    have hl := (lookup_found_iff _ _ _).2 h1
    simp [inputDirectory, rethrowFs, M.bind, fsExists, fsIsDirectory, hl, (validateReadability_spec p.loc fs).1 _ h1 rfl]
  · intro h
    rcases lookup_cases fs p.loc with ⟨n, h1, hl⟩ | ⟨hl, _⟩ | ⟨hl, _, _⟩
    · cases n with
      | dir r w x =>
        have hr : ¬ Readable (.dir r w x) := fun hr => h ⟨w, x, by have hr : r = true := hr; rw [← hr]; exact h1⟩
        simp [inputDirectory, rethrowFs, M.bind, fsExists, fsIsDirectory, hl, (validateReadability_spec p.loc fs).2 _ h1 hr]
      | file c r w => simp [inputDirectory, rethrowFs, M.bind, fsExists, fsIsDirectory, hl, M.throw]
      | special r w => simp [inputDirectory, rethrowFs, M.bind, fsExists, fsIsDirectory, hl, M.throw]
    · simp [inputDirectory, rethrowFs, M.bind, fsExists, hl, M.throw]
    · simp [inputDirectory, rethrowFs, M.bind, fsExists, hl, M.throw]

/-- C40: a list of paths is accepted exactly if each path is; also then nothing is changed. -/
theorem C40_lists_of_files (exts : List Str) (help : Str) (ps : List PathArg) (fs : Disk) :
    ((inputFile exts help).each.run ps fs = .ok () fs ↔
      ∀ p ∈ ps, (∃ n, Reaches fs p.loc n ∧ Readable n) ∧ NameAccepted exts p.name) ∧
    ((inputFile exts help).each.run ps fs).state = fs := by
  have key : ∀ ps : List PathArg,
      ((∀ p ∈ ps, (∃ n, Reaches fs p.loc n ∧ Readable n) ∧ NameAccepted exts p.name) → (inputFile exts help).each.run ps fs = .ok () fs) ∧
      (¬ (∀ p ∈ ps, (∃ n, Reaches fs p.loc n ∧ Readable n) ∧ NameAccepted exts p.name) →
        (inputFile exts help).each.run ps fs = .err .validationError fs) := by
    intro ps
    induction ps with
    | nil => exact ⟨fun _ => rfl, fun h => absurd (by simp) h⟩
    | cons p ps ih =>
      by_cases hp : (∃ n, Reaches fs p.loc n ∧ Readable n) ∧ NameAccepted exts p.name
      · have e : (inputFile exts help).each.run (p :: ps) fs = (inputFile exts help).each.run ps fs := by
          simp only [Validator.each, M.forEach, M.bind, (C40_input_file exts help p fs).1.2 hp]
        rw [e]
        refine ⟨fun h => ih.1 fun q hq => h q (.tail _ hq), fun h => ih.2 fun hall => h fun q hq => ?_⟩
        rcases List.mem_cons.1 hq with rfl | hq
        · exact hp
        · exact hall q hq
      · have e : (inputFile exts help).each.run (p :: ps) fs = .err .validationError fs := by
          simp only [Validator.each, M.forEach, M.bind, (C40_input_file exts help p fs).2.2 hp]
        rw [e]
        exact ⟨fun h => absurd (h p (.head _)) hp, fun _ => rfl⟩
  obtain ⟨h1, h2⟩ := key ps
  refine ⟨(ok_or_rejected (by simp) h1 h2).1, ?_⟩
  by_cases h : ∀ p ∈ ps, (∃ n, Reaches fs p.loc n ∧ Readable n) ∧ NameAccepted exts p.name
  · rw [h1 h]; rfl
  · rw [h2 h]; rfl

/-! ## C41 -/

theorem parentWritable_congr {fs gs : Disk} {p : Loc} (h : ∀ q, q <+: p → q ≠ p → fs.node? q = gs.node? q) :
    parentWritable fs p = parentWritable gs p := by
  cases hf : parentWritable fs p with
  | true => exact ((parentWritable_iff _ _).2 (canCreate_congr h ((parentWritable_iff _ _).1 hf))).symm
  | false =>
    cases hg : parentWritable gs p with
    | false => rfl
    | true =>
      have := (parentWritable_iff _ _).2 (canCreate_congr (fun q h1 h2 => (h q h1 h2).symm) ((parentWritable_iff _ _).1 hg))
      rw [hf] at this; cases this

theorem canCreate_not_denied {fs : Disk} {p : Loc} (hc : CanCreate fs p) : ¬ Denied fs p := by
  rintro ⟨q', c', t, r', w', ht, hr'⟩
  obtain ⟨q, c, r, rfl, hr⟩ := hc
  rcases List.eq_nil_or_concat t with rfl | ⟨t', z, rfl⟩
  · have := List.append_inj' ht (by simp)
    rw [← this.1] at hr'
    have := reaches_unique hr hr'
    simp at this
  · rw [show q' ++ c' :: (t'.concat z) = (q' ++ c' :: t') ++ [z] by simp] at ht
    have := List.append_inj' ht (by simp)
    obtain ⟨r2, w2, h2⟩ := hr.2 q' c' t' this.1
    have := hr'.1.symm.trans h2
    simp at this

/-- An object that is not on a disk, in an accessible directory. -/
theorem lookup_missing_of {gs : Disk} {p : Loc} (hnone : gs.node? p = none) (hc : CanCreate gs p) : gs.lookup p = .missing := by
  rcases lookup_cases gs p with ⟨n, h1, _⟩ | ⟨h, _⟩ | ⟨_, hd, _⟩
  · rw [h1.1] at hnone; cases hnone
  · exact h
  · exact absurd hd (canCreate_not_denied hc)

theorem lookup_after_remove {fs : Disk} {p : Loc} (keep : Loc → Bool) (hk : ∀ q, q <+: p → (keep q = true ↔ q ≠ p)) (hc : CanCreate fs p) :
    Disk.lookup (fs.filter fun e => keep e.1) p = .missing := by
  refine lookup_missing_of ?_ (canCreate_congr (fun q h1 h2 => ?_) hc)
  · rw [node?_filter]
    have : keep p = false := by
      cases h : keep p with
      | false => rfl
      | true => exact absurd rfl ((hk p (List.prefix_refl _)).1 h)
    simp [this]
  · rw [node?_filter, (hk q h1).2 h2]
    simp

/-- `validate_writeability` for a path with nothing there: nothing changes. -/
theorem writeability_missing (nd : Bool) {p : Loc} {fs : Disk} (hm : fs.lookup p = .missing) :
    (CanCreate fs p → validateWriteability nd p fs = .ok () fs) ∧
    (¬ CanCreate fs p → validateWriteability nd p fs = .err .validationError fs) := by
  constructor
  · intro hc
    have hpw := (parentWritable_iff _ _).2 hc
    have hl := (lookup_found_iff _ _ _).2 (reaches_new (.file [] true true) hm hc)
    have hpw' : parentWritable ((p, .file [] true true) :: fs) p = true := by
      rw [← hpw]
      refine parentWritable_congr fun q _ h2 => ?_
      rw [node?_cons, if_neg (fun h => h2 h.symm)]
    have hf := filter_new fs p (.file [] true true) (node_none hm hc)
    have hrm : fsRemove p ((p, .file [] true true) :: fs) = .ok () fs := by
      simp only [fsRemove, hl, hpw', if_true, hf]
    simp [validateWriteability, M.bind, fsIsDirectory, hm, fsOpenForWriting, hpw, withGuard, hrm, fsRemoveAll]
  · intro hc
    have hpw : parentWritable fs p = false := by
      cases h : parentWritable fs p with
      | false => rfl
      | true => exact absurd ((parentWritable_iff _ _).1 h) hc
    simp [validateWriteability, M.bind, fsIsDirectory, hm, fsOpenForWriting, hpw, withGuard, fsRemoveAll, M.throw]

/-- C41: in `create_new` mode the file system is exactly as before, whether the path is accepted or rejected. -/
theorem C41_create_new_changes_nothing (nd : Bool) (exts : List Str) (help : Str) (p : PathArg) (fs : Disk) :
    ((outputFile nd .createNew exts help).run p fs).state = fs := by
  rcases lookup_cases fs p.loc with ⟨n, h1, hl⟩ | ⟨hl, _⟩ | ⟨hl, _, _⟩
  · cases n <;> simp [outputFile, M.bind, fsIsDirectory, fsExists, hl, rethrowFs, M.throw, Res.state]
  · by_cases hc : CanCreate fs p.loc
    · have hw := (writeability_missing nd hl).1 hc
      by_cases hn : NameAccepted exts p.name
      · simp [outputFile, M.bind, fsIsDirectory, fsExists, hl, rethrowFs, hw, (validateFilename_spec exts p.name fs).1 hn, Res.state]
      · simp [outputFile, M.bind, fsIsDirectory, fsExists, hl, rethrowFs, hw, (validateFilename_spec exts p.name fs).2 hn, Res.state]
    · have hw := (writeability_missing nd hl).2 hc
      simp [outputFile, M.bind, fsIsDirectory, fsExists, hl, rethrowFs, hw, Res.state]
  · simp [outputFile, M.bind, fsIsDirectory, fsExists, hl, rethrowFs, M.throw, Res.state]

/-- C41: in `create_new` mode a path is accepted exactly if nothing is there, its directory can be written to, and the name has an
accepted extension. -/
theorem C41_create_new_accepts_exactly (nd : Bool) (exts : List Str) (help : Str) (p : PathArg) (fs : Disk) :
    (outputFile nd .createNew exts help).run p fs = .ok () fs ↔
      (∀ n, ¬ Reaches fs p.loc n) ∧ CanCreate fs p.loc ∧ NameAccepted exts p.name := by
  rcases lookup_cases fs p.loc with ⟨n, h1, hl⟩ | ⟨hl, h1⟩ | ⟨hl, hd, h1⟩
  · have e : (outputFile nd .createNew exts help).run p fs = .err .validationError fs := by
      cases n <;> simp [outputFile, M.bind, fsIsDirectory, fsExists, hl, rethrowFs, M.throw]
    rw [e]
    exact ⟨(fun h => nomatch h), fun h => absurd h1 (h.1 n)⟩
  · by_cases hc : CanCreate fs p.loc
    · have hw := (writeability_missing nd hl).1 hc
      by_cases hn : NameAccepted exts p.name
      · have e : (outputFile nd .createNew exts help).run p fs = .ok () fs := by
          simp [outputFile, M.bind, fsIsDirectory, fsExists, hl, rethrowFs, hw, (validateFilename_spec exts p.name fs).1 hn]
        exact ⟨fun _ => ⟨h1, hc, hn⟩, fun _ => e⟩
      · have e : (outputFile nd .createNew exts help).run p fs = .err .validationError fs := by
          simp [outputFile, M.bind, fsIsDirectory, fsExists, hl, rethrowFs, hw, (validateFilename_spec exts p.name fs).2 hn]
        rw [e]
        exact ⟨(fun h => nomatch h), fun h => absurd h.2.2 hn⟩
    · have hw := (writeability_missing nd hl).2 hc
      have e : (outputFile nd .createNew exts help).run p fs = .err .validationError fs := by
        simp [outputFile, M.bind, fsIsDirectory, fsExists, hl, rethrowFs, hw]
      rw [e]
      exact ⟨(fun h => nomatch h), fun h => absurd h.2.1 hc⟩
  · have e : (outputFile nd .createNew exts help).run p fs = .err .filesystemError fs := by
      simp [outputFile, M.bind, fsIsDirectory, fsExists, hl, rethrowFs, M.throw]
    rw [e]
    exact ⟨(fun h => nomatch h), fun h => absurd hd (canCreate_not_denied h.2.1)⟩

/-- C41: what is not accepted in `create_new` mode is rejected with `validation_error`, or, if a directory on the way cannot be
searched, with `filesystem_error`. -/
theorem C41_create_new_rejection (nd : Bool) (exts : List Str) (help : Str) (p : PathArg) (fs : Disk) (e : Exn)
    (h : ((outputFile nd .createNew exts help).run p fs).exn? = some e) :
    (Denied fs p.loc ∧ e = .filesystemError) ∨ (¬ Denied fs p.loc ∧ e = .validationError) := by
  rcases lookup_cases fs p.loc with ⟨n, h1, hl⟩ | ⟨hl, h1⟩ | ⟨hl, hd, h1⟩
  · have e : (outputFile nd .createNew exts help).run p fs = .err .validationError fs := by
      cases n <;> simp [outputFile, M.bind, fsIsDirectory, fsExists, hl, rethrowFs, M.throw]
    rw [e] at h
    cases h
    exact Or.inr ⟨not_denied_of_reaches h1, rfl⟩
  · have hd : ¬ Denied fs p.loc := by rw [← lookup_denied_iff, hl]; simp
    by_cases hc : CanCreate fs p.loc
    · have hw := (writeability_missing nd hl).1 hc
      by_cases hn : NameAccepted exts p.name
      · simp [outputFile, M.bind, fsIsDirectory, fsExists, hl, rethrowFs, hw, (validateFilename_spec exts p.name fs).1 hn, Res.exn?] at h
      · simp [outputFile, M.bind, fsIsDirectory, fsExists, hl, rethrowFs, hw, (validateFilename_spec exts p.name fs).2 hn, Res.exn?] at h
        exact Or.inr ⟨hd, h.symm⟩
    · have hw := (writeability_missing nd hl).2 hc
      simp [outputFile, M.bind, fsIsDirectory, fsExists, hl, rethrowFs, hw, Res.exn?] at h
      exact Or.inr ⟨hd, h.symm⟩
  · simp [outputFile, M.bind, fsIsDirectory, fsExists, hl, rethrowFs, M.throw, Res.exn?] at h
    exact Or.inl ⟨hd, h.symm⟩

/-- C41, partial: if nothing is at the path, both modes do the same, so that also `open_or_create` changes nothing. Missing:
existing files in this mode (`C41_open_or_create_deletes_the_file` and the following theorems). -/
theorem C41_open_or_create_new_file_partial (nd : Bool) (exts : List Str) (help : Str) (p : PathArg) (fs : Disk)
    (h : ∀ n, ¬ Reaches fs p.loc n) :
    (outputFile nd .openOrCreate exts help).run p fs = (outputFile nd .createNew exts help).run p fs ∧
    ((outputFile nd .openOrCreate exts help).run p fs).state = fs := by
  have e : (outputFile nd .openOrCreate exts help).run p fs = (outputFile nd .createNew exts help).run p fs := by
    rcases lookup_cases fs p.loc with ⟨n, h1, _⟩ | ⟨hl, _⟩ | ⟨hl, _, _⟩
    · exact absurd h1 (h n)
    · simp [outputFile, M.bind, fsIsDirectory, fsExists, hl, M.pure, rethrowFs]
    · simp [outputFile, M.bind, fsIsDirectory, hl]
  exact ⟨e, by rw [e]; exact C41_create_new_changes_nothing nd exts help p fs⟩

theorem filter_replace (fs : Disk) (p : Loc) (n : Node) :
    (fs.replace p n).filter (fun e => decide (e.1 ≠ p)) = fs.filter (fun e => decide (e.1 ≠ p)) := by
  unfold Disk.replace
  induction fs with
  | nil => rfl
  | cons e fs ih =>
    rw [List.map_cons]
    by_cases h : e.1 = p
    · rw [if_pos h, List.filter_cons_of_neg (by simp), List.filter_cons_of_neg (by simpa using h), ih]
    · rw [if_neg h, List.filter_cons_of_pos (by simpa using h), List.filter_cons_of_pos (by simpa using h), ih]

theorem lookup_replace_file {fs : Disk} {p : Loc} {n : Node} (m : Node) (h : Reaches fs p n) : (fs.replace p m).lookup p = .found m := by
  rw [lookup_found_iff]
  refine ⟨by rw [node?_replace, if_pos rfl, h.1]; rfl, ?_⟩
  intro q c t ht
  have hne : p ≠ q := by
    intro e
    have := congrArg List.length ht
    rw [e] at this
    simp at this
  rw [node?_replace, if_neg hne]
  exact h.2 q c t ht

theorem node?_of_mem {fs : Disk} (hw : (fs.map (·.1)).Nodup) {e : Loc × Node} (he : e ∈ fs) : fs.node? e.1 = some e.2 := by
  induction fs with
  | nil => cases he
  | cons a fs ih =>
    rw [List.map_cons, List.nodup_cons] at hw
    rcases List.mem_cons.1 he with rfl | he
    · simp [Disk.node?]
    · have : a.1 ≠ e.1 := fun h => hw.1 (by rw [h]; exact List.mem_map_of_mem he)
      rw [show a :: fs = (a.1, a.2) :: fs from rfl, node?_cons, if_neg this]
      exact ih hw.2 he

/-- Nothing lies below an object that is not a directory. -/
theorem below_file {fs : Disk} (hw : WellFormed fs) {p : Loc} {n : Node} (hn : fs.node? p = some n)
    (hnd : ∀ r w x, n ≠ .dir r w x) {e : Loc × Node} (he : e ∈ fs) (hp : p <+: e.1) : e.1 = p := by
  obtain ⟨t, ht⟩ := hp
  cases t with
  | nil => rw [← ht, List.append_nil]
  | cons c t =>
    obtain ⟨r, w, x, h⟩ := hw.2 e he p c t ht.symm
    rw [hn] at h
    injection h with h
    exact absurd h (hnd r w x)

/-- `remove_all` of an object that is not a directory. -/
theorem removeAll_file {fs : Disk} (hw : WellFormed fs) {p : Loc} {n : Node} (hr : Reaches fs p n)
    (hnd : ∀ r w x, n ≠ .dir r w x) (hc : CanCreate fs p) : fsRemoveAll p fs = .ok () (fs.filter fun e => decide (e.1 ≠ p)) := by
  have hcl : fs.clearable p = true := by
    unfold Disk.clearable
    rw [List.all_eq_true]
    intro e he
    cases hn : e.2 with
    | dir r w x =>
      dsimp only
      by_cases hp : p <+: e.1
      · have h1 := below_file hw hr.1 hnd he hp
        have h2 := node?_of_mem hw.1 he
        rw [h1, hr.1, hn] at h2
        injection h2 with h2
        exact absurd h2 (hnd r w x)
      · simp [hp]
    | file c r w => rfl
    | special r w => rfl
  have hf : fs.filter (fun e => !decide (p <+: e.1)) = fs.filter fun e => decide (e.1 ≠ p) := by
    apply List.filter_congr
    intro e he
    by_cases hp : p <+: e.1
    · have := below_file hw hr.1 hnd he hp
      simp [this]
    · have : e.1 ≠ p := fun h => hp (by rw [h]; exact List.prefix_refl _)
      simp [hp, this]
  simp only [fsRemoveAll, (lookup_found_iff _ _ _).2 hr, (parentWritable_iff _ _).2 hc, hcl, Bool.and_self, if_true, hf]

theorem node?_filter_ne (fs : Disk) (p q : Loc) :
    Disk.node? (fs.filter fun e => decide (e.1 ≠ p)) q = if q = p then none else fs.node? q := by
  have := node?_filter fs (fun q => decide (q ≠ p)) q
  rw [this]
  by_cases h : q = p <;> simp [h]

/-- `validate_writeability` deletes an existing object that is not a directory. -/
theorem writeability_deletes (nd : Bool) {p : Loc} {fs : Disk} (hw : WellFormed fs) {n : Node} (hr : Reaches fs p n)
    (hnd : ∀ r w x, n ≠ .dir r w x) (hc : CanCreate fs p) :
    (validateWriteability nd p fs).state = fs.filter (fun e => decide (e.1 ≠ p)) ∧
    ((validateWriteability nd p fs).exn? = none ∨ (validateWriteability nd p fs).exn? = some .validationError) := by
  have hl := (lookup_found_iff _ _ _).2 hr
  have hpw := (parentWritable_iff _ _).2 hc
  have hgone : fsRemoveAll p (fs.filter fun e => decide (e.1 ≠ p)) = .ok () (fs.filter fun e => decide (e.1 ≠ p)) := by
    have := lookup_after_remove (fs := fs) (p := p) (fun q => decide (q ≠ p)) (by simp) hc
    simp only [fsRemoveAll, this]
  have hall := removeAll_file hw hr hnd hc
  cases n with
  | dir r w x => exact absurd rfl (hnd r w x)
  | file c r w =>
    cases w with
    | true =>
      have hpw' : parentWritable (fs.replace p (.file [] r true)) p = true := by
        rw [← hpw]
        refine parentWritable_congr fun q _ h2 => ?_
        rw [node?_replace, if_neg (fun h => h2 h.symm)]
      have hrm : fsRemove p (fs.replace p (.file [] r true)) = .ok () (fs.filter fun e => decide (e.1 ≠ p)) := by
        simp only [fsRemove, lookup_replace_file _ hr, hpw', if_true, filter_replace]
      have : validateWriteability nd p fs = .ok () (fs.filter fun e => decide (e.1 ≠ p)) := by
        simp only [validateWriteability, M.bind, fsIsDirectory, hl, fsOpenForWriting, withGuard, Bool.not_true,
          Bool.false_eq_true, if_false, if_true, hrm, hgone]
      rw [this]
      exact ⟨rfl, Or.inl rfl⟩
    | false =>
      have : validateWriteability nd p fs = .err .validationError (fs.filter fun e => decide (e.1 ≠ p)) := by
        simp only [validateWriteability, M.bind, fsIsDirectory, hl, fsOpenForWriting, withGuard, Bool.not_false,
          Bool.false_eq_true, if_false, if_true, M.throw, hall]
      rw [this]
      exact ⟨rfl, Or.inr rfl⟩
  | special r w =>
    cases w with
    | true =>
      have hrm : fsRemove p fs = .ok () (fs.filter fun e => decide (e.1 ≠ p)) := by
        simp only [fsRemove, hl, hpw, if_true]
      have : validateWriteability nd p fs = .ok () (fs.filter fun e => decide (e.1 ≠ p)) := by
        simp only [validateWriteability, M.bind, fsIsDirectory, hl, fsOpenForWriting, withGuard, Bool.not_true,
          Bool.false_eq_true, if_false, if_true, hrm, hgone]
      rw [this]
      exact ⟨rfl, Or.inl rfl⟩
    | false =>
      have : validateWriteability nd p fs = .err .validationError (fs.filter fun e => decide (e.1 ≠ p)) := by
        simp only [validateWriteability, M.bind, fsIsDirectory, hl, fsOpenForWriting, withGuard, Bool.not_false,
          Bool.false_eq_true, if_false, if_true, M.throw, hall]
      rw [this]
      exact ⟨rfl, Or.inr rfl⟩

theorem rethrowFs_state (m : FsM Unit) (fs : Disk) : (rethrowFs m fs).state = (m fs).state := by
  unfold rethrowFs
  cases h : m fs with
  | ok u s => rfl
  | err e s => cases e <;> rfl

/-- C41 does not hold: in `open_or_create` mode every existing file or device in a directory that can be written to is deleted, whether it
can be written to or not and whether its name is accepted or not. All other objects stay as they are. -/
theorem C41_open_or_create_deletes_the_file (nd : Bool) (exts : List Str) (help : Str) (p : PathArg) (fs : Disk) (hw : WellFormed fs)
    (n : Node) (hr : Reaches fs p.loc n) (hnd : ∀ r w x, n ≠ .dir r w x) (hc : CanCreate fs p.loc) (q : Loc) :
    ((outputFile nd .openOrCreate exts help).run p fs).state.node? q = if q = p.loc then none else fs.node? q := by
  rw [← node?_filter_ne fs p.loc q]
  congr 1
  have hl := (lookup_found_iff _ _ _).2 hr
  obtain ⟨h1, _⟩ := writeability_deletes nd hw hr hnd hc
  have e : (outputFile nd .openOrCreate exts help).run p fs =
      rethrowFs (M.bind (validateWriteability nd p.loc) fun _ => validateFilename exts p.name) fs := by
    cases n with
    | dir r w x => exact absurd rfl (hnd r w x)
    | file c r w => simp [outputFile, M.bind, fsIsDirectory, hl, M.pure, rethrowFs]
    | special r w => simp [outputFile, M.bind, fsIsDirectory, hl, M.pure, rethrowFs]
  rw [e, rethrowFs_state]
  unfold M.bind
  cases hv : validateWriteability nd p.loc fs with
  | err x s => rw [hv] at h1; exact h1
  | ok u s =>
    rw [hv] at h1
    dsimp only
    by_cases hn : NameAccepted exts p.name
    · rw [(validateFilename_spec exts p.name s).1 hn]; exact h1
    · rw [(validateFilename_spec exts p.name s).2 hn]; exact h1

/-- C41: in `open_or_create` mode a file that can be written to, in a directory that cannot, loses its content and is rejected (in a build with
assertions the program is aborted). -/
theorem C41_open_or_create_truncates_the_file (nd : Bool) (exts : List Str) (help : Str) (p : PathArg) (fs : Disk)
    (c : Str) (r : Bool) (hr : Reaches fs p.loc (.file c r true)) (hc : ¬ CanCreate fs p.loc) :
    (outputFile nd .openOrCreate exts help).run p fs =
      .err (if nd then .validationError else .assertFailed) (fs.replace p.loc (.file [] r true)) := by
  have hl := (lookup_found_iff _ _ _).2 hr
  have hpw : parentWritable (fs.replace p.loc (.file [] r true)) p.loc = false := by
    cases h : parentWritable (fs.replace p.loc (.file [] r true)) p.loc with
    | false => rfl
    | true =>
      refine absurd ?_ hc
      refine canCreate_congr (fun q _ h2 => ?_) ((parentWritable_iff _ _).1 h)
      rw [node?_replace, if_neg (fun h => h2 h.symm)]
  have hl' := lookup_replace_file (.file [] r true) hr
  cases nd <;>
  simp [outputFile, M.bind, fsIsDirectory, hl, M.pure, rethrowFs, validateWriteability, fsOpenForWriting, withGuard, fsRemove, hl', hpw, fsRemoveAll]

/-! ## C42 -/

theorem writeability_dir (nd : Bool) {p : Loc} {fs : Disk} {r w x : Bool} (h : Reaches fs p (.dir r w x)) :
    validateWriteability nd p fs = .err .validationError fs := by
  have hl := (lookup_found_iff _ _ _).2 h
  simp [validateWriteability, M.bind, fsIsDirectory, hl, M.throw]

theorem writeability_denied (nd : Bool) {p : Loc} {fs : Disk} (h : fs.lookup p = .denied) :
    validateWriteability nd p fs = .err .filesystemError fs := by
  simp [validateWriteability, M.bind, fsIsDirectory, h]

theorem canCreate_child {fs : Disk} {p : Loc} {c : Str} : CanCreate fs (p ++ [c]) ↔ ∃ r, Reaches fs p (.dir r true true) := by
  constructor
  · rintro ⟨q, c', r, h, hr⟩
    have := List.append_inj' h (by simp)
    rw [this.1]
    exact ⟨r, hr⟩
  · rintro ⟨r, hr⟩
    exact ⟨p, c, r, rfl, hr⟩

/-- Inside a new directory there is nothing. -/
theorem child_of_new {fs : Disk} (hw : WellFormed fs) {p : Loc} (hn : fs.node? p = none) (n : Node) (c : Str) :
    Disk.node? ((p, n) :: fs) (p ++ [c]) = none := by
  rw [node?_cons, if_neg (by intro h; have := congrArg List.length h; simp at this), node?_eq_none]
  intro e he hloc
  obtain ⟨r, w, x, h⟩ := hw.2 e he p c [] hloc
  rw [hn] at h
  cases h

theorem removeAll_new {fs : Disk} (hw : WellFormed fs) {p : Loc} (hm : fs.lookup p = .missing) (hc : CanCreate fs p) :
    fsRemoveAll p ((p, .dir true true true) :: fs) = .ok () fs := by
  have hn := node_none hm hc
  have hl := (lookup_found_iff _ _ _).2 (reaches_new (.dir true true true) hm hc)
  have hpw : parentWritable ((p, .dir true true true) :: fs) p = true := by
    rw [← (parentWritable_iff _ _).2 hc]
    refine parentWritable_congr fun q _ h2 => ?_
    rw [node?_cons, if_neg (fun h => h2 h.symm)]
  have hbelow : ∀ e ∈ fs, ¬ p <+: e.1 := by
    rintro e he ⟨t, ht⟩
    cases t with
    | nil => exact node?_eq_none.1 hn e he (by rw [← ht, List.append_nil])
    | cons c t =>
      obtain ⟨r, w, x, h⟩ := hw.2 e he p c t ht.symm
      rw [hn] at h
      cases h
  have hcl : Disk.clearable ((p, .dir true true true) :: fs) p = true := by
    unfold Disk.clearable
    rw [List.all_cons, Bool.and_eq_true, List.all_eq_true]
    refine ⟨by simp, ?_⟩
    intro e he
    cases hn : e.2 with
    | dir r w x => simp [hbelow e he]
    | file c r w => rfl
    | special r w => rfl
  have hf : List.filter (fun e => !decide (p <+: e.1)) ((p, Node.dir true true true) :: fs) = fs := by
    rw [List.filter_cons_of_neg (by simp), List.filter_eq_self]
    intro e he
    simp [hbelow e he]
  simp only [fsRemoveAll, hl, hpw, hcl, Bool.and_self, if_true, hf]

/-- The run for a directory that does not exist. -/
theorem outputDirectory_missing (nd : Bool) (p : PathArg) (fs : Disk) (hw : WellFormed fs) (hm : fs.lookup p.loc = .missing) :
    (CanCreate fs p.loc → (outputDirectory nd).run p fs = .ok () fs) ∧
    (¬ CanCreate fs p.loc → (outputDirectory nd).run p fs = .err .validationError fs) := by
  constructor
  · intro hc
    have hpw := (parentWritable_iff _ _).2 hc
    have hnew := reaches_new (.dir true true true) hm hc
    have hcc : CanCreate ((p.loc, .dir true true true) :: fs) (p.loc ++ [dummyName]) := canCreate_child.2 ⟨true, hnew⟩
    have hchild := child_of_new hw (node_none hm hc) (.dir true true true) dummyName
    have hv := (writeability_missing nd (lookup_missing_of hchild hcc)).1 hcc
    have hrm := removeAll_new hw hm hc
    have hgone : fsRemoveAll p.loc fs = .ok () fs := by simp only [fsRemoveAll, hm]
    simp [outputDirectory, M.bind, fsExists, hm, fsCreateDirectory, hpw, rethrowFs, withGuard, hv, hrm, hgone]
  · intro hc
    have hpw : parentWritable fs p.loc = false := by
      cases h : parentWritable fs p.loc with
      | false => rfl
      | true => exact absurd ((parentWritable_iff _ _).1 h) hc
    simp [outputDirectory, M.bind, fsExists, hm, fsCreateDirectory, hpw, M.throw]

/-- C42: if the directory does not exist, nothing is there afterwards and the file system is exactly as before; the path is accepted exactly
if the directory can be created. -/
theorem C42_new_directory (nd : Bool) (p : PathArg) (fs : Disk) (hw : WellFormed fs) (h : ∀ n, ¬ Reaches fs p.loc n) :
    ((outputDirectory nd).run p fs).state = fs ∧
    ((outputDirectory nd).run p fs = .ok () fs ↔ CanCreate fs p.loc) := by
  rcases lookup_cases fs p.loc with ⟨n, h1, _⟩ | ⟨hl, _⟩ | ⟨hl, hd, _⟩
  · exact absurd h1 (h n)
  · obtain ⟨h1, h2⟩ := outputDirectory_missing nd p fs hw hl
    by_cases hc : CanCreate fs p.loc
    · rw [h1 hc]; exact ⟨rfl, fun _ => hc, fun _ => rfl⟩
    · rw [h2 hc]; exact ⟨rfl, (fun h => nomatch h), fun h => absurd h hc⟩
  · have e : (outputDirectory nd).run p fs = .err .filesystemError fs := by
      simp [outputDirectory, M.bind, fsExists, hl]
    rw [e]
    exact ⟨rfl, (fun h => nomatch h), fun h => absurd hd (canCreate_not_denied h)⟩

/-- The run for an existing directory. -/
theorem outputDirectory_existing (nd : Bool) (p : PathArg) (fs : Disk) (r w x : Bool) (hr : Reaches fs p.loc (.dir r w x)) :
    (outputDirectory nd).run p fs = rethrowFs (validateWriteability nd (p.loc ++ [dummyName])) fs := by
  have hl := (lookup_found_iff _ _ _).2 hr
  simp [outputDirectory, M.bind, fsExists, hl, fsCreateDirectory]

theorem rethrowFs_isOk (m : FsM Unit) (fs gs : Disk) : rethrowFs m fs = .ok () gs ↔ m fs = .ok () gs := by
  unfold rethrowFs
  cases h : m fs with
  | ok u s => simp
  | err e s => cases e <;> simp

theorem dummyName_eq : dummyName = "dummy.txt".toList := rfl

/-- C42, partial: if there is nothing called `dummy.txt` in an existing directory, the file system is exactly as before, and the directory is
accepted exactly if it can be written to. Missing: an existing `dummy.txt` (`C42_dummy_file_deleted`, `C42_dummy_directory_rejected`). -/
theorem C42_existing_directory_partial (nd : Bool) (p : PathArg) (fs : Disk) (r w x : Bool) (hr : Reaches fs p.loc (.dir r w x))
    (h : ∀ n, ¬ Reaches fs (p.loc ++ ["dummy.txt".toList]) n) :
    ((outputDirectory nd).run p fs).state = fs ∧
    ((outputDirectory nd).run p fs = .ok () fs ↔ w = true ∧ x = true) := by
  rw [← dummyName_eq] at h
  rw [outputDirectory_existing nd p fs r w x hr, rethrowFs_state, rethrowFs_isOk]
  have hcc : CanCreate fs (p.loc ++ [dummyName]) ↔ w = true ∧ x = true := by
    rw [canCreate_child]
    constructor
    · rintro ⟨r', h⟩
      have := reaches_unique hr h
      simp at this
      exact this.2
    · rintro ⟨rfl, rfl⟩
      exact ⟨r, hr⟩
  rw [← hcc]
  rcases lookup_cases fs (p.loc ++ [dummyName]) with ⟨n, h1, _⟩ | ⟨hl, _⟩ | ⟨hl, hd, _⟩
  · exact absurd h1 (h n)
  · obtain ⟨h1, h2⟩ := writeability_missing nd hl
    by_cases hc : CanCreate fs (p.loc ++ [dummyName])
    · rw [h1 hc]; exact ⟨rfl, fun _ => hc, fun _ => rfl⟩
    · rw [h2 hc]; exact ⟨rfl, (fun h => nomatch h), fun h => absurd h hc⟩
  · rw [writeability_denied nd hl]
    exact ⟨rfl, (fun h => nomatch h), fun h => absurd hd (canCreate_not_denied h)⟩

/-- C42: whatever happens, every object other than the `dummy.txt` of the directory is still there, unchanged. -/
theorem C42_other_files_kept (nd : Bool) (p : PathArg) (fs : Disk) (hw : WellFormed fs) (q : Loc) (hq : q ≠ p.loc ++ ["dummy.txt".toList]) :
    ((outputDirectory nd).run p fs).state.node? q = fs.node? q := by
  rw [← dummyName_eq] at hq
  rcases lookup_cases fs p.loc with ⟨n, h1, hl⟩ | ⟨hl, h⟩ | ⟨hl, hd, h⟩
  · cases n with
    | file c r w => simp [outputDirectory, M.bind, fsExists, hl, fsCreateDirectory, M.throw, Res.state]
    | special r w => simp [outputDirectory, M.bind, fsExists, hl, fsCreateDirectory, M.throw, Res.state]
    | dir r w x =>
      by_cases hn : ∀ n, ¬ Reaches fs (p.loc ++ [dummyName]) n
      · rw [(C42_existing_directory_partial nd p fs r w x h1 hn).1]
      · rw [outputDirectory_existing nd p fs r w x h1, rethrowFs_state]
        obtain ⟨n, hr⟩ := Classical.not_forall_not.1 hn
        have hl2 := (lookup_found_iff _ _ _).2 hr
        by_cases hc : CanCreate fs (p.loc ++ [dummyName])
        · cases n with
          | dir r w x => rw [writeability_dir nd hr]; rfl
          | file c r w => rw [(writeability_deletes nd hw hr (by simp) hc).1, node?_filter_ne, if_neg hq]
          | special r w => rw [(writeability_deletes nd hw hr (by simp) hc).1, node?_filter_ne, if_neg hq]
        · have hpw : parentWritable fs (p.loc ++ [dummyName]) = false := by
            cases h : parentWritable fs (p.loc ++ [dummyName]) with
            | false => rfl
            | true => exact absurd ((parentWritable_iff _ _).1 h) hc
          cases n with
          | dir r w x => rw [writeability_dir nd hr]; rfl
          | special r w =>
            cases w <;> cases nd <;> simp [validateWriteability, M.bind, fsIsDirectory, hl2, fsOpenForWriting, withGuard, M.throw,
              fsRemoveAll, fsRemove, hpw, Res.state]
          | file c r w =>
            cases w with
            | false => cases nd <;> simp [validateWriteability, M.bind, fsIsDirectory, hl2, fsOpenForWriting, withGuard, M.throw,
                fsRemoveAll, fsRemove, hpw, Res.state]
            | true =>
              have hl3 := lookup_replace_file (.file [] r true) hr
              have hpw' : parentWritable (fs.replace (p.loc ++ [dummyName]) (.file [] r true)) (p.loc ++ [dummyName]) = false := by
                rw [← hpw]
                refine parentWritable_congr fun q _ h2 => ?_
                rw [node?_replace, if_neg (fun h => h2 h.symm)]
              have : (validateWriteability nd (p.loc ++ [dummyName]) fs).state = fs.replace (p.loc ++ [dummyName]) (.file [] r true) := by
                cases nd <;> simp [validateWriteability, M.bind, fsIsDirectory, hl2, fsOpenForWriting, withGuard, M.throw,
                  fsRemoveAll, fsRemove, hl3, hpw', Res.state]
              rw [this, node?_replace, if_neg (fun h => hq h.symm)]
  · rw [(C42_new_directory nd p fs hw h).1]
  · rw [(C42_new_directory nd p fs hw h).1]

/-- C42 does not hold: a file `dummy.txt` in a directory that can be written to is deleted. -/
theorem C42_dummy_file_deleted (nd : Bool) (p : PathArg) (fs : Disk) (hw : WellFormed fs) (r : Bool) (hr : Reaches fs p.loc (.dir r true true))
    (n : Node) (hn : Reaches fs (p.loc ++ ["dummy.txt".toList]) n) (hnd : ∀ r w x, n ≠ .dir r w x) :
    ((outputDirectory nd).run p fs).state.node? (p.loc ++ ["dummy.txt".toList]) = none := by
  rw [← dummyName_eq] at hn ⊢
  rw [outputDirectory_existing nd p fs r true true hr, rethrowFs_state,
    (writeability_deletes nd hw hn hnd (canCreate_child.2 ⟨r, hr⟩)).1, node?_filter_ne, if_pos rfl]

/-- A directory that can be written to is rejected if it contains a directory `dummy.txt`. -/
theorem C42_dummy_directory_rejected (nd : Bool) (p : PathArg) (fs : Disk) (r : Bool) (hr : Reaches fs p.loc (.dir r true true))
    (r' w' x' : Bool) (hn : Reaches fs (p.loc ++ ["dummy.txt".toList]) (.dir r' w' x')) :
    (outputDirectory nd).run p fs = .err .validationError fs := by
  rw [← dummyName_eq] at hn
  rw [outputDirectory_existing nd p fs r true true hr]
  unfold rethrowFs
  rw [writeability_dir nd hn]

/-! ### Examples -/

/-- `/home/user` can be written to and holds `out.txt` and the protected `old.txt`; `/data` cannot be written to but holds a
writable file. -/
def exDisk : Disk :=
  [([], .dir true false true), (["home".toList], .dir true false true), (["home".toList, "user".toList], .dir true true true),
    (["home".toList, "user".toList, "out.txt".toList], .file "precious".toList true true),
    (["home".toList, "user".toList, "old.txt".toList], .file "older".toList true false),
    (["data".toList], .dir true false true), (["data".toList, "log.txt".toList], .file "log".toList true true)]

def exPath (l : List String) : PathArg := ⟨l.map String.toList, (l.map String.toList).getLast?.getD []⟩

instance (fs : Disk) (p : Loc) : Decidable (CanCreate fs p) := decidable_of_iff _ (parentWritable_iff fs p)

instance (fs : Disk) (p : Loc) (n : Node) : Decidable (Reaches fs p n) := decidable_of_iff _ (lookup_found_iff fs p n)

theorem nameAccepted_iff (exts : List Str) (name : Str) : (validateFilename exts name []).isOk = true ↔ NameAccepted exts name := by
  obtain ⟨h1, h2⟩ := validateFilename_spec exts name []
  by_cases h : NameAccepted exts name
  · rw [h1 h]; simp [h, Res.isOk]
  · rw [h2 h]; simp [h, Res.isOk]

instance (exts : List Str) (name : Str) : Decidable (NameAccepted exts name) := decidable_of_iff _ (nameAccepted_iff exts name)

theorem reaches_none_of {fs : Disk} {p : Loc} (h : fs.lookup p = .missing) (n : Node) : ¬ Reaches fs p n := by
  rw [← lookup_found_iff, h]; simp

/-- An existing file is deleted although its name is rejected. -/
example : ((outputFile true .openOrCreate ["fa".toList] []).run (exPath ["home", "user", "out.txt"]) exDisk).exn? = some .validationError ∧
    ((outputFile true .openOrCreate ["fa".toList] []).run (exPath ["home", "user", "out.txt"]) exDisk).state.node?
      (exPath ["home", "user", "out.txt"]).loc = none := by decide +kernel

/-- A file without write permission is rejected and deleted. -/
example : ((outputFile true .openOrCreate [] []).run (exPath ["home", "user", "old.txt"]) exDisk).exn? = some .validationError ∧
    ((outputFile true .openOrCreate [] []).run (exPath ["home", "user", "old.txt"]) exDisk).state.node?
      (exPath ["home", "user", "old.txt"]).loc = none := by decide +kernel

/-- `/data/log.txt` is emptied. -/
example : (outputFile true .openOrCreate [] []).run (exPath ["data", "log.txt"]) exDisk =
    .err .validationError (exDisk.replace (exPath ["data", "log.txt"]).loc (.file [] true true)) :=
  C41_open_or_create_truncates_the_file true [] [] _ exDisk "log".toList true (by decide +kernel) (by decide +kernel)

/-- A new file in the writable directory is accepted, one in `/data` is not. -/
example : (outputFile false .createNew ["txt".toList] []).run (exPath ["home", "user", "new.txt"]) exDisk = .ok () exDisk := by
  exact (C41_create_new_accepts_exactly _ _ _ _ _).2 ⟨reaches_none_of (by decide +kernel), by decide +kernel, by decide +kernel⟩

example : ((outputFile false .createNew [] []).run (exPath ["data", "new.txt"]) exDisk).exn? = some .validationError := by decide +kernel

/-! C42: an existing directory, a new one, one that cannot be created, and one with a file `dummy.txt`. -/

def isDirNode : Option Node → Bool
  | some (.dir _ _ _) => true
  | _ => false

instance (fs : Disk) : Decidable (∀ e ∈ fs, ∀ q c t, e.1 = q ++ c :: t → ∃ r w x, fs.node? q = some (.dir r w x)) :=
  decidable_of_iff (∀ e ∈ fs, ∀ k < e.1.length, isDirNode (fs.node? (e.1.take k)) = true) (by
    constructor
    · intro h e he q c t hq
      have := h e he q.length (by rw [hq]; simp)
      rw [hq, List.take_left] at this
      cases hn : fs.node? q with
      | none => simp [hn, isDirNode] at this
      | some n => cases n <;> simp [hn, isDirNode] at this ⊢
    · intro h e he k hk
      obtain ⟨r, w, x, hn⟩ := h e he (e.1.take k) (e.1[k]) (e.1.drop (k + 1)) (by simp)
      simp [hn, isDirNode])

instance (fs : Disk) : Decidable (WellFormed fs) := inferInstanceAs (Decidable (_ ∧ _))

example : (outputDirectory false).run (exPath ["home", "user"]) exDisk = .ok () exDisk :=
  (C42_existing_directory_partial false (exPath ["home", "user"]) exDisk true true true (by decide +kernel)
    (reaches_none_of (by decide +kernel))).2.2 ⟨rfl, rfl⟩

example : (outputDirectory false).run (exPath ["home", "user", "new"]) exDisk = .ok () exDisk :=
  (C42_new_directory false _ exDisk (by decide +kernel) (reaches_none_of (by decide +kernel))).2.2 (by decide +kernel)

example : ((outputDirectory false).run (exPath ["data", "new"]) exDisk).exn? = some .validationError := by decide +kernel

def exDisk₂ : Disk := (["home".toList, "user".toList, dummyName], .file "mine".toList true true) :: exDisk

example : ((outputDirectory true).run (exPath ["home", "user"]) exDisk₂).state.node? ((exPath ["home", "user"]).loc ++ [dummyName]) = none :=
  C42_dummy_file_deleted true (exPath ["home", "user"]) exDisk₂ (by decide +kernel) true (by decide +kernel) (.file "mine".toList true true)
    (by decide +kernel) (by simp)

/-! C40: readable and unreadable paths. -/

example : (inputFile ["txt".toList] []).run (exPath ["home", "user", "old.txt"]) exDisk = .ok () exDisk :=
  (C40_input_file _ _ _ _).1.2 ⟨⟨.file "older".toList true false, by decide +kernel, rfl⟩, by decide +kernel⟩

example : inputDirectory.run (exPath ["data"]) exDisk = .ok () exDisk :=
  (C40_input_directory _ _).1.2 ⟨false, true, by decide +kernel⟩

example : inputDirectory.run (exPath ["data", "log.txt"]) exDisk = .err .validationError exDisk :=
  (C40_input_directory _ _).2.2 fun ⟨w, x, h⟩ => by
    have := reaches_unique h (show Reaches exDisk _ (.file "log".toList true true) by decide +kernel)
    cases this

end Sharg
