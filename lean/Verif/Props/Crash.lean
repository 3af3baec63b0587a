import Verif.Lemmas.Crash

/-!
# Killed while a path is checked (C59)
-/

namespace Sharg

open Spec Steps

/-! ### Checks for inputs -/

/-- No step changes anything. -/
def Quiet {σ α : Type} : Steps σ α → Prop
  | .done _ => True
  | .step next rest => (∀ s, next s = s) ∧ ∀ s, Quiet (rest s)

theorem quiet_killed {σ α : Type} {p : Steps σ α} (h : Quiet p) (n : Nat) (s : σ) : p.killedAfter n s = s := by
  induction n generalizing p s with
  | zero => rfl
  | succ n ih =>
    cases p with
    | done r => rfl
    | step next rest =>
      show (rest s).killedAfter n (next s) = s
      rw [h.1 s]; exact ih (h.2 s) s

theorem quiet_handle {σ α β : Type} {p : Steps σ α} {k : Except Exn α → Steps σ β} (hp : Quiet p) (hk : ∀ r, Quiet (k r)) :
    Quiet (p.handle k) := by
  induction p with
  | done r => exact hk r
  | step next rest ih => exact ⟨hp.1, fun s => ih s (hp.2 s)⟩

theorem quiet_bind {σ α β : Type} {p : Steps σ α} {f : α → Steps σ β} (hp : Quiet p) (hf : ∀ a, Quiet (f a)) : Quiet (p.bind f) :=
  quiet_handle hp fun r => match r with
    | .ok a => hf a
    | .error _ => trivial

theorem quiet_atom {σ α : Type} {m : M σ α} (h : ∀ s, (m s).state = s) : Quiet (Steps.atom m) := ⟨h, fun _ => trivial⟩

theorem quiet_ite {σ α : Type} {c : Prop} [Decidable c] {p q : Steps σ α} (hp : Quiet p) (hq : Quiet q) : Quiet (if c then p else q) := by
  split
  · exact hp
  · exact hq

theorem quiet_rethrow {p : Steps Disk Unit} (hp : Quiet p) : Quiet (rethrowFsSteps p) :=
  quiet_handle hp fun r => match r with
    | .ok _ => trivial
    | .error e => by cases e <;> trivial

theorem quiet_exists (p : Loc) : Quiet (Steps.atom (fsExists p)) :=
  quiet_atom fun s => by unfold fsExists; split <;> rfl

theorem quiet_isDirectory (p : Loc) : Quiet (Steps.atom (fsIsDirectory p)) :=
  quiet_atom fun s => by unfold fsIsDirectory; split <;> rfl

theorem quiet_readability (p : Loc) : Quiet (validateReadabilitySteps p) := by
  refine quiet_bind (quiet_isDirectory p) fun isDir => quiet_ite ?_ ?_
  · exact quiet_bind (quiet_atom fun s => by unfold fsCanList; split <;> rfl) fun ok => quiet_ite trivial trivial
  · refine quiet_bind (quiet_atom fun s => by unfold fsIsRegularFile; split <;> rfl) fun isFile => quiet_ite trivial ?_
    exact quiet_bind (quiet_atom fun s => by unfold fsCanRead; split <;> rfl) fun ok => quiet_ite trivial trivial

/-- C59: a check for an input does not change anything at any moment. -/
theorem C59_inputs_untouched (c : PathCheck) (hc : c.isOutput = false) (n : Nat) (fs : Disk) : c.steps.killedAfter n fs = fs := by
  refine quiet_killed ?_ n fs
  cases c with
  | inputFile exts p =>
    exact quiet_rethrow (quiet_bind (quiet_exists _) fun there => quiet_ite trivial (quiet_bind (quiet_readability _) fun _ => trivial))
  | inputDirectory p =>
    exact quiet_rethrow (quiet_bind (quiet_exists _) fun there => quiet_ite trivial
      (quiet_bind (quiet_isDirectory _) fun isDir => quiet_ite trivial (quiet_readability _)))
  | outputFile nd mode exts p => cases hc
  | outputDirectory nd p => cases hc

/-! ### Checks for outputs -/

/-- C59: whenever the program is killed during a check for an output, everything that is not at or below the given path is as before. -/
theorem C59_outside_kept (c : PathCheck) (n : Nat) (fs : Disk) (ht : (fs.map (·.1)).Nodup) (q : Loc) (hq : ¬ c.loc <+: q) :
    (c.steps.killedAfter n fs).node? q = fs.node? q :=
  (localSteps_after n (PathCheck.local c) ht).2.2 q fun h => hq h.2

/-- C59: killed in `create_new` mode, the disk is as before, or it has one more, empty, file: the given one. -/
theorem C59_create_new_moments (nd : Bool) (exts : List Str) (p : PathArg) (n : Nat) (fs : Disk) :
    (outputFileSteps nd .createNew exts p).killedAfter n fs = fs ∨
    ((∀ x, ¬ Reaches fs p.loc x) ∧ CanCreate fs p.loc ∧
      (outputFileSteps nd .createNew exts p).killedAfter n fs = (p.loc, .file [] true true) :: fs) := by
  revert n
  refine (always_iff (I := fun d => d = fs ∨ ((∀ x, ¬ Reaches fs p.loc x) ∧ CanCreate fs p.loc ∧ d = (p.loc, .file [] true true) :: fs))).1 ?_
  rcases lookup_cases fs p.loc with ⟨x, h1, hl⟩ | ⟨hl, h1⟩ | ⟨hl, hd, h1⟩
  · by_cases hx : ∃ r w z, x = .dir r w z
    · obtain ⟨r, w, z, rfl⟩ := hx
      have hd : fsIsDirectory p.loc fs = .ok true fs := by simp [fsIsDirectory, hl]
      exact always_bind_ok hd (Or.inl rfl) (Or.inl rfl)
    · have hd : fsIsDirectory p.loc fs = .ok false fs := by
        cases x with
        | dir r w z => exact absurd ⟨r, w, z, rfl⟩ hx
        | file c r w => simp [fsIsDirectory, hl]
        | special r w => simp [fsIsDirectory, hl]
      refine always_bind_ok hd (Or.inl rfl) ?_
      have he : fsExists p.loc fs = .ok true fs := by simp [fsExists, hl]
      have hall : Always (fun d => d = fs ∨ ((∀ x, ¬ Reaches fs p.loc x) ∧ CanCreate fs p.loc ∧ d = (p.loc, .file [] true true) :: fs))
          ((if OpenMode.createNew = .createNew then Steps.atom (fsExists p.loc) else Steps.pure false).bind fun there =>
            if there then Steps.throw .validationError
            else (validateWriteabilitySteps nd p.loc).bind fun _ => validateFilenameSteps exts p.name) fs :=
        always_bind_ok he (Or.inl rfl) (Or.inl rfl)
      exact always_rethrow hall (always_end hall)
  · exact always_outputFile_missing nd .createNew exts p hl (Or.inl rfl) fun hc => Or.inr ⟨h1, hc, rfl⟩
  · have hd : fsIsDirectory p.loc fs = .err .filesystemError fs := by simp [fsIsDirectory, hl]
    exact always_bind_err hd (Or.inl rfl) (Or.inl rfl)

/-- C59: killed in `open_or_create` mode for a path with nothing there, the disk is as before, or it has one more, empty, file: the
given one. -/
theorem C59_open_or_create_new_moments (nd : Bool) (exts : List Str) (p : PathArg) (n : Nat) (fs : Disk) (h : ∀ x, ¬ Reaches fs p.loc x) :
    (outputFileSteps nd .openOrCreate exts p).killedAfter n fs = fs ∨
    (CanCreate fs p.loc ∧ (outputFileSteps nd .openOrCreate exts p).killedAfter n fs = (p.loc, .file [] true true) :: fs) := by
  revert n
  refine (always_iff (I := fun d => d = fs ∨ (CanCreate fs p.loc ∧ d = (p.loc, .file [] true true) :: fs))).1 ?_
  rcases lookup_cases fs p.loc with ⟨x, h1, hl⟩ | ⟨hl, h1⟩ | ⟨hl, hd, h1⟩
  · exact absurd h1 (h x)
  · exact always_outputFile_missing nd .openOrCreate exts p hl (Or.inl rfl) fun hc => Or.inr ⟨hc, rfl⟩
  · have hd : fsIsDirectory p.loc fs = .err .filesystemError fs := by simp [fsIsDirectory, hl]
    exact always_bind_err hd (Or.inl rfl) (Or.inl rfl)

/-- C59: killed in `open_or_create` mode for an existing file, the disk is as before, or the file is empty, or the file is gone; nothing
else is different. -/
theorem C59_open_or_create_existing_moments (nd : Bool) (exts : List Str) (p : PathArg) (n : Nat) (fs : Disk) (hw : WellFormed fs)
    (x : Node) (hr : Reaches fs p.loc x) (hnd : ∀ r w z, x ≠ .dir r w z) :
    (outputFileSteps nd .openOrCreate exts p).killedAfter n fs = fs ∨
    (∃ c r, x = .file c r true ∧ (outputFileSteps nd .openOrCreate exts p).killedAfter n fs = fs.replace p.loc (.file [] r true)) ∨
    (CanCreate fs p.loc ∧ (outputFileSteps nd .openOrCreate exts p).killedAfter n fs = fs.filter fun e => decide (e.1 ≠ p.loc)) := by
  revert n
  refine (always_iff (I := fun d => d = fs ∨ (∃ c r, x = .file c r true ∧ d = fs.replace p.loc (.file [] r true)) ∨
    (CanCreate fs p.loc ∧ d = fs.filter fun e => decide (e.1 ≠ p.loc)))).1 ?_
  exact always_outputFile_file nd exts p hw hr hnd (Or.inl rfl) (fun c r e => Or.inr (Or.inl ⟨c, r, e, rfl⟩))
    fun hc => Or.inr (Or.inr ⟨hc, rfl⟩)

/-- C59: killed while a directory that does not exist is checked, the disk is as before, or it has one more directory: the given one,
either empty or with an empty file `dummy.txt`. -/
theorem C59_new_directory_moments (nd : Bool) (p : PathArg) (n : Nat) (fs : Disk) (hw : WellFormed fs) (h : ∀ x, ¬ Reaches fs p.loc x) :
    (outputDirectorySteps nd p).killedAfter n fs = fs ∨
    (CanCreate fs p.loc ∧ ((outputDirectorySteps nd p).killedAfter n fs = (p.loc, .dir true true true) :: fs ∨
      (outputDirectorySteps nd p).killedAfter n fs =
        (p.loc ++ ["dummy.txt".toList], .file [] true true) :: (p.loc, .dir true true true) :: fs)) := by
  rw [← dummyName_eq]
  revert n
  refine (always_iff (I := fun d => d = fs ∨ (CanCreate fs p.loc ∧ (d = (p.loc, .dir true true true) :: fs ∨
    d = (p.loc ++ [dummyName], .file [] true true) :: (p.loc, .dir true true true) :: fs)))).1 ?_
  rcases lookup_cases fs p.loc with ⟨x, h1, hl⟩ | ⟨hl, h1⟩ | ⟨hl, hd, h1⟩
  · exact absurd h1 (h x)
  · exact always_outputDirectory_missing nd p hw hl (Or.inl rfl) (fun hc => Or.inr ⟨hc, Or.inl rfl⟩) fun hc => Or.inr ⟨hc, Or.inr rfl⟩
  · have hd : fsExists p.loc fs = .err .filesystemError fs := by simp [fsExists, hl]
    exact always_bind_err hd (Or.inl rfl) (Or.inl rfl)

/-- C59: killed while an existing directory is checked, everything is as before, except possibly its `dummy.txt`. -/
theorem C59_existing_directory_moments (nd : Bool) (p : PathArg) (n : Nat) (fs : Disk) (ht : (fs.map (·.1)).Nodup)
    (r w x : Bool) (hr : Reaches fs p.loc (.dir r w x)) (q : Loc) (hq : ¬ p.loc ++ ["dummy.txt".toList] <+: q) :
    ((outputDirectorySteps nd p).killedAfter n fs).node? q = fs.node? q := by
  rw [← dummyName_eq] at hq
  revert n
  refine (always_iff (I := fun d : Disk => d.node? q = fs.node? q)).1 ?_
  have hl := (lookup_found_iff _ _ _).2 hr
  have he : fsExists p.loc fs = .ok true fs := by simp [fsExists, hl]
  have hc : fsCreateDirectory p.loc fs = .ok true fs := by simp [fsCreateDirectory, hl]
  refine always_bind_ok he rfl (always_bind_ok hc rfl ?_)
  have hls : LocalSteps (Near (p.loc ++ [dummyName])) (Below (p.loc ++ [dummyName])) (validateWriteabilitySteps nd (p.loc ++ [dummyName])) :=
    localSteps_writeability nd _ (local_widen (local_isDirectory _)) (local_openForWriting _) (local_remove _) (local_removeAll _)
  have hv : Always (fun d : Disk => d.node? q = fs.node? q) (validateWriteabilitySteps nd (p.loc ++ [dummyName])) fs :=
    always_iff.2 fun n => (localSteps_after n hls ht).2.2 q hq
  exact always_rethrow hv (always_end hv)

/-! ### Started again after a crash -/

/-- C59 does not hold for the next run: a `create_new` path that is accepted can, if the program is killed during the check, be left with an
empty file, and then the same command line is rejected. -/
theorem C59_create_new_leftover (nd : Bool) (exts : List Str) (help : Str) (p : PathArg) (fs : Disk)
    (h : (outputFile nd .createNew exts help).run p fs = .ok () fs) :
    ∃ n, (outputFileSteps nd .createNew exts p).killedAfter n fs = (p.loc, .file [] true true) :: fs ∧
      (outputFile nd .createNew exts help).run p ((outputFileSteps nd .createNew exts p).killedAfter n fs) =
        .err .validationError ((p.loc, .file [] true true) :: fs) := by
  obtain ⟨h1, hc, -⟩ := (C41_create_new_accepts_exactly nd exts help p fs).1 h
  have hl : fs.lookup p.loc = .missing := by
    rcases lookup_cases fs p.loc with ⟨x, h2, hl⟩ | ⟨hl, _⟩ | ⟨hl, hd, _⟩
    · exact absurd h2 (h1 x)
    · exact hl
    · exact absurd hd (canCreate_not_denied hc)
  have hpw := (parentWritable_iff _ _).2 hc
  have hk : (outputFileSteps nd .createNew exts p).killedAfter 4 fs = (p.loc, .file [] true true) :: fs := by
    simp [outputFileSteps, Steps.bind, Steps.handle, Steps.atom, fsIsDirectory, fsExists, fsOpenForWriting, hl, hpw, rethrowFsSteps,
      validateWriteabilitySteps, Steps.killedAfter, Res.outcome, Res.state]
  refine ⟨4, hk, ?_⟩
  rw [hk]
  have hl' := (lookup_found_iff _ _ _).2 (reaches_new (.file [] true true) hl hc)
  simp [outputFile, M.bind, fsIsDirectory, fsExists, hl', rethrowFs, M.throw]

/-- The leftover file can be deleted: nothing else was changed. -/
theorem C59_create_new_leftover_harmless (nd : Bool) (exts : List Str) (p : PathArg) (n : Nat) (fs : Disk) (h : ∀ x, ¬ Reaches fs p.loc x)
    (hc : CanCreate fs p.loc) :
    ((outputFileSteps nd .createNew exts p).killedAfter n fs).filter (fun e => decide (e.1 ≠ p.loc)) = fs := by
  have hl : fs.lookup p.loc = .missing := by
    rcases lookup_cases fs p.loc with ⟨x, h2, hl⟩ | ⟨hl, _⟩ | ⟨hl, hd, _⟩
    · exact absurd h2 (h x)
    · exact hl
    · exact absurd hd (canCreate_not_denied hc)
  have hn := node_none hl hc
  rcases C59_create_new_moments nd exts p n fs with e | ⟨-, -, e⟩
  · rw [e, List.filter_eq_self]
    intro a ha
    simp [node?_eq_none.1 hn a ha]
  · rw [e]
    exact filter_new fs p.loc _ hn

/-- Whether an object can be opened for writing. -/
def OpensForWriting : Node → Prop
  | .file _ _ w => w = true
  | .special _ w => w = true
  | .dir _ _ _ => False

/-- When `validate_writeability` accepts. -/
theorem writeability_ok_iff (nd : Bool) {p : Loc} {fs : Disk} (hw : WellFormed fs) :
    (validateWriteability nd p fs).isOk = true ↔ CanCreate fs p ∧ ∀ n, Reaches fs p n → OpensForWriting n := by
  rcases lookup_cases fs p with ⟨n, h1, hl⟩ | ⟨hl, h1⟩ | ⟨hl, hd, h1⟩
  · by_cases hc : CanCreate fs p
    · cases n with
      | dir r w x =>
        rw [writeability_dir nd h1]
        exact ⟨(fun h => nomatch h), fun h => (h.2 _ h1).elim⟩
      | file c r w =>
        obtain ⟨hst, _⟩ := writeability_deletes nd hw h1 (by simp) hc
        have hall := removeAll_file hw h1 (by simp) hc
        have hpw := (parentWritable_iff _ _).2 hc
        have hgone : fsRemoveAll p (fs.filter fun e => decide (e.1 ≠ p)) = .ok () (fs.filter fun e => decide (e.1 ≠ p)) := by
          have := lookup_after_remove (fs := fs) (p := p) (fun q => decide (q ≠ p)) (by simp) hc
          simp only [fsRemoveAll, this]
        cases w with
        | true =>
          have hpw' : parentWritable (fs.replace p (.file [] r true)) p = true := by
            rw [← hpw]
            refine parentWritable_congr fun q _ h2 => ?_
            rw [node?_replace, if_neg (fun h => h2 h.symm)]
          have hrm : fsRemove p (fs.replace p (.file [] r true)) = .ok () (fs.filter fun e => decide (e.1 ≠ p)) := by
            simp only [fsRemove, lookup_replace_file _ h1, hpw', if_true, filter_replace]
          have : validateWriteability nd p fs = .ok () (fs.filter fun e => decide (e.1 ≠ p)) := by
            simp only [validateWriteability, M.bind, fsIsDirectory, hl, fsOpenForWriting, withGuard, Bool.not_true,
              Bool.false_eq_true, if_false, if_true, hrm, hgone]
          rw [this]
          refine ⟨fun _ => ⟨hc, fun n hn => ?_⟩, fun _ => rfl⟩
          rw [reaches_unique hn h1]; rfl
        | false =>
          have : validateWriteability nd p fs = .err .validationError (fs.filter fun e => decide (e.1 ≠ p)) := by
            simp only [validateWriteability, M.bind, fsIsDirectory, hl, fsOpenForWriting, withGuard, Bool.not_false,
              Bool.false_eq_true, if_false, if_true, M.throw, hall]
          rw [this]
          exact ⟨(fun h => nomatch h), fun h => absurd (h.2 _ h1) (by simp [OpensForWriting])⟩
      | special r w =>
        have hall := removeAll_file hw h1 (by simp) hc
        have hpw := (parentWritable_iff _ _).2 hc
        have hgone : fsRemoveAll p (fs.filter fun e => decide (e.1 ≠ p)) = .ok () (fs.filter fun e => decide (e.1 ≠ p)) := by
          have := lookup_after_remove (fs := fs) (p := p) (fun q => decide (q ≠ p)) (by simp) hc
          simp only [fsRemoveAll, this]
        cases w with
        | true =>
          have hrm : fsRemove p fs = .ok () (fs.filter fun e => decide (e.1 ≠ p)) := by
            simp only [fsRemove, hl, hpw, if_true]
          have : validateWriteability nd p fs = .ok () (fs.filter fun e => decide (e.1 ≠ p)) := by
            simp only [validateWriteability, M.bind, fsIsDirectory, hl, fsOpenForWriting, withGuard, Bool.not_true,
              Bool.false_eq_true, if_false, hrm, hgone]
          rw [this]
          refine ⟨fun _ => ⟨hc, fun n hn => ?_⟩, fun _ => rfl⟩
          rw [reaches_unique hn h1]; rfl
        | false =>
          have : validateWriteability nd p fs = .err .validationError (fs.filter fun e => decide (e.1 ≠ p)) := by
            simp only [validateWriteability, M.bind, fsIsDirectory, hl, fsOpenForWriting, withGuard, Bool.not_false,
              Bool.false_eq_true, if_false, if_true, M.throw, hall]
          rw [this]
          exact ⟨(fun h => nomatch h), fun h => absurd (h.2 _ h1) (by simp [OpensForWriting])⟩
    · refine ⟨fun h => ?_, fun h => absurd h.1 hc⟩
      exfalso
      have hpw := parentWritable_eq_false hc
      cases n with
      | dir r w x => rw [writeability_dir nd h1] at h; cases h
      | special r w =>
        cases w <;> cases nd <;> simp [validateWriteability, M.bind, fsIsDirectory, hl, fsOpenForWriting, withGuard, M.throw,
          fsRemoveAll, fsRemove, hpw, Res.isOk] at h
      | file c r w =>
        cases w with
        | false => cases nd <;> simp [validateWriteability, M.bind, fsIsDirectory, hl, fsOpenForWriting, withGuard, M.throw,
            fsRemoveAll, hpw, Res.isOk] at h
        | true =>
          have hl3 := lookup_replace_file (.file [] r true) h1
          have hpw' : parentWritable (fs.replace p (.file [] r true)) p = false := by
            rw [← hpw]
            refine parentWritable_congr fun q _ h2 => ?_
            rw [node?_replace, if_neg (fun h => h2 h.symm)]
          cases nd <;> simp [validateWriteability, M.bind, fsIsDirectory, hl, fsOpenForWriting, withGuard,
            fsRemoveAll, fsRemove, hl3, hpw', Res.isOk] at h
  · obtain ⟨h2, h3⟩ := writeability_missing nd hl
    by_cases hc : CanCreate fs p
    · rw [h2 hc]; exact ⟨fun _ => ⟨hc, fun n hn => absurd hn (h1 n)⟩, fun _ => rfl⟩
    · rw [h3 hc]; exact ⟨(fun h => nomatch h), fun h => absurd h.1 hc⟩
  · rw [writeability_denied nd hl]
    exact ⟨(fun h => nomatch h), fun h => absurd hd (canCreate_not_denied h.1)⟩

/-- C41: a path is accepted in `open_or_create` mode exactly if files can be created in and removed from its directory, what is there
can be opened for writing, and its name is accepted. -/
theorem C41_open_or_create_accepts_exactly (nd : Bool) (exts : List Str) (help : Str) (p : PathArg) {fs : Disk} (hw : WellFormed fs) :
    ((outputFile nd .openOrCreate exts help).run p fs).isOk = true ↔
      CanCreate fs p.loc ∧ (∀ n, Reaches fs p.loc n → OpensForWriting n) ∧ NameAccepted exts p.name := by
  have key : ∀ fs', fsIsDirectory p.loc fs = .ok false fs' → fs' = fs →
      (((outputFile nd .openOrCreate exts help).run p fs).isOk = true ↔
        (validateWriteability nd p.loc fs).isOk = true ∧ NameAccepted exts p.name) := by
    intro fs' hd e
    subst e
    have e : (outputFile nd .openOrCreate exts help).run p fs' =
        rethrowFs (M.bind (validateWriteability nd p.loc) fun _ => validateFilename exts p.name) fs' := by
      simp [outputFile, M.bind, hd, M.pure, rethrowFs]
    rw [e]
    cases hv : validateWriteability nd p.loc fs' with
    | err x s =>
      refine ⟨fun h => ?_, (fun h => nomatch h.1)⟩
      simp only [rethrowFs, M.bind, hv] at h
      cases x <;> cases h
    | ok u s =>
      by_cases hn : NameAccepted exts p.name
      · simp [rethrowFs, M.bind, hv, (validateFilename_spec exts p.name s).1 hn, Res.isOk, hn]
      · simp [rethrowFs, M.bind, hv, (validateFilename_spec exts p.name s).2 hn, Res.isOk, hn]
  rcases lookup_cases fs p.loc with ⟨n, h1, hl⟩ | ⟨hl, h1⟩ | ⟨hl, hd, h1⟩
  · cases n with
    | dir r w x =>
      have : ((outputFile nd .openOrCreate exts help).run p fs).isOk = false := by
        simp [outputFile, M.bind, fsIsDirectory, hl, M.throw, Res.isOk]
      rw [this]
      exact ⟨(fun h => nomatch h), fun h => (h.2.1 _ h1).elim⟩
    | file c r w => rw [key fs (by simp [fsIsDirectory, hl]) rfl, writeability_ok_iff nd hw, and_assoc]
    | special r w => rw [key fs (by simp [fsIsDirectory, hl]) rfl, writeability_ok_iff nd hw, and_assoc]
  · rw [key fs (by simp [fsIsDirectory, hl]) rfl, writeability_ok_iff nd hw, and_assoc]
  · have : ((outputFile nd .openOrCreate exts help).run p fs).isOk = false := by
      simp [outputFile, M.bind, fsIsDirectory, hl, Res.isOk]
    rw [this]
    exact ⟨(fun h => nomatch h), fun h => absurd hd (canCreate_not_denied h.1)⟩

theorem wellFormed_new {fs : Disk} (hw : WellFormed fs) {p : Loc} (n : Node) (hn : fs.node? p = none) (hc : CanCreate fs p) :
    WellFormed ((p, n) :: fs) := by
  have up : ∀ q r w x, fs.node? q = some (.dir r w x) → Disk.node? ((p, n) :: fs) q = some (.dir r w x) := by
    intro q r w x h
    rw [node?_cons, if_neg (fun e => by rw [← e, hn] at h; cases h)]
    exact h
  refine ⟨?_, ?_⟩
  · rw [List.map_cons, List.nodup_cons]
    refine ⟨fun h => ?_, hw.1⟩
    obtain ⟨e, he, h1⟩ := List.mem_map.1 h
    exact node?_eq_none.1 hn e he h1
  · intro e he q c t h
    rcases List.mem_cons.1 he with rfl | he
    · obtain ⟨q', c', r, rfl, hr⟩ := hc
      rcases List.eq_nil_or_concat t with rfl | ⟨t', z, rfl⟩
      · have := List.append_inj' (show q' ++ [c'] = q ++ [c] from h) (by simp)
        rw [← this.1]
        exact ⟨r, true, true, up _ _ _ _ hr.1⟩
      · have h' : q' ++ [c'] = (q ++ c :: t') ++ [z] := (show q' ++ [c'] = q ++ c :: t'.concat z from h).trans (by simp)
        have := List.append_inj' h' (by simp)
        obtain ⟨r2, w2, h2⟩ := hr.2 q c t' this.1
        exact ⟨r2, w2, true, up _ _ _ _ h2⟩
    · obtain ⟨r, w, x, h2⟩ := hw.2 e he q c t h
      exact ⟨r, w, x, up _ _ _ _ h2⟩

theorem wellFormed_replace {fs : Disk} (hw : WellFormed fs) {p : Loc} {m : Node} (n : Node) (hm : fs.node? p = some m)
    (hnd : ∀ r w x, m ≠ .dir r w x) : WellFormed (fs.replace p n) := by
  refine ⟨?_, ?_⟩
  · have : (fs.replace p n).map (·.1) = fs.map (·.1) := by
      unfold Disk.replace
      rw [List.map_map]
      refine List.map_congr_left fun e _ => ?_
      by_cases h : e.1 = p
      · simp [h]
      · simp [h]
    rw [this]; exact hw.1
  · intro e he q c t h
    have hloc : ∃ e' ∈ fs, e'.1 = e.1 := by
      obtain ⟨e', he', h1⟩ := List.mem_map.1 he
      refine ⟨e', he', ?_⟩
      by_cases h2 : e'.1 = p
      · rw [if_pos h2] at h1; rw [← h1]; exact h2
      · rw [if_neg h2] at h1; rw [h1]
    obtain ⟨e', he', h1⟩ := hloc
    obtain ⟨r, w, x, h2⟩ := hw.2 e' he' q c t (h1.trans h)
    refine ⟨r, w, x, ?_⟩
    rw [node?_replace, if_neg]
    · exact h2
    · intro e2
      rw [← e2, hm] at h2
      injection h2 with h2
      exact hnd r w x h2

theorem wellFormed_remove {fs : Disk} (hw : WellFormed fs) {p : Loc} {m : Node} (hm : fs.node? p = some m)
    (hnd : ∀ r w x, m ≠ .dir r w x) : WellFormed (fs.filter fun e => decide (e.1 ≠ p)) := by
  refine ⟨hw.1.sublist (List.filter_sublist.map _), ?_⟩
  intro e he q c t h
  obtain ⟨r, w, x, h2⟩ := hw.2 e (List.mem_filter.1 he).1 q c t h
  refine ⟨r, w, x, ?_⟩
  rw [node?_filter_ne, if_neg]
  · exact h2
  · intro e2
    rw [e2, hm] at h2
    injection h2 with h2
    exact hnd r w x h2

/-- C59: killed during a check in `open_or_create` mode of a path that is accepted, the same command line is still accepted. -/
theorem C59_open_or_create_again_partial (nd : Bool) (exts : List Str) (help : Str) (p : PathArg) (n : Nat) (fs : Disk) (hw : WellFormed fs)
    (h : ((outputFile nd .openOrCreate exts help).run p fs).isOk = true) :
    ((outputFile nd .openOrCreate exts help).run p ((outputFileSteps nd .openOrCreate exts p).killedAfter n fs)).isOk = true := by
  obtain ⟨hc, ho, hn⟩ := (C41_open_or_create_accepts_exactly nd exts help p hw).1 h
  by_cases hx : ∀ x, ¬ Reaches fs p.loc x
  · rcases C59_open_or_create_new_moments nd exts p n fs hx with e | ⟨-, e⟩
    · rw [e]; exact h
    · rw [e]
      have hl : fs.lookup p.loc = .missing := by
        rcases lookup_cases fs p.loc with ⟨x, h2, _⟩ | ⟨hl, _⟩ | ⟨_, hd, _⟩
        · exact absurd h2 (hx x)
        · exact hl
        · exact absurd hd (canCreate_not_denied hc)
      have hr := reaches_new (.file [] true true) hl hc
      refine (C41_open_or_create_accepts_exactly nd exts help p (wellFormed_new hw _ (node_none hl hc) hc)).2
        ⟨canCreate_congr (fun q _ h2 => ?_) hc, fun m hm => ?_, hn⟩
      · rw [node?_cons, if_neg (fun h => h2 h.symm)]
      · rw [reaches_unique hm hr]; rfl
  · obtain ⟨x, hr⟩ := Classical.not_forall_not.1 hx
    have hnd : ∀ r w z, x ≠ .dir r w z := by
      rintro r w z rfl
      exact ho _ hr
    rcases C59_open_or_create_existing_moments nd exts p n fs hw x hr hnd with e | ⟨c, r, -, e⟩ | ⟨-, e⟩
    · rw [e]; exact h
    · rw [e]
      refine (C41_open_or_create_accepts_exactly nd exts help p (wellFormed_replace hw _ hr.1 hnd)).2
        ⟨canCreate_congr (fun q _ h2 => ?_) hc, fun m hm => ?_, hn⟩
      · rw [node?_replace, if_neg (fun h => h2 h.symm)]
      · have := (lookup_found_iff _ _ _).1 (lookup_replace_file (.file [] r true) hr)
        rw [reaches_unique hm this]; rfl
    · rw [e]
      refine (C41_open_or_create_accepts_exactly nd exts help p (wellFormed_remove hw hr.1 hnd)).2
        ⟨canCreate_congr (fun q _ h2 => ?_) hc, fun m hm => ?_, hn⟩
      · rw [node?_filter_ne, if_neg h2]
      · have := hm.1
        rw [node?_filter_ne, if_pos rfl] at this
        cases this

/-- C59: killed during the check of a directory that does not exist and is accepted, the same command line is still accepted. -/
theorem C59_new_directory_again_partial (nd : Bool) (p : PathArg) (n : Nat) (fs : Disk) (hw : WellFormed fs) (h : ∀ x, ¬ Reaches fs p.loc x)
    (hok : ((outputDirectory nd).run p fs).isOk = true) :
    ((outputDirectory nd).run p ((outputDirectorySteps nd p).killedAfter n fs)).isOk = true := by
  rcases C59_new_directory_moments nd p n fs hw h with e | ⟨hc, e⟩
  · rw [e]; exact hok
  · have hl : fs.lookup p.loc = .missing := by
      rcases lookup_cases fs p.loc with ⟨x, h2, _⟩ | ⟨hl, _⟩ | ⟨_, hd, _⟩
      · exact absurd h2 (h x)
      · exact hl
      · exact absurd hd (canCreate_not_denied hc)
    have hw1 := wellFormed_new hw (.dir true true true) (node_none hl hc) hc
    have hr1 := reaches_new (.dir true true true) hl hc
    have hc1 : CanCreate ((p.loc, .dir true true true) :: fs) (p.loc ++ [dummyName]) := canCreate_child.2 ⟨true, hr1⟩
    have hn1 := child_of_new hw (node_none hl hc) (.dir true true true) dummyName
    have hl1 := lookup_missing_of hn1 hc1
    have key : ∀ gs : Disk, WellFormed gs → Reaches gs p.loc (.dir true true true) →
        (∀ m, Reaches gs (p.loc ++ [dummyName]) m → OpensForWriting m) → ((outputDirectory nd).run p gs).isOk = true := by
      intro gs hg hr hm
      rw [outputDirectory_existing nd p gs true true true hr]
      have := (writeability_ok_iff nd (p := p.loc ++ [dummyName]) hg).2 ⟨canCreate_child.2 ⟨true, hr⟩, hm⟩
      unfold rethrowFs
      cases hv : validateWriteability nd (p.loc ++ [dummyName]) gs with
      | ok u s => rfl
      | err x s => rw [hv] at this; cases this
    rcases e with e | e
    · rw [e]
      exact key _ hw1 hr1 fun m hm => by have := hm.1; rw [hn1] at this; cases this
    · rw [e]
      have hr2 := reaches_new (.file [] true true) hl1 hc1
      refine key _ (wellFormed_new hw1 _ hn1 hc1) ⟨?_, fun q c t ht => ?_⟩ fun m hm => ?_
      · rw [node?_cons, if_neg (by intro e; have := congrArg List.length e; simp at this)]; exact hr1.1
      · rw [node?_cons, if_neg (by intro e; have h1 := congrArg List.length e; have h2 := congrArg List.length ht; simp at h1 h2; omega)]
        exact hr1.2 q c t ht
      · rw [reaches_unique hm hr2]; rfl

/-! ### Examples -/

/-- A check of a new file in `create_new` mode that is killed after four steps, and the next run. -/
example : (outputFileSteps false .createNew ["txt".toList] (exPath ["home", "user", "new.txt"])).killedAfter 4 exDisk =
      ((exPath ["home", "user", "new.txt"]).loc, .file [] true true) :: exDisk ∧
    ((outputFile false .createNew ["txt".toList] []).run (exPath ["home", "user", "new.txt"])
      ((outputFileSteps false .createNew ["txt".toList] (exPath ["home", "user", "new.txt"])).killedAfter 4 exDisk)).exn? =
      some .validationError := by decide +kernel

/-- The hypotheses of `C59_create_new_leftover` and `C59_create_new_leftover_harmless`. -/
example : ((outputFile false .createNew ["txt".toList] []).run (exPath ["home", "user", "new.txt"]) exDisk).isOk = true ∧
    WellFormed exDisk ∧ exDisk.lookup (exPath ["home", "user", "new.txt"]).loc = .missing ∧
    CanCreate exDisk (exPath ["home", "user", "new.txt"]).loc := by decide +kernel

/-- A directory that is created for the check is there after two steps, and its `dummy.txt` after four. -/
example : (outputDirectorySteps false (exPath ["home", "user", "new"])).killedAfter 2 exDisk =
      ((exPath ["home", "user", "new"]).loc, .dir true true true) :: exDisk ∧
    (outputDirectorySteps false (exPath ["home", "user", "new"])).killedAfter 4 exDisk =
      ((exPath ["home", "user", "new"]).loc ++ [dummyName], .file [] true true) ::
        ((exPath ["home", "user", "new"]).loc, .dir true true true) :: exDisk ∧
    (outputDirectorySteps false (exPath ["home", "user", "new"])).killedAfter 40 exDisk = exDisk ∧
    ((outputDirectory false).run (exPath ["home", "user", "new"]) exDisk).isOk = true := by decide +kernel

/-- A file that exists is empty after three steps in `open_or_create` mode, and then gone; the path is accepted. -/
example : ((outputFileSteps false .openOrCreate [] (exPath ["home", "user", "out.txt"])).killedAfter 3 exDisk).node?
      (exPath ["home", "user", "out.txt"]).loc = some (.file [] true true) ∧
    ((outputFileSteps false .openOrCreate [] (exPath ["home", "user", "out.txt"])).killedAfter 4 exDisk).node?
      (exPath ["home", "user", "out.txt"]).loc = none ∧
    ((outputFile false .openOrCreate [] []).run (exPath ["home", "user", "out.txt"]) exDisk).isOk = true ∧
    exDisk.lookup (exPath ["home", "user", "out.txt"]).loc = .found (.file "precious".toList true true) := by decide +kernel

/-- An existing directory with a `dummy.txt`. -/
example : exDisk₂.lookup (exPath ["home", "user"]).loc = .found (.dir true true true) ∧
    ((outputDirectorySteps false (exPath ["home", "user"])).killedAfter 40 exDisk₂).node? ((exPath ["home", "user"]).loc ++ [dummyName]) = none ∧
    (exDisk₂.map (·.1)).Nodup := by decide +kernel

end Sharg
