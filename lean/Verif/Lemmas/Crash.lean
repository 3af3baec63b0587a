import Verif.Lemmas.Machine
import Verif.Props.Files

/-!
# States at which a program can be killed
-/

namespace Sharg

open Spec

namespace Steps

variable {σ α β : Type}

/-- `I` holds at every moment of an undisturbed run. -/
def Always (I : σ → Prop) : Steps σ α → σ → Prop
  | .done _, s => I s
  | .step next rest, s => I s ∧ Always I (rest s) (next s)

theorem always_iff {I : σ → Prop} {p : Steps σ α} {s : σ} : Always I p s ↔ ∀ n, I (p.killedAfter n s) := by
  induction p generalizing s with
  | done r => exact ⟨fun h n => (killedAfter_done n r s).symm ▸ h, fun h => h 0⟩
  | step next rest ih =>
    constructor
    · rintro ⟨h1, h2⟩ n
      cases n with
      | zero => exact h1
      | succ n => exact (ih s).1 h2 n
    · exact fun h => ⟨h 0, (ih s).2 fun n => h (n + 1)⟩

theorem always_handle {I : σ → Prop} {p : Steps σ α} {k : Except Exn α → Steps σ β} {s : σ} (h1 : Always I p s)
    (h2 : Always I (k (p.run s).outcome) (p.run s).state) : Always I (p.handle k) s := by
  induction p generalizing s with
  | done r => cases r <;> exact h2
  | step next rest ih => exact ⟨h1.1, ih s h1.2 h2⟩

theorem always_atom {I : σ → Prop} {m : M σ α} {s : σ} (h1 : I s) (h2 : I (m s).state) : Always I (atom m) s := ⟨h1, h2⟩

theorem always_bind_ok {I : σ → Prop} {m : M σ α} {f : α → Steps σ β} {s t : σ} {a : α} (h : m s = .ok a t) (h1 : I s)
    (h2 : Always I (f a) t) : Always I ((atom m).bind f) s := by
  refine ⟨h1, ?_⟩
  show Always I (handle (.done (m s).outcome) _) (m s).state
  rw [h]; exact h2

theorem always_bind_err {I : σ → Prop} {m : M σ α} {f : α → Steps σ β} {s t : σ} {e : Exn} (h : m s = .err e t) (h1 : I s)
    (h2 : I t) : Always I ((atom m).bind f) s := by
  refine ⟨h1, ?_⟩
  show Always I (handle (.done (m s).outcome) _) (m s).state
  rw [h]; exact h2

theorem always_bind {I : σ → Prop} {p : Steps σ α} {f : α → Steps σ β} {s : σ} (h1 : Always I p s)
    (h2 : ∀ a t, p.run s = .ok a t → Always I (f a) t) : Always I (p.bind f) s := by
  refine always_handle h1 ?_
  cases h : p.run s with
  | ok a t => exact h2 a t h
  | err e t =>
    have := always_iff.1 h1
    clear h2
    induction p generalizing s with
    | done r => cases r <;> cases h; exact h1
    | step next rest ih => exact ih s h1.2 h (always_iff.1 h1.2)

theorem always_rethrow {I : Disk → Prop} {p : Steps Disk Unit} {s : Disk} (h1 : Always I p s) (h2 : I (p.run s).state) :
    Always I (rethrowFsSteps p) s := by
  refine always_handle h1 ?_
  cases (p.run s).outcome with
  | ok a => exact h2
  | error e => cases e <;> exact h2

theorem always_end {I : σ → Prop} {p : Steps σ α} {s : σ} (h1 : Always I p s) : I (p.run s).state := by
  induction p generalizing s with
  | done r => cases r <;> exact h1
  | step next rest ih => exact ih s h1.2

theorem always_mono {I J : σ → Prop} {p : Steps σ α} {s : σ} (hij : ∀ s, I s → J s) (h1 : Always I p s) : Always J p s :=
  always_iff.2 fun n => hij _ (always_iff.1 h1 n)

theorem always_guard {I : Disk → Prop} {nd : Bool} {l : Loc} {p : Steps Disk Unit} {s : Disk} (h1 : Always I p s)
    (h2 : I (fsRemoveAll l (p.run s).state).state) : Always I (withGuardSteps nd l p) s := by
  refine always_handle h1 (always_handle ⟨always_end h1, h2⟩ ?_)
  have e : (Steps.atom (fsRemoveAll l)).run = fsRemoveAll l := run_atom _
  rw [e]
  cases (fsRemoveAll l (p.run s).state).outcome with
  | ok a => exact h2
  | error e => cases nd <;> exact h2

end Steps

open Steps

/-- The moments of `validate_writeability` for a path with nothing there. -/
theorem always_writeability_missing {I : Disk → Prop} (nd : Bool) {p : Loc} {fs : Disk} (hm : fs.lookup p = .missing) (h1 : I fs)
    (h2 : CanCreate fs p → I ((p, .file [] true true) :: fs)) : Always I (validateWriteabilitySteps nd p) fs := by
  have hd : fsIsDirectory p fs = .ok false fs := by simp [fsIsDirectory, hm]
  refine always_bind_ok hd h1 ?_
  show Always I ((Steps.atom (fsOpenForWriting p)).bind _) fs
  have hra : fsRemoveAll p fs = .ok () fs := by simp [fsRemoveAll, hm]
  by_cases hc : CanCreate fs p
  · have hpw := (parentWritable_iff _ _).2 hc
    have ho : fsOpenForWriting p fs = .ok true ((p, .file [] true true) :: fs) := by simp [fsOpenForWriting, hm, hpw]
    refine always_bind_ok ho h1 ?_
    have hl := (lookup_found_iff _ _ _).2 (reaches_new (.file [] true true) hm hc)
    have hpw' : parentWritable ((p, .file [] true true) :: fs) p = true := by
      rw [← hpw]
      refine parentWritable_congr fun q _ h2 => ?_
      rw [node?_cons, if_neg (fun h => h2 h.symm)]
    have hf := filter_new fs p (.file [] true true) (node_none hm hc)
    have hrm : fsRemove p ((p, .file [] true true) :: fs) = .ok () fs := by
      simp only [fsRemove, hl, hpw', if_true, hf]
    have e : (Steps.atom (fsRemove p)).run ((p, .file [] true true) :: fs) = .ok () fs := by
      rw [run_atom]; exact hrm
    refine always_guard (always_atom (h2 hc) (by rw [hrm]; exact h1)) ?_
    show I (fsRemoveAll p ((Steps.atom (fsRemove p)).run _).state).state
    rw [e]
    show I (fsRemoveAll p fs).state
    rw [hra]; exact h1
  · have hpw : parentWritable fs p = false := by
      cases h : parentWritable fs p with
      | false => rfl
      | true => exact absurd ((parentWritable_iff _ _).1 h) hc
    have ho : fsOpenForWriting p fs = .ok false fs := by simp [fsOpenForWriting, hm, hpw]
    refine always_bind_ok ho h1 ?_
    refine always_guard (show I fs from h1) ?_
    show I (fsRemoveAll p fs).state
    rw [hra]; exact h1

/-- The moments of the output file validator for a path with nothing there. -/
theorem always_outputFile_missing {I : Disk → Prop} (nd : Bool) (mode : OpenMode) (exts : List Str) (p : PathArg) {fs : Disk}
    (hm : fs.lookup p.loc = .missing) (h1 : I fs) (h2 : CanCreate fs p.loc → I ((p.loc, .file [] true true) :: fs)) :
    Always I (outputFileSteps nd mode exts p) fs := by
  have hd : fsIsDirectory p.loc fs = .ok false fs := by simp [fsIsDirectory, hm]
  have he : fsExists p.loc fs = .ok false fs := by simp [fsExists, hm]
  refine always_bind_ok hd h1 ?_
  have hv : Always I ((validateWriteabilitySteps nd p.loc).bind fun _ => validateFilenameSteps exts p.name) fs := by
    have hw := always_writeability_missing nd hm h1 h2
    refine always_bind hw fun a t ht => ?_
    have := always_end hw
    rw [ht] at this
    exact this
  have hall : Always I ((if mode = .createNew then Steps.atom (fsExists p.loc) else Steps.pure false).bind fun there =>
      if there then Steps.throw .validationError
      else (validateWriteabilitySteps nd p.loc).bind fun _ => validateFilenameSteps exts p.name) fs := by
    cases mode with
    | createNew => exact always_bind_ok he h1 hv
    | openOrCreate => exact hv
  exact always_rethrow hall (always_end hall)

/-- The moments of the output directory validator for a path with nothing there. -/
theorem always_outputDirectory_missing {I : Disk → Prop} (nd : Bool) (p : PathArg) {fs : Disk} (hw : WellFormed fs)
    (hm : fs.lookup p.loc = .missing) (h1 : I fs) (h2 : CanCreate fs p.loc → I ((p.loc, .dir true true true) :: fs))
    (h3 : CanCreate fs p.loc → I ((p.loc ++ [dummyName], .file [] true true) :: (p.loc, .dir true true true) :: fs)) :
    Always I (outputDirectorySteps nd p) fs := by
  have he : fsExists p.loc fs = .ok false fs := by simp [fsExists, hm]
  refine always_bind_ok he h1 ?_
  by_cases hc : CanCreate fs p.loc
  · have hpw := (parentWritable_iff _ _).2 hc
    have hcr : fsCreateDirectory p.loc fs = .ok true ((p.loc, .dir true true true) :: fs) := by simp [fsCreateDirectory, hm, hpw]
    refine always_bind_ok hcr h1 ?_
    have hnew := reaches_new (.dir true true true) hm hc
    have hcc : CanCreate ((p.loc, .dir true true true) :: fs) (p.loc ++ [dummyName]) := canCreate_child.2 ⟨true, hnew⟩
    have hchild := child_of_new hw (node_none hm hc) (.dir true true true) dummyName
    have hmc := lookup_missing_of hchild hcc
    have hv := always_writeability_missing (I := I) nd hmc (h2 hc) (fun _ => h3 hc)
    have hrun : (validateWriteabilitySteps nd (p.loc ++ [dummyName])).run ((p.loc, .dir true true true) :: fs) =
        .ok () ((p.loc, .dir true true true) :: fs) := by
      rw [validateWriteabilitySteps_run]
      exact (writeability_missing nd hmc).1 hcc
    have hrm := removeAll_new hw hm hc
    have hgone : fsRemoveAll p.loc fs = .ok () fs := by simp only [fsRemoveAll, hm]
    have hbody : Always I ((validateWriteabilitySteps nd (p.loc ++ [dummyName])).bind fun _ => Steps.atom (fsRemoveAll p.loc))
        ((p.loc, .dir true true true) :: fs) := by
      refine always_bind hv fun a t ht => ?_
      rw [hrun] at ht
      cases ht
      exact always_atom (h2 hc) (by rw [hrm]; exact h1)
    have hbrun : ((validateWriteabilitySteps nd (p.loc ++ [dummyName])).bind fun _ => Steps.atom (fsRemoveAll p.loc)).run
        ((p.loc, .dir true true true) :: fs) = .ok () fs := by
      rw [run_bind]
      simp only [M.bind, hrun, run_atom]
      exact hrm
    have hg : Always I (withGuardSteps nd p.loc ((validateWriteabilitySteps nd (p.loc ++ [dummyName])).bind fun _ =>
        Steps.atom (fsRemoveAll p.loc))) ((p.loc, .dir true true true) :: fs) := by
      refine always_guard hbody ?_
      rw [hbrun]
      show I (fsRemoveAll p.loc fs).state
      rw [hgone]; exact h1
    exact always_rethrow hg (always_end hg)
  · have hpw : parentWritable fs p.loc = false := by
      cases h : parentWritable fs p.loc with
      | false => rfl
      | true => exact absurd ((parentWritable_iff _ _).1 h) hc
    have hcr : fsCreateDirectory p.loc fs = .ok false fs := by simp [fsCreateDirectory, hm, hpw]
    exact always_bind_ok hcr h1 h1

theorem parentWritable_eq_false {fs : Disk} {p : Loc} (hc : ¬ CanCreate fs p) : parentWritable fs p = false := by
  cases h : parentWritable fs p with
  | false => rfl
  | true => exact absurd ((parentWritable_iff _ _).1 h) hc

/-- The moments of `validate_writeability` for an existing object that is no directory. -/
theorem always_writeability_file {I : Disk → Prop} (nd : Bool) {p : Loc} {fs : Disk} (hw : WellFormed fs) {n : Node}
    (hr : Reaches fs p n) (hnd : ∀ r w x, n ≠ .dir r w x) (h1 : I fs)
    (h2 : ∀ c r, n = .file c r true → I (fs.replace p (.file [] r true)))
    (h3 : CanCreate fs p → I (fs.filter fun e => decide (e.1 ≠ p))) : Always I (validateWriteabilitySteps nd p) fs := by
  have hl := (lookup_found_iff _ _ _).2 hr
  have hd : fsIsDirectory p fs = .ok false fs := by
    cases n with
    | dir r w x => exact absurd rfl (hnd r w x)
    | file c r w => simp [fsIsDirectory, hl]
    | special r w => simp [fsIsDirectory, hl]
  refine always_bind_ok hd h1 ?_
  show Always I ((Steps.atom (fsOpenForWriting p)).bind _) fs
  -- the file could not be opened
  have hno : fsOpenForWriting p fs = .ok false fs → Always I ((Steps.atom (fsOpenForWriting p)).bind fun opened =>
      withGuardSteps nd p (if !opened then Steps.throw .validationError else Steps.atom (fsRemove p))) fs := by
    intro ho
    refine always_bind_ok ho h1 (always_guard (show I fs from h1) ?_)
    show I (fsRemoveAll p fs).state
    by_cases hc : CanCreate fs p
    · rw [removeAll_file hw hr hnd hc]; exact h3 hc
    · have : fsRemoveAll p fs = .err .filesystemError fs := by
        simp only [fsRemoveAll, hl, parentWritable_eq_false hc, Bool.false_and, Bool.false_eq_true, if_false]
      rw [this]; exact h1
  -- it could, and then the disk is `gs`
  have hyes : ∀ gs m, fsOpenForWriting p fs = .ok true gs → I gs → gs.lookup p = .found m → (∀ r w x, m ≠ .dir r w x) →
      (gs.filter fun e => decide (e.1 ≠ p)) = (fs.filter fun e => decide (e.1 ≠ p)) → parentWritable gs p = parentWritable fs p →
      Always I ((Steps.atom (fsOpenForWriting p)).bind fun opened =>
        withGuardSteps nd p (if !opened then Steps.throw .validationError else Steps.atom (fsRemove p))) fs := by
    intro gs m ho hI hg hm hfil hpw
    refine always_bind_ok ho h1 ?_
    by_cases hc : CanCreate fs p
    · have hp := (parentWritable_iff _ _).2 hc
      rw [hp] at hpw
      have hrm : fsRemove p gs = .ok () (fs.filter fun e => decide (e.1 ≠ p)) := by
        cases m with
        | dir r w x => exact absurd rfl (hm r w x)
        | file c r w => simp only [fsRemove, hg, hpw, if_true, hfil]
        | special r w => simp only [fsRemove, hg, hpw, if_true, hfil]
      have hgone : fsRemoveAll p (fs.filter fun e => decide (e.1 ≠ p)) = .ok () (fs.filter fun e => decide (e.1 ≠ p)) := by
        have := lookup_after_remove (fs := fs) (p := p) (fun q => decide (q ≠ p)) (by simp) hc
        simp only [fsRemoveAll, this]
      refine always_guard (always_atom hI (by rw [hrm]; exact h3 hc)) ?_
      have e : (Steps.atom (fsRemove p)).run gs = .ok () (fs.filter fun e => decide (e.1 ≠ p)) := by rw [run_atom]; exact hrm
      show I (fsRemoveAll p ((Steps.atom (fsRemove p)).run gs).state).state
      rw [e]
      show I (fsRemoveAll p (fs.filter fun e => decide (e.1 ≠ p))).state
      rw [hgone]; exact h3 hc
    · rw [parentWritable_eq_false hc] at hpw
      have hrm : fsRemove p gs = .err .filesystemError gs := by
        cases m with
        | dir r w x => exact absurd rfl (hm r w x)
        | file c r w => simp [fsRemove, hg, hpw]
        | special r w => simp [fsRemove, hg, hpw]
      have hra : fsRemoveAll p gs = .err .filesystemError gs := by
        simp [fsRemoveAll, hg, hpw]
      refine always_guard (always_atom hI (by rw [hrm]; exact hI)) ?_
      have e : (Steps.atom (fsRemove p)).run gs = .err .filesystemError gs := by rw [run_atom]; exact hrm
      show I (fsRemoveAll p ((Steps.atom (fsRemove p)).run gs).state).state
      rw [e]
      show I (fsRemoveAll p gs).state
      rw [hra]; exact hI
  cases n with
  | dir r w x => exact absurd rfl (hnd r w x)
  | special r w =>
    cases w with
    | false => exact hno (by simp [fsOpenForWriting, hl])
    | true => exact hyes fs _ (by simp [fsOpenForWriting, hl]) h1 hl (by simp) rfl rfl
  | file c r w =>
    cases w with
    | false => exact hno (by simp [fsOpenForWriting, hl])
    | true =>
      refine hyes (fs.replace p (.file [] r true)) _ (by simp [fsOpenForWriting, hl]) (h2 c r rfl) (lookup_replace_file _ hr) (by simp)
        (filter_replace _ _ _) (parentWritable_congr fun q _ h2 => ?_)
      rw [node?_replace, if_neg (fun h => h2 h.symm)]

/-- The moments of the output file validator in `open_or_create` mode for an existing object that is no directory. -/
theorem always_outputFile_file {I : Disk → Prop} (nd : Bool) (exts : List Str) (p : PathArg) {fs : Disk} (hw : WellFormed fs) {n : Node}
    (hr : Reaches fs p.loc n) (hnd : ∀ r w x, n ≠ .dir r w x) (h1 : I fs)
    (h2 : ∀ c r, n = .file c r true → I (fs.replace p.loc (.file [] r true)))
    (h3 : CanCreate fs p.loc → I (fs.filter fun e => decide (e.1 ≠ p.loc))) : Always I (outputFileSteps nd .openOrCreate exts p) fs := by
  have hl := (lookup_found_iff _ _ _).2 hr
  have hd : fsIsDirectory p.loc fs = .ok false fs := by
    cases n with
    | dir r w x => exact absurd rfl (hnd r w x)
    | file c r w => simp [fsIsDirectory, hl]
    | special r w => simp [fsIsDirectory, hl]
  refine always_bind_ok hd h1 ?_
  have hwr := always_writeability_file nd hw hr hnd h1 h2 h3
  have hv : Always I ((validateWriteabilitySteps nd p.loc).bind fun _ => validateFilenameSteps exts p.name) fs := by
    refine always_bind hwr fun a t ht => ?_
    have := always_end hwr
    rw [ht] at this
    exact this
  exact always_rethrow (p := (Steps.pure false).bind fun there =>
      if there then Steps.throw .validationError
      else (validateWriteabilitySteps nd p.loc).bind fun _ => validateFilenameSteps exts p.name) hv (always_end hv)

end Sharg
