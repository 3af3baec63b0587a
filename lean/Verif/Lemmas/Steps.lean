import Verif.Model.Steps
import Verif.Lemmas.Basic

/-!
# Steps and functions

Done one after the other, the steps of `Model/Steps.lean` are the functions of the other model files.
-/

namespace Sharg

namespace Steps

variable {σ α β : Type}

theorem run_pure (a : α) : (pure a : Steps σ α).run = M.pure a := rfl

theorem run_throw (e : Exn) : (throw e : Steps σ α).run = M.throw e := rfl

theorem run_done_outcome (r : Res σ α) (s : σ) (h : r.state = s) : (done r.outcome : Steps σ α).run s = r := by
  cases r <;> subst h <;> rfl

theorem run_atom (m : M σ α) : (atom m).run = m := by
  funext s
  exact run_done_outcome _ _ rfl

theorem run_handle (p : Steps σ α) (k : Except Exn α → Steps σ β) (s : σ) :
    (p.handle k).run s = (k (p.run s).outcome).run (p.run s).state := by
  induction p generalizing s with
  | done r => cases r <;> rfl
  | step next rest ih => exact ih s (next s)

theorem run_bind (p : Steps σ α) (f : α → Steps σ β) : (p.bind f).run = M.bind p.run fun a => (f a).run := by
  funext s
  unfold bind
  rw [run_handle]
  unfold M.bind
  cases p.run s <;> rfl

theorem run_onDisk (p : Steps Disk α) : (Steps.onDisk p).run = Sharg.onDisk p.run := by
  funext s
  unfold Sharg.onDisk
  induction p generalizing s with
  | done r => cases r <;> rfl
  | step next rest ih => exact ih s.disk { s with disk := next s.disk }

theorem run_ite (c : Prop) [Decidable c] (p q : Steps σ α) : (if c then p else q).run = if c then p.run else q.run := by
  split <;> rfl

end Steps

theorem withGuardSteps_run (nd : Bool) (p : Loc) (body : Steps Disk Unit) :
    (withGuardSteps nd p body).run = withGuard nd p body.run := by
  funext fs
  unfold withGuardSteps withGuard
  rw [Steps.run_handle, Steps.run_handle, Steps.run_atom]
  cases body.run fs with
  | ok a fs₁ =>
    simp only [Res.outcome, Res.state]
    cases fsRemoveAll p fs₁ with
    | ok b fs₂ => rfl
    | err e fs₂ => cases nd <;> rfl
  | err e fs₁ =>
    simp only [Res.outcome, Res.state]
    cases fsRemoveAll p fs₁ with
    | ok b fs₂ => rfl
    | err e fs₂ => cases nd <;> rfl

theorem rethrowFsSteps_run (body : Steps Disk Unit) : (rethrowFsSteps body).run = rethrowFs body.run := by
  funext fs
  unfold rethrowFsSteps rethrowFs
  rw [Steps.run_handle]
  cases body.run fs with
  | ok a fs₁ => rfl
  | err e fs₁ => cases e <;> rfl

theorem validateFilenameSteps_run (exts : List Str) (name : Str) :
    (validateFilenameSteps exts name).run = validateFilename exts name := by
  have h : ∀ (b : Bool) (fs : Disk), ((if b then M.throw Exn.validationError else M.pure () : FsM Unit) fs) =
      (Steps.done ((if b then M.throw Exn.validationError else M.pure () : FsM Unit) []).outcome).run fs := by
    intro b fs; cases b <;> rfl
  funext fs
  unfold validateFilenameSteps validateFilename
  split
  · rfl
  · split
    · rfl
    · exact (h _ fs).symm

theorem validateReadabilitySteps_run (p : Loc) : (validateReadabilitySteps p).run = validateReadability p := by
  simp only [validateReadabilitySteps, validateReadability, Steps.run_bind, Steps.run_atom, Steps.run_ite, Steps.run_pure,
    Steps.run_throw]

theorem validateWriteabilitySteps_run (nd : Bool) (p : Loc) :
    (validateWriteabilitySteps nd p).run = validateWriteability nd p := by
  simp only [validateWriteabilitySteps, validateWriteability, Steps.run_bind, Steps.run_atom, Steps.run_ite, Steps.run_throw,
    withGuardSteps_run]

theorem inputFileSteps_run (exts : List Str) (help : Str) (p : PathArg) :
    (inputFileSteps exts p).run = (inputFile exts help).run p := by
  simp only [inputFileSteps, inputFile, rethrowFsSteps_run, Steps.run_bind, Steps.run_atom, Steps.run_ite, Steps.run_throw,
    validateReadabilitySteps_run, validateFilenameSteps_run]

theorem outputFileSteps_run (nd : Bool) (mode : OpenMode) (exts : List Str) (help : Str) (p : PathArg) :
    (outputFileSteps nd mode exts p).run = (outputFile nd mode exts help).run p := by
  simp only [outputFileSteps, outputFile, rethrowFsSteps_run, Steps.run_bind, Steps.run_atom, Steps.run_ite, Steps.run_throw,
    Steps.run_pure, validateWriteabilitySteps_run, validateFilenameSteps_run]

theorem inputDirectorySteps_run (p : PathArg) : (inputDirectorySteps p).run = inputDirectory.run p := by
  simp only [inputDirectorySteps, inputDirectory, rethrowFsSteps_run, Steps.run_bind, Steps.run_atom, Steps.run_ite,
    Steps.run_throw, validateReadabilitySteps_run]

theorem outputDirectorySteps_run (nd : Bool) (p : PathArg) :
    (outputDirectorySteps nd p).run = (outputDirectory nd).run p := by
  simp only [outputDirectorySteps, outputDirectory, rethrowFsSteps_run, Steps.run_bind, Steps.run_atom, Steps.run_ite,
    Steps.run_throw, validateWriteabilitySteps_run, withGuardSteps_run]

theorem fsWriteSteps_run (p : Loc) (t : Str) : (fsWriteSteps p t).run = fsWrite p t := by
  unfold fsWriteSteps fsWrite
  rw [Steps.run_bind, Steps.run_atom]
  congr 1
  funext opened
  cases opened with
  | false => rfl
  | true => exact Steps.run_atom (fsPut p t)

theorem getPathSteps_run (nd : Bool) : (getPathSteps nd).run = getPath nd := by
  unfold getPathSteps getPath
  rw [Steps.run_bind, Steps.run_atom]
  congr 1
  funext home
  cases home with
  | none => rfl
  | some h =>
    simp only [Steps.run_bind, Steps.run_atom, Steps.run_ite, Steps.run_pure]
    congr 1
    funext cwd
    congr 1
    funext ok₁
    congr 1
    funext ok₂
    congr 1
    funext dir
    cases dir with
    | none => rfl
    | some d =>
      simp only [Steps.run_bind, Steps.run_atom, Steps.run_onDisk, withGuardSteps_run, Steps.run_pure]

theorem makeCheckerSteps_run (i : CheckInput) : (makeCheckerSteps i).run = makeChecker i := by
  simp only [makeCheckerSteps, makeChecker, Steps.run_bind, getPathSteps_run, Steps.run_ite, Steps.run_throw, Steps.run_pure]

theorem writeCookieSteps_run (ck : Checker) (m : Str) : (writeCookieSteps ck m).run = writeCookie ck m := by
  simp only [writeCookieSteps, Steps.run_bind, Steps.run_atom, Steps.run_onDisk, fsWriteSteps_run]
  rfl

theorem askUserSteps_run (ck : Checker) : (askUserSteps ck).run = askUser ck := by
  simp only [askUserSteps, askUser, Steps.run_bind, Steps.run_atom, Steps.run_ite, Steps.run_pure, writeCookieSteps_run]

theorem cookieDecisionSteps_run (ck : Checker) : (cookieDecisionSteps ck).run = cookieDecision ck := by
  unfold cookieDecisionSteps cookieDecision
  rw [Steps.run_bind, Steps.run_atom]
  congr 1
  funext there
  cases there with
  | false => rfl
  | true =>
    simp only [if_true, Steps.run_bind]
    refine (congrArg (M.bind · _) (Steps.run_atom (readPath ck.timestampFile))).trans ?_
    refine congrArg (M.bind (readPath ck.timestampFile)) ?_
    funext content
    cases content with
    | none => rfl
    | some t => simp only [Steps.run_bind, Steps.run_atom, Steps.run_ite, Steps.run_pure]

theorem decideCheckSteps_run (ck : Checker) (notify : Bool) (user : Option Bool) :
    (decideCheckSteps ck notify user).run = decideCheck ck notify user := by
  unfold decideCheckSteps decideCheck
  rw [Steps.run_ite, Steps.run_bind, Steps.run_atom]
  congr 2
  funext noCheck
  rw [Steps.run_ite]
  congr 1
  cases user with
  | some b => rfl
  | none =>
    simp only [Steps.run_bind, cookieDecisionSteps_run]
    congr 1
    funext d
    cases d with
    | some b => rfl
    | none => simp only [Steps.run_bind, writeCookieSteps_run, askUserSteps_run]

theorem performCheckSteps_run (i : CheckInput) (ck : Checker) : (performCheckSteps i ck).run = performCheck i ck := by
  simp only [performCheckSteps, performCheck, Steps.run_bind, Steps.run_atom]
  rfl

theorem runVersionCheckSteps_run (i : CheckInput) (notify : Bool) (user : Option Bool) :
    (runVersionCheckSteps i notify user).run = runVersionCheck i notify user := by
  simp only [runVersionCheckSteps, runVersionCheck, Steps.run_bind, Steps.run_ite, makeCheckerSteps_run, decideCheckSteps_run,
    performCheckSteps_run, Steps.run_pure]

end Sharg
