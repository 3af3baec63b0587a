import Verif.Props.PathCheck
import Verif.Lemmas.Killed
import Verif.Lemmas.Machine
import Verif.Spec.OutputDirs

/-!
# Property C86 for programs with output directories
-/

namespace Sharg

open Spec Steps

theorem Spec.BesideDummies.refl (s : System) : BesideDummies s s := ⟨rfl, fun _ _ => rfl⟩

theorem Spec.BesideDummies.trans {s t u : System} (h : BesideDummies s t) (h' : BesideDummies t u) : BesideDummies s u :=
  ⟨h'.1.trans h.1, fun q hq => (h'.2 q hq).trans (h.2 q hq)⟩

theorem Spec.BesideDummies.symm {s t : System} (h : BesideDummies s t) : BesideDummies t s := ⟨h.1.symm, fun q hq => (h.2 q hq).symm⟩

theorem not_mem_prefix {c : Str} {q p : Loc} (h : c ∉ p) (hq : q <+: p) : c ∉ q := fun hc => h (hq.subset hc)

theorem Spec.BesideDummies.reaches {s t : System} (h : BesideDummies s t) {p : Loc} (hp : "dummy.txt".toList ∉ p) {n : Node}
    (hr : Reaches s.disk p n) : Reaches t.disk p n :=
  reaches_congr (fun q hq => (h.2 q (not_mem_prefix hp hq)).symm) hr

theorem Spec.BesideDummies.canCreate {s t : System} (h : BesideDummies s t) {p : Loc} (hp : "dummy.txt".toList ∉ p) (hc : CanCreate s.disk p) :
    CanCreate t.disk p :=
  canCreate_congr (fun q hq _ => (h.2 q (not_mem_prefix hp hq)).symm) hc

/-- A validator that leaves other files alone. -/
def Neat (v : Validator Disk PathArg) : Prop :=
  ∀ p fs, WellFormed fs → WellFormed (v.run p fs).state ∧ ∀ q, "dummy.txt".toList ∉ q → (v.run p fs).state.node? q = fs.node? q

theorem Still.neat {v : Validator Disk PathArg} (h : Still v) : Neat v := fun p fs hw => by rw [h]; exact ⟨hw, fun _ _ => rfl⟩

theorem neat_outputDirectory (nd : Bool) : Neat (outputDirectory nd) := by
  intro p fs hw
  refine ⟨?_, fun q hq => C42_other_files_kept nd p fs hw q fun e => hq (by rw [e]; simp)⟩
  have h := always_end (kept_check (X := fun _ => True) (C := fun _ => True) (.outputDirectory nd p) ⟨hw, fun _ => Or.inl rfl⟩ (fun _ _ => trivial))
  rw [PathCheck.steps_run] at h
  exact h.form

/-- The condition that tidy validators keep. -/
def Beside (s₀ s : System) : Prop := WellFormed s.disk ∧ BesideDummies s₀ s

theorem neat_onSystem {v : Validator Disk PathArg} (h : Neat v) (t : Str) {s₀ s : System} (hs : Beside s₀ s) : Beside s₀ (v.onSystem.run t s).state := by
  rw [onSystem_run]
  have := h (pathArg s.cwd t) s.disk hs.1
  cases hr : v.run (pathArg s.cwd t) s.disk with
  | ok u d => rw [hr] at this; exact ⟨this.1, hs.2.1, fun q hq => (this.2 q hq).trans (hs.2.2 q hq)⟩
  | err e d => rw [hr] at this; exact ⟨this.1, hs.2.1, fun q hq => (this.2 q hq).trans (hs.2.2 q hq)⟩

theorem neat_each {v : Validator Disk PathArg} (h : Neat v) (ts : List Str) {s₀ s : System} (hs : Beside s₀ s) :
    Beside s₀ (v.onSystem.each.run ts s).state := by
  show Beside s₀ (M.forEach v.onSystem.run ts s).state
  induction ts generalizing s with
  | nil => exact hs
  | cons t ts ih =>
    rw [M.forEach_cons, M.bind_run]
    have := neat_onSystem h t hs
    cases hr : v.onSystem.run t s with
    | ok u d => rw [hr] at this; exact ih this
    | err e d => rw [hr] at this; exact this

theorem neat_leaves {v : Validator Disk PathArg} (h : Neat v) : LeavesOthers v.onPaths := by
  intro x s hw
  have h0 : Beside s s := ⟨hw, .refl s⟩
  unfold Validator.onPaths
  split
  · split
    · rw [inParser_state]; exact neat_onSystem h _ h0
    · exact h0
  · rw [inParser_state]; exact neat_each h _ h0

theorem neat_each_ok {v : Validator Disk PathArg} (h : Neat v) (ts : List Str) {s₀ s s' : System} (hs : Beside s₀ s)
    (hr : v.onSystem.each.run ts s = .ok () s') :
    ∀ t ∈ ts, ∃ s₁ d, Beside s₀ s₁ ∧ v.run (pathArg s₁.cwd t) s₁.disk = .ok () d := by
  induction ts generalizing s with
  | nil => simp
  | cons t ts ih =>
    intro q hq
    change M.forEach v.onSystem.run (t :: ts) s = .ok () s' at hr
    rw [M.forEach_cons, M.bind_run] at hr
    have hs' := neat_onSystem h t hs
    cases hv : v.onSystem.run t s with
    | err e d => rw [hv] at hr; cases hr
    | ok u d =>
      rw [hv] at hr hs'
      rcases List.mem_cons.1 hq with rfl | hq
      · rw [onSystem_run] at hv
        cases hw : v.run (pathArg s.cwd q) s.disk with
        | ok u d' => exact ⟨s, d', hs, hw⟩
        | err e d' => rw [hw] at hv; cases hv
      · exact ih hs' hr q hq

/-- Every path in a value that was accepted was accepted, in a system with the same other files. -/
theorem neat_accepted {v : Validator Disk PathArg} (h : Neat v) {x : Val} {s₀ s s' : System} (hs : Beside s₀ s) (ha : v.onPaths x s = (true, s'))
    (p : Str) (hp : Holds x p) : ∃ s₁ d, Beside s₀ s₁ ∧ v.run (pathArg s₁.cwd p) s₁.disk = .ok () d := by
  have one : ∀ e, elemPath e = some p → v.onPaths (.one e) s = (true, s') → ∃ s₁ d, Beside s₀ s₁ ∧ v.run (pathArg s₁.cwd p) s₁.disk = .ok () d := by
    intro e he ha
    unfold Validator.onPaths at ha
    simp only [he] at ha
    have ha := inParser_true ha
    refine neat_each_ok h [p] hs (s' := s') ?_ p (.head _)
    show M.forEach v.onSystem.run [p] s = _
    rw [M.forEach_cons, M.bind_run, ha]
    rfl
  rcases hp with rfl | rfl | ⟨es, rfl, hp⟩
  · exact one _ (elemPath_path p) ha
  · exact one _ rfl ha
  · unfold Validator.onPaths at ha
    refine neat_each_ok h _ hs (inParser_true ha) p (List.mem_filterMap.2 ?_)
    rcases hp with hp | hp
    · exact ⟨_, hp, elemPath_path p⟩
    · exact ⟨_, hp, rfl⟩

theorem leaves_beside {v : Val → System → Bool × System} (h : LeavesOthers v) (s₀ : System) : ValidatorKeeps (Beside s₀) v := by
  intro x s hs
  obtain ⟨h1, h2⟩ := h x s hs.1
  exact ⟨h1, hs.2.trans h2⟩

theorem outputDirectory_accepts {nd : Bool} {p : PathArg} {fs d : Disk} (hw : WellFormed fs) (h : (outputDirectory nd).run p fs = .ok () d) :
    ((∃ r, Reaches fs p.loc (.dir r true true)) ∨ ((∀ n, ¬ Reaches fs p.loc n) ∧ CanCreate fs p.loc)) ∧
      ∀ n, ¬ Reaches d (p.loc ++ ["dummy.txt".toList]) n := by
  rcases lookup_cases fs p.loc with ⟨n, h1, hl⟩ | ⟨hl, h1⟩ | ⟨hl, hd, h1⟩
  · cases n with
    | file c r w => simp [outputDirectory, M.bind, fsExists, hl, fsCreateDirectory, M.throw] at h
    | special r w => simp [outputDirectory, M.bind, fsExists, hl, fsCreateDirectory, M.throw] at h
    | dir r w x =>
      rw [outputDirectory_existing nd p fs r w x h1, rethrowFs_isOk] at h
      obtain ⟨hc, ho⟩ := (writeability_ok_iff nd hw).1 (show (validateWriteability nd (p.loc ++ [dummyName]) fs).isOk = true by rw [h]; rfl)
      refine ⟨Or.inl (canCreate_child.1 hc), fun n hn => ?_⟩
      rw [← dummyName_eq] at hn
      by_cases hex : ∃ m, Reaches fs (p.loc ++ [dummyName]) m
      · obtain ⟨m, hm⟩ := hex
        have hnd : ∀ r w x, m ≠ .dir r w x := by
          rintro r w x rfl
          exact ho _ hm
        have := (writeability_deletes nd hw hm hnd hc).1
        rw [h] at this
        have this : d = _ := this
        have h2 := hn.1
        rw [this, node?_filter_ne, if_pos rfl] at h2
        cases h2
      · have hno : ∀ n, ¬ Reaches fs (p.loc ++ [dummyName]) n := fun n hn => hex ⟨n, hn⟩
        have he := (C42_existing_directory_partial nd p fs r w x h1 (by rw [← dummyName_eq]; exact hno)).1
        rw [outputDirectory_existing nd p fs r w x h1, rethrowFs_state, h] at he
        have he : d = fs := he
        subst he
        exact hno n hn
  · have hn : ∀ n, ¬ Reaches fs p.loc n := h1
    obtain ⟨e1, e2⟩ := C42_new_directory nd p fs hw hn
    rw [h] at e1
    have e1 : d = fs := e1
    subst e1
    refine ⟨Or.inr ⟨hn, e2.1 h⟩, fun n hr => ?_⟩
    obtain ⟨r, w, hq⟩ := hr.2 p.loc _ [] rfl
    exact hn _ ⟨hq, fun q c t e => hr.2 q c (t ++ ["dummy.txt".toList]) (by rw [e]; simp)⟩
  · have e : (outputDirectory nd).run p fs = .err .filesystemError fs := by
      simp [outputDirectory, M.bind, fsExists, hl]
    rw [e] at h
    cases h

/-! ### The property -/

/-- All validators of the program leave files alone that are not called `dummy.txt`. -/
def AllLeaveOthers (g : Prog System) : Prop :=
  (∀ d ∈ (decls g).options, LeavesOthers d.validator) ∧ ∀ d ∈ (decls g).positionals, LeavesOthers d.validator

/-- C86: the validators that leave the files alone that are not called `dummy.txt`: those that leave all files alone, and
`output_directory_validator`. -/
theorem C86_who_leaves_others (nd : Bool) : LeavesOthers (outputDirectory nd).onPaths ∧ ∀ v, LeavesFiles v → LeavesOthers v := by
  refine ⟨neat_leaves (neat_outputDirectory nd), fun v h x s hw => ?_⟩
  obtain ⟨h1, h2⟩ := h x s
  exact ⟨by rw [h1]; exact hw, h2, fun q _ => by rw [h1]⟩

/-- The validator accepted the final value, with the other files as they are when `parse()` returns. -/
theorem checked_beside (env : Env System) (g g' : Prog System) (hg : Reachable env g) (h : parse env g = (.returned, g'))
    (hv : VarsDistinct (decls g)) (hl : PositionalListsInRange env g) (hf : AllLeaveOthers g)
    (hw : ∀ u, WellFormed (env.versionCheck g.parser.appName g.parser.notify u g.world).2.disk) (v : Val → System → Bool × System) (x : VarId)
    (hx : CheckedBy (decls g) g'.parser.formatArguments v x) :
    ∃ u u', v (g'.store x) u = (true, u') ∧ Beside g'.world u := by
  obtain ⟨w₁, u, u', hc, h1, h2⟩ := C33_validated_in_the_same_world env g g' hg h hv hl v x hx
  have hwf := hw g'.parser.userDecision
  rw [hc] at hwf
  obtain ⟨h3, h4⟩ := h2 (Beside w₁) (fun d hd => leaves_beside (hf.1 d hd) _) (fun d hd => leaves_beside (hf.2 d hd) _) ⟨hwf, .refl _⟩
  exact ⟨u, u', h1, h3.1, h4.2.symm.trans h3.2⟩

section

variable (env : Env System) (g g' : Prog System) (hg : Reachable env g) (h : parse env g = (.returned, g'))
  (hv : VarsDistinct (decls g)) (hl : PositionalListsInRange env g) (hf : AllLeaveOthers g)
  (hw : ∀ u, WellFormed (env.versionCheck g.parser.appName g.parser.notify u g.world).2.disk)

include hg h hv hl hf hw

/-- C86, partial (programs with output directories, but without `open_or_create`): when `parse()` has returned, every path that was given for an input
file can be read, unless it is called `dummy.txt` (or goes through such a directory). -/
theorem C86_input_files_usable_beside_partial (exts : List Str) (help : Str) (x : VarId)
    (hx : CheckedBy (decls g) g'.parser.formatArguments (inputFile exts help).onPaths x) (p : Str) (hp : Holds (g'.store x) p)
    (hn : "dummy.txt".toList ∉ locOf g'.world.cwd p) : InputUsable g'.world exts p := by
  obtain ⟨u, u', h1, h2⟩ := checked_beside env g g' hg h hv hl hf hw _ x hx
  have := (C40_input_file exts help _ _).1.1 (still_accepted (still_inputFile exts help) h1 p hp)
  obtain ⟨⟨n, hr, hn'⟩, hname⟩ := this
  rw [h2.2.1] at hr
  exact ⟨⟨n, h2.2.symm.reaches hn hr, hn'⟩, fun name hn => by rw [← nameOf_unique hn]; exact hname⟩

/-- C86, partial: the same for input directories. -/
theorem C86_input_directories_usable_beside_partial (x : VarId)
    (hx : CheckedBy (decls g) g'.parser.formatArguments inputDirectory.onPaths x) (p : Str) (hp : Holds (g'.store x) p)
    (hn : "dummy.txt".toList ∉ locOf g'.world.cwd p) : DirectoryUsable g'.world p := by
  obtain ⟨u, u', h1, h2⟩ := checked_beside env g g' hg h hv hl hf hw _ x hx
  obtain ⟨w, x, hr⟩ := (C40_input_directory _ _).1.1 (still_accepted still_inputDirectory h1 p hp)
  exact ⟨w, x, by
    have hr : Reaches u.disk (locOf u.cwd p) _ := hr
    rw [h2.2.1] at hr
    exact h2.2.symm.reaches hn hr⟩

/-- C86, partial: and new output files are free. -/
theorem C86_output_files_free_beside_partial (nd : Bool) (exts : List Str) (help : Str) (x : VarId)
    (hx : CheckedBy (decls g) g'.parser.formatArguments (outputFile nd .createNew exts help).onPaths x) (p : Str) (hp : Holds (g'.store x) p)
    (hn : "dummy.txt".toList ∉ locOf g'.world.cwd p) : OutputFree g'.world exts p := by
  obtain ⟨u, u', h1, h2⟩ := checked_beside env g g' hg h hv hl hf hw _ x hx
  obtain ⟨h3, h4, h5⟩ := (C41_create_new_accepts_exactly nd exts help _ _).1 (still_accepted (still_createNew nd exts help) h1 p hp)
  have h3 : ∀ n, ¬ Reaches u.disk (locOf u.cwd p) n := h3
  have h4 : CanCreate u.disk (locOf u.cwd p) := h4
  rw [h2.2.1] at h3 h4
  exact ⟨fun n hr => h3 n (h2.2.reaches hn hr), h2.2.symm.canCreate hn h4, fun name hn => by rw [← nameOf_unique hn]; exact h5⟩

/-- C86, partial: and every path that was given for an output directory leads to a directory in which files can be created, or such a directory can be
created. -/
theorem C86_output_directories_usable_partial (nd : Bool) (x : VarId)
    (hx : CheckedBy (decls g) g'.parser.formatArguments (outputDirectory nd).onPaths x) (p : Str) (hp : Holds (g'.store x) p)
    (hn : "dummy.txt".toList ∉ locOf g'.world.cwd p) : OutputDirectoryUsable g'.world p := by
  obtain ⟨u, u', h1, h2⟩ := checked_beside env g g' hg h hv hl hf hw _ x hx
  obtain ⟨s₁, d, hs₁, hr⟩ := neat_accepted (neat_outputDirectory nd) h2 h1 p hp
  obtain ⟨hu, -⟩ := outputDirectory_accepts hs₁.1 hr
  have hu : (∃ r, Reaches s₁.disk (locOf s₁.cwd p) (.dir r true true)) ∨
    ((∀ n, ¬ Reaches s₁.disk (locOf s₁.cwd p) n) ∧ CanCreate s₁.disk (locOf s₁.cwd p)) := hu
  rw [hs₁.2.1] at hu
  rcases hu with ⟨r, hr⟩ | ⟨h3, h4⟩
  · exact Or.inl ⟨r, hs₁.2.symm.reaches hn hr⟩
  · exact Or.inr ⟨fun n hr => h3 n (hs₁.2.reaches hn hr), hs₁.2.symm.canCreate hn h4⟩

end

/-- C86, partial: such a program changes no file in `parse()` that is not called `dummy.txt`, whatever the arguments are and however `parse()` ends (if
the version check and the pages do not). -/
theorem C86_other_files_unchanged_partial (env : Env System) (g : Prog System) (hf : AllLeaveOthers g) (hw : WellFormed g.world.disk)
    (hc : ∀ u s, (env.versionCheck g.parser.appName g.parser.notify u s).2.disk = s.disk ∧
      (env.versionCheck g.parser.appName g.parser.notify u s).2.cwd = s.cwd)
    (hp : ∀ f p st s, (env.printPage f p st s).2.disk = s.disk ∧ (env.printPage f p st s).2.cwd = s.cwd) :
    BesideDummies g.world (parse env g).2.world :=
  (parse_guards (P := Beside g.world) env g
    (fun u s hs => ⟨by rw [(hc u s).1]; exact hs.1, (hc u s).2.trans hs.2.1, fun q hq => by rw [(hc u s).1]; exact hs.2.2 q hq⟩)
    (fun f p st s hs => ⟨by rw [(hp f p st s).1]; exact hs.1, (hp f p st s).2.trans hs.2.1, fun q hq => by rw [(hp f p st s).1]; exact hs.2.2 q hq⟩)
    (fun d hd => leaves_beside (hf.1 d hd) _) (fun d hd => leaves_beside (hf.2 d hd) _) ⟨hw, .refl _⟩).2

/-- C86 is false with output directories: when `parse()` has returned, there is no `dummy.txt` in the directory that was given for the output, and if
that was given for an input, the input is gone. -/
theorem C86_input_in_output_directory_is_deleted (env : Env System) (g g' : Prog System) (hg : Reachable env g) (h : parse env g = (.returned, g'))
    (hv : VarsDistinct (decls g)) (front back : List (OptDecl System)) (d : OptDecl System) (hsplit : (decls g).options = front ++ d :: back)
    (hfront : ∀ e ∈ front, LeavesFiles e.validator) (hback : ∀ e ∈ back, LeavesFiles e.validator)
    (hpos : ∀ e ∈ (decls g).positionals, LeavesFiles e.validator)
    (hw : ∀ u, WellFormed (env.versionCheck g.parser.appName g.parser.notify u g.world).2.disk)
    (nd : Bool) (hd : d.validator = (outputDirectory nd).onPaths)
    (hn : ∃ a ∈ free (decls g) false (before g'.parser.formatArguments), Names d a) (p : Str)
    (hp : g'.store d.var = .one (pathElem p) ∨ g'.store d.var = .one (.str p)) :
    (∀ n, ¬ Reaches g'.world.disk (locOf g'.world.cwd p ++ ["dummy.txt".toList]) n) ∧
    ∀ q exts', locOf g'.world.cwd q = locOf g'.world.cwd p ++ ["dummy.txt".toList] → ¬ InputUsable g'.world exts' q := by
  obtain ⟨_, hD, _⟩ := reachable_returned hg h
  obtain ⟨_, _, _, w₁, s, hc, hr, hs, hw'⟩ := parse_returned env g g' h
  obtain ⟨ph⟩ := phases env.ndebug hD _ g.store w₁ s () hr
  obtain ⟨u, u', h1, h2, h3⟩ := option_world hD hv hsplit env.ndebug ph hn
  obtain ⟨h4, h5⟩ := h2 (sameFiles w₁.disk w₁.cwd) (fun e he => keeps_files (hfront e he) _ _) ⟨rfl, rfl⟩
  obtain ⟨h6, h7⟩ := h3 (sameFiles u'.disk u'.cwd) (fun e he => keeps_files (hback e he) _ _) (fun e he => keeps_files (hpos e he) _ _) ⟨rfl, rfl⟩
  have hwf : WellFormed u.disk := by
    have := hw g'.parser.userDecision
    rw [hc] at this
    rw [h4]
    exact this
  have hrun : (outputDirectory nd).onSystem.run p u = .ok () u' := by
    rw [hd, ← hs] at h1
    rcases hp with hp | hp
    · rw [hp] at h1
      unfold Validator.onPaths at h1
      simp only [elemPath_path] at h1
      exact inParser_true h1
    · rw [hp] at h1
      exact inParser_true h1
  rw [onSystem_run] at hrun
  have hgone : ∀ n, ¬ Reaches g'.world.disk (locOf g'.world.cwd p ++ ["dummy.txt".toList]) n := by
    intro n hn
    cases hv : (outputDirectory nd).run (pathArg u.cwd p) u.disk with
    | err e fs => rw [hv] at hrun; cases hrun
    | ok r fs =>
      rw [hv] at hrun
      cases hrun
      rw [hw', h6, h7] at hn
      exact (outputDirectory_accepts hwf hv).2 n hn
  refine ⟨hgone, fun q exts' e hq => ?_⟩
  obtain ⟨⟨n, hn, _⟩, _⟩ := hq
  rw [e] at hn
  exact hgone n hn

/-- C86: the real version check leaves a well-formed disk, as the theorems above want it. -/
theorem C86_real_check_well_formed (r : Surroundings) (g : Prog System) (hn : CleanName g.parser.appName) (hw : WellFormed g.world.disk) (u : Option Bool) :
    WellFormed (r.env.versionCheck g.parser.appName g.parser.notify u g.world).2.disk := by
  have h : CheckKeeps (fun _ => True) (fun _ => True) g.world _ :=
    always_end (safe_always (may_check (r.check g.parser.appName) ((matchesNameRegex_iff _).2 hn) ⟨fun _ _ _ => trivial, fun _ _ _ _ => trivial,
      fun _ _ => ⟨trivial, trivial⟩⟩ g.parser.notify u) ⟨⟨hw, fun _ => Or.inl rfl⟩, rfl, rfl, rfl⟩)
  rw [runVersionCheckSteps_run] at h
  exact h.1.form

/-! ### Examples -/

/-- A directory with a file called `dummy.txt` beside a file. -/
def exDirs : System := exSystem [(["h".toList, "a.txt".toList], .file "precious".toList true true), (["h".toList, "out".toList], .dir true true true),
  (["h".toList, "out".toList, "dummy.txt".toList], .file "mine".toList true true)] 0 ""

/-- An input file `-i` and an output directory `-d`. -/
def exDirCalls : List (Call System) :=
  [.addOption { short := 'i', long := "input".toList } 0 false pathTy (inputFile ["txt".toList] []).onPaths,
   .addOption { short := 'd', long := "dir".toList } 1 false .string (outputDirectory false).onPaths]

def exDirRun (args : List String) : Prog System :=
  runActions exSysEnv (exDirCalls.map .call) (start { exInit with arguments := ("app" :: args).map String.toList } exStore exDirs)

def exDirOptions : List (OptDecl System) :=
  [⟨'i', "input".toList, 0, false, pathTy, false, (inputFile ["txt".toList] []).onPaths⟩,
   ⟨'d', "dir".toList, 1, false, .string, false, (outputDirectory false).onPaths⟩]

theorem exDir_decls (args : List String)
    (h : (accepted exSysEnv (exDirCalls.map .call) (start { exInit with arguments := ("app" :: args).map String.toList } exStore exDirs)).length = 2) :
    decls (exDirRun args) = ⟨exDirOptions, [], []⟩ := by
  unfold decls exDirRun
  rw [operations_of_length exSysEnv exDirCalls _ h]
  rfl

theorem exDir_neat (args : List String) (h : decls (exDirRun args) = ⟨exDirOptions, [], []⟩) : AllLeaveOthers (exDirRun args) := by
  unfold AllLeaveOthers
  rw [h]
  refine ⟨fun d hd => ?_, fun d hd => nomatch hd⟩
  rcases List.mem_cons.1 hd with rfl | hd
  · exact (C86_who_leaves_others false).2 _ (C86_who_leaves_files false _ _).1
  · rcases List.mem_cons.1 hd with rfl | hd
    · exact (C86_who_leaves_others false).1
    · cases hd

/-- `app -i a.txt -d out`. -/
def exDirOk : Prog System := exDirRun ["-i", "a.txt", "-d", "out"]

theorem exDirOk_decls : decls exDirOk = ⟨exDirOptions, [], []⟩ := exDir_decls _ (by decide +kernel)

theorem exDirOk_returned : parse exSysEnv exDirOk = (.returned, (parse exSysEnv exDirOk).2) := returned_pair (by decide +kernel)

theorem exDirOk_form : ∀ u, WellFormed (exSysEnv.versionCheck exDirOk.parser.appName exDirOk.parser.notify u exDirOk.world).2.disk := by
  intro u
  have : WellFormed exDirOk.world.disk := by decide +kernel
  exact this

example : InputUsable (parse exSysEnv exDirOk).2.world ["txt".toList] "a.txt".toList :=
  C86_input_files_usable_beside_partial exSysEnv exDirOk (parse exSysEnv exDirOk).2 ⟨_, _, _, _, rfl⟩ exDirOk_returned (by decide +kernel) (Or.inl rfl)
    (exDir_neat _ exDirOk_decls) exDirOk_form ["txt".toList] [] 0
    (by rw [exDirOk_decls]; exact Or.inl ⟨_, .head _, rfl, rfl, "-i".toList, by decide +kernel, by decide +kernel⟩) "a.txt".toList
    (Or.inl (by decide +kernel)) (by decide +kernel)

example : OutputDirectoryUsable (parse exSysEnv exDirOk).2.world "out".toList :=
  C86_output_directories_usable_partial exSysEnv exDirOk (parse exSysEnv exDirOk).2 ⟨_, _, _, _, rfl⟩ exDirOk_returned (by decide +kernel) (Or.inl rfl)
    (exDir_neat _ exDirOk_decls) exDirOk_form false 1
    (by rw [exDirOk_decls]; exact Or.inl ⟨_, .tail _ (.head _), rfl, rfl, "-d".toList, by decide +kernel, by decide +kernel⟩) "out".toList
    (Or.inr (Or.inl (by decide +kernel))) (by decide +kernel)

example (u : Option Bool) :
    WellFormed ((exSurroundings {}).env.versionCheck exDirOk.parser.appName exDirOk.parser.notify u exDirOk.world).2.disk :=
  C86_real_check_well_formed (exSurroundings {}) exDirOk ((matchesNameRegex_iff _).1 (by decide +kernel)) (by decide +kernel) u

/-- `app -i out/dummy.txt -d out`. -/
def exDirLost : Prog System := exDirRun ["-i", "out/dummy.txt", "-d", "out"]

theorem exDirLost_decls : decls exDirLost = ⟨exDirOptions, [], []⟩ := exDir_decls _ (by decide +kernel)

theorem exDirLost_returned : parse exSysEnv exDirLost = (.returned, (parse exSysEnv exDirLost).2) := returned_pair (by decide +kernel)

example : ¬ InputUsable (parse exSysEnv exDirLost).2.world ["txt".toList] "out/dummy.txt".toList :=
  (C86_input_in_output_directory_is_deleted exSysEnv exDirLost (parse exSysEnv exDirLost).2 ⟨_, _, _, _, rfl⟩ exDirLost_returned (by decide +kernel)
    [exDirOptions[0]] [] exDirOptions[1] (by rw [exDirLost_decls]; rfl)
    (fun e he => by rcases List.mem_singleton.1 he with rfl; exact (C86_who_leaves_files false _ _).1) (fun e he => nomatch he)
    (fun e he => by rw [exDirLost_decls] at he; exact nomatch he)
    (fun u => by have : WellFormed exDirLost.world.disk := by decide +kernel
                 exact this) false rfl
    (by rw [exDirLost_decls]; exact ⟨"-d".toList, by decide +kernel, by decide +kernel⟩) "out".toList (Or.inr (by decide +kernel))).2 _ _ (by decide +kernel)

end Sharg
