import Verif.Lemmas.PathCheck
import Verif.Props.PathValue
import Verif.Props.Version

/-!
# Property C86: when `parse()` has returned, the files are as the validators promise
-/

namespace Sharg

open Spec

variable {W : Type}

/-- The elements of positional lists are in range, or the build has assertions (see C31). -/
def PositionalListsInRange (env : Env W) (g : Prog W) : Prop :=
  env.ndebug = false ∨ ∀ d ∈ (decls g).positionals, d.isList = true → ∀ t, ¬ OutOfRange d.ty t

/-- C33, with the world: the validator accepted the final value in a world in which everything holds that the validators of the program keep and that
held after the version check; and it holds when `parse()` returns. -/
theorem C33_validated_in_the_same_world (env : Env W) (g g' : Prog W) (hg : Reachable env g) (h : parse env g = (.returned, g'))
    (hv : VarsDistinct (decls g)) (hl : PositionalListsInRange env g) (v : Val → W → Bool × W) (x : VarId)
    (hx : CheckedBy (decls g) g'.parser.formatArguments v x) :
    ∃ w₁ u u', env.versionCheck g.parser.appName g.parser.notify g'.parser.userDecision g.world = (none, w₁) ∧ v (g'.store x) u = (true, u') ∧
      ∀ P : W → Prop, (∀ d ∈ (decls g).options, ValidatorKeeps P d.validator) → (∀ d ∈ (decls g).positionals, ValidatorKeeps P d.validator) →
        P w₁ → P u ∧ P g'.world := by
  obtain ⟨_, hD, _⟩ := reachable_returned hg h
  obtain ⟨_, _, _, w₁, s, hc, hr, hs, hw⟩ := parse_returned env g g' h
  obtain ⟨ph⟩ := phases env.ndebug hD _ g.store w₁ s () hr
  have hend : ∀ P : W → Prop, (∀ d ∈ (decls g).options, ValidatorKeeps P d.validator) →
      (∀ d ∈ (decls g).positionals, ValidatorKeeps P d.validator) → P w₁ → P g'.world := by
    intro P h1 h2 h3
    have := guards_formatParse env.ndebug (decls g) g'.parser.formatArguments g.store w₁ h1 h2 h3
    rw [show formatParse env.ndebug (decls g) g'.parser.formatArguments g.store w₁ = _ from hr] at this
    rw [hw]
    exact this
  rcases hx with ⟨d, hd, rfl, rfl, hn⟩ | ⟨d, hd, rfl, rfl⟩
  · obtain ⟨front, back, hsplit⟩ := List.append_of_mem hd
    obtain ⟨u, u', h1, h2, _⟩ := option_world hD hv hsplit env.ndebug ph hn
    refine ⟨w₁, u, u', hc, by rw [hs]; exact h1, fun P hP hP' hw₁ => ⟨h2 P (fun e he => hP e ?_) hw₁, hend P hP hP' hw₁⟩⟩
    rw [show (decls g).options = front ++ d :: back from hsplit]
    exact List.mem_append_left _ he
  · have hm := positionals_mean_of env.ndebug (decls g).positionals _ _ _ (by
      intro e he hle t _
      rcases hl with hl | hl
      · exact Or.inl hl
      · exact Or.inr (hl e he hle t)) ph.posRun
    have hv' := hv
    unfold VarsDistinct at hv'
    rw [List.nodup_append] at hv'
    obtain ⟨u, u', h1, h2⟩ := positional_world _ _ _ _ _ _ hv'.2.1 hm d hd
    refine ⟨w₁, u, u', hc, by rw [hs]; exact h1, fun P hP hP' hw₁ => ⟨(h2 P hP' ?_).1, hend P hP hP' hw₁⟩⟩
    have g1 := guards_forEach (P := P) (decls g).options (fun e he => guards_getOption env.ndebug e (hP e he))
      ⟨before g'.parser.formatArguments, g'.parser.formatArguments.dropWhile (· ≠ endMarker), g.store, w₁⟩ hw₁
    rw [show M.forEach (getOption env.ndebug) (decls g).options _ = _ from ph.optRun] at g1
    have g2 := guards_forEach (P := P) (decls g).flags (fun f _ => guards_getFlag P f) ph.opt g1
    rw [show M.forEach getFlag (decls g).flags _ = _ from ph.flgRun] at g2
    exact g2

/-- All validators of the program leave the files alone. -/
def AllLeaveFiles (g : Prog System) : Prop :=
  (∀ d ∈ (decls g).options, LeavesFiles d.validator) ∧ ∀ d ∈ (decls g).positionals, LeavesFiles d.validator

/-- The validator accepted the final value, with the files as they are when `parse()` returns. -/
theorem checked_with_final_files (env : Env System) (g g' : Prog System) (hg : Reachable env g) (h : parse env g = (.returned, g'))
    (hv : VarsDistinct (decls g)) (hl : PositionalListsInRange env g) (hf : AllLeaveFiles g) (v : Val → System → Bool × System) (x : VarId)
    (hx : CheckedBy (decls g) g'.parser.formatArguments v x) :
    ∃ u u', v (g'.store x) u = (true, u') ∧ u.disk = g'.world.disk ∧ u.cwd = g'.world.cwd := by
  obtain ⟨w₁, u, u', _, h1, h2⟩ := C33_validated_in_the_same_world env g g' hg h hv hl v x hx
  obtain ⟨h3, h4⟩ := h2 (sameFiles w₁.disk w₁.cwd) (fun d hd => keeps_files (hf.1 d hd) _ _) (fun d hd => keeps_files (hf.2 d hd) _ _) ⟨rfl, rfl⟩
  exact ⟨u, u', h1, h3.1.trans h4.1.symm, h3.2.trans h4.2.symm⟩

/-! ### Programs whose validators leave the files alone -/

/-- C86: the validators of the library that leave the files alone. -/
theorem C86_who_leaves_files (nd : Bool) (exts : List Str) (help : Str) :
    LeavesFiles (inputFile exts help).onPaths ∧ LeavesFiles inputDirectory.onPaths ∧ LeavesFiles (outputFile nd .createNew exts help).onPaths :=
  ⟨still_leaves (still_inputFile exts help), still_leaves still_inputDirectory, still_leaves (still_createNew nd exts help)⟩

/-- C86, partial (validators that leave the files alone): when `parse()` has returned, every path that was given for an input file can be read. -/
theorem C86_input_files_usable_partial (env : Env System) (g g' : Prog System) (hg : Reachable env g) (h : parse env g = (.returned, g'))
    (hv : VarsDistinct (decls g)) (hl : PositionalListsInRange env g) (hf : AllLeaveFiles g) (exts : List Str) (help : Str) (x : VarId)
    (hx : CheckedBy (decls g) g'.parser.formatArguments (inputFile exts help).onPaths x) (p : Str) (hp : Holds (g'.store x) p) :
    InputUsable g'.world exts p := by
  obtain ⟨u, u', h1, h2, h3⟩ := checked_with_final_files env g g' hg h hv hl hf _ x hx
  have := (C40_input_file exts help _ _).1.1 (still_accepted (still_inputFile exts help) h1 p hp)
  rw [h2, h3] at this
  exact ⟨this.1, fun name hn => by rw [← nameOf_unique hn]; exact this.2⟩

/-- C86, partial: and every path that was given for an input directory leads to a directory that can be read. -/
theorem C86_input_directories_usable_partial (env : Env System) (g g' : Prog System) (hg : Reachable env g) (h : parse env g = (.returned, g'))
    (hv : VarsDistinct (decls g)) (hl : PositionalListsInRange env g) (hf : AllLeaveFiles g) (x : VarId)
    (hx : CheckedBy (decls g) g'.parser.formatArguments inputDirectory.onPaths x) (p : Str) (hp : Holds (g'.store x) p) :
    DirectoryUsable g'.world p := by
  obtain ⟨u, u', h1, h2, h3⟩ := checked_with_final_files env g g' hg h hv hl hf _ x hx
  have := (C40_input_directory _ _).1.1 (still_accepted still_inputDirectory h1 p hp)
  rw [h2, h3] at this
  exact this

/-- C86, partial: and every path that was given for a new output file is free, and the file can be created. -/
theorem C86_output_files_free_partial (env : Env System) (g g' : Prog System) (hg : Reachable env g) (h : parse env g = (.returned, g'))
    (hv : VarsDistinct (decls g)) (hl : PositionalListsInRange env g) (hf : AllLeaveFiles g) (nd : Bool) (exts : List Str) (help : Str) (x : VarId)
    (hx : CheckedBy (decls g) g'.parser.formatArguments (outputFile nd .createNew exts help).onPaths x) (p : Str) (hp : Holds (g'.store x) p) :
    OutputFree g'.world exts p := by
  obtain ⟨u, u', h1, h2, h3⟩ := checked_with_final_files env g g' hg h hv hl hf _ x hx
  have := (C41_create_new_accepts_exactly nd exts help _ _).1 (still_accepted (still_createNew nd exts help) h1 p hp)
  rw [h2, h3] at this
  exact ⟨this.1, this.2.1, fun name hn => by rw [← nameOf_unique hn]; exact this.2.2⟩

/-- C86, partial: so that no output is one of the inputs. -/
theorem C86_output_is_no_input_partial (env : Env System) (g g' : Prog System) (hg : Reachable env g) (h : parse env g = (.returned, g'))
    (hv : VarsDistinct (decls g)) (hl : PositionalListsInRange env g) (hf : AllLeaveFiles g) (nd : Bool) (exts exts' : List Str) (help help' : Str)
    (x y : VarId) (hx : CheckedBy (decls g) g'.parser.formatArguments (inputFile exts help).onPaths x)
    (hy : CheckedBy (decls g) g'.parser.formatArguments (outputFile nd .createNew exts' help').onPaths y) (p q : Str)
    (hp : Holds (g'.store x) p) (hq : Holds (g'.store y) q) : locOf g'.world.cwd p ≠ locOf g'.world.cwd q := by
  intro e
  obtain ⟨⟨n, h1, _⟩, _⟩ := C86_input_files_usable_partial env g g' hg h hv hl hf exts help x hx p hp
  obtain ⟨h2, _⟩ := C86_output_files_free_partial env g g' hg h hv hl hf nd exts' help' y hy q hq
  rw [e] at h1
  exact h2 n h1

/-- C86, partial: such a program does not change any file in `parse()`, whatever the arguments are and however `parse()` ends (if the version check and
the pages do not). -/
theorem C86_files_unchanged_partial (env : Env System) (g : Prog System) (hf : AllLeaveFiles g)
    (hc : ∀ u s, (env.versionCheck g.parser.appName g.parser.notify u s).2.disk = s.disk ∧
      (env.versionCheck g.parser.appName g.parser.notify u s).2.cwd = s.cwd)
    (hp : ∀ f p st s, (env.printPage f p st s).2.disk = s.disk ∧ (env.printPage f p st s).2.cwd = s.cwd) :
    (parse env g).2.world.disk = g.world.disk ∧ (parse env g).2.world.cwd = g.world.cwd :=
  parse_guards (P := sameFiles g.world.disk g.world.cwd) env g (fun u s hs => ⟨(hc u s).1.trans hs.1, (hc u s).2.trans hs.2⟩)
    (fun f p st s hs => ⟨(hp f p st s).1.trans hs.1, (hp f p st s).2.trans hs.2⟩) (fun d hd => keeps_files (hf.1 d hd) _ _)
    (fun d hd => keeps_files (hf.2 d hd) _ _) ⟨rfl, rfl⟩

/-! ### `open_or_create` -/

/-- C86 is false with `open_or_create`: when `parse()` has returned, the file that was given for the output does not exist any more, and if it was
given for an input as well, the input is gone. -/
theorem C86_input_given_as_output_is_deleted (env : Env System) (g g' : Prog System) (hg : Reachable env g) (h : parse env g = (.returned, g'))
    (hv : VarsDistinct (decls g)) (front back : List (OptDecl System)) (d : OptDecl System) (hsplit : (decls g).options = front ++ d :: back)
    (hfront : ∀ e ∈ front, LeavesFiles e.validator) (hback : ∀ e ∈ back, LeavesFiles e.validator)
    (hpos : ∀ e ∈ (decls g).positionals, LeavesFiles e.validator)
    (hw : ∀ u, WellFormed (env.versionCheck g.parser.appName g.parser.notify u g.world).2.disk)
    (nd : Bool) (exts : List Str) (help : Str) (hd : d.validator = (outputFile nd .openOrCreate exts help).onPaths)
    (hn : ∃ a ∈ free (decls g) false (before g'.parser.formatArguments), Names d a) (p : Str)
    (hp : g'.store d.var = .one (pathElem p) ∨ g'.store d.var = .one (.str p)) :
    (∀ n, ¬ Reaches g'.world.disk (locOf g'.world.cwd p) n) ∧
    ∀ q exts', locOf g'.world.cwd q = locOf g'.world.cwd p → ¬ InputUsable g'.world exts' q := by
  obtain ⟨_, hD, _⟩ := reachable_returned hg h
  obtain ⟨_, _, _, w₁, s, hc, hr, hs, hw'⟩ := parse_returned env g g' h
  obtain ⟨ph⟩ := phases env.ndebug hD _ g.store w₁ s () hr
  obtain ⟨u, u', h1, h2, h3⟩ := option_world hD hv hsplit env.ndebug ph hn
  obtain ⟨h4, h5⟩ := h2 (sameFiles w₁.disk w₁.cwd) (fun e he => keeps_files (hfront e he) _ _) ⟨rfl, rfl⟩
  obtain ⟨h6, h7⟩ := h3 (sameFiles u'.disk u'.cwd) (fun e he => keeps_files (hback e he) _ _) (fun e he => keeps_files (hpos e he) _ _) ⟨rfl, rfl⟩
  have hwf : WellFormed u.disk := by
    have := hw g'.parser.userDecision
    rw [hc] at this
    rw [h4]
    exact this
  have hrun : (outputFile nd .openOrCreate exts help).onSystem.run p u = .ok () u' := by
    rw [hd, ← hs] at h1
    rcases hp with hp | hp
    · rw [hp] at h1
      unfold Validator.onPaths at h1
      simp only [elemPath_path] at h1
      exact inParser_true h1
    · rw [hp] at h1
      exact inParser_true h1
  rw [onSystem_run] at hrun
  have hgone : ∀ n, ¬ Reaches g'.world.disk (locOf g'.world.cwd p) n := by
    intro n hn
    cases hv : (outputFile nd .openOrCreate exts help).run (pathArg u.cwd p) u.disk with
    | err e fs => rw [hv] at hrun; cases hrun
    | ok r fs =>
      rw [hv] at hrun
      cases hrun
      have := openOrCreate_leaves_nothing nd exts help _ hwf hv (locOf u.cwd p)
      rw [if_pos (show locOf u.cwd p = (pathArg u.cwd p).loc from rfl)] at this
      have hn := hn.1
      rw [hw', h6, h7] at hn
      rw [show fs.node? (locOf u.cwd p) = _ from hn] at this
      cases this
  refine ⟨hgone, fun q exts' e hq => ?_⟩
  obtain ⟨⟨n, hn, _⟩, _⟩ := hq
  rw [e] at hn
  exact hgone n hn

/-! ### Examples -/

/-- Two files in the home directory. -/
def exFiles : System := exSystem [(["h".toList, "a.txt".toList], .file "precious".toList true true),
  (["h".toList, "b.txt".toList], .file "too".toList true true)] 0 ""

def exSysEnv : Env System where
  ndebug := false
  versionCheck := fun _ _ _ w => (none, w)
  printPage := fun _ _ _ w => (none, w)

/-- An input, an output, and any number of inputs as positional options. -/
def exFileCalls (mode : OpenMode) : List (Call System) :=
  [.addOption { short := 'i', long := "input".toList } 0 false pathTy (inputFile ["txt".toList] []).onPaths,
   .addOption { short := 'o', long := "output".toList } 1 false .string (outputFile false mode [] []).onPaths,
   .addPositionalOption { } 2 true pathTy (inputFile [] []).onPaths]

def exFileRun (mode : OpenMode) (args : List String) : Prog System :=
  runActions exSysEnv ((exFileCalls mode).map .call) (start { exInit with arguments := ("app" :: args).map String.toList } exStore exFiles)

theorem exFileRun_decls (mode : OpenMode) (args : List String)
    (h : (accepted exSysEnv ((exFileCalls mode).map .call)
      (start { exInit with arguments := ("app" :: args).map String.toList } exStore exFiles)).length = 3) :
    decls (exFileRun mode args) = declsOf ((exFileCalls mode).filterMap Call.entry?) := by
  unfold decls exFileRun
  rw [operations_of_length exSysEnv (exFileCalls mode) _ h]
  rfl

/-- `app --input a.txt -o c.txt b.txt /h/a.txt`. -/
def exNewRun : Prog System := exFileRun .createNew ["--input", "a.txt", "-o", "c.txt", "b.txt", "/h/a.txt"]

theorem exNew_decls : decls exNewRun = declsOf ((exFileCalls .createNew).filterMap Call.entry?) := exFileRun_decls _ _ (by decide +kernel)

theorem exNew_returned : parse exSysEnv exNewRun = (.returned, (parse exSysEnv exNewRun).2) := returned_pair (by decide +kernel)

theorem exNew_leaves : AllLeaveFiles exNewRun := by
  unfold AllLeaveFiles
  rw [exNew_decls]
  refine ⟨fun d hd => ?_, fun d hd => ?_⟩
  · rcases List.mem_cons.1 hd with rfl | hd
    · exact (C86_who_leaves_files false _ _).1
    · rcases List.mem_cons.1 hd with rfl | hd
      · exact (C86_who_leaves_files false _ _).2.2
      · cases hd
  · rcases List.mem_cons.1 hd with rfl | hd
    · exact (C86_who_leaves_files false _ _).1
    · cases hd

theorem exNew_in_range : PositionalListsInRange exSysEnv exNewRun := Or.inl rfl

theorem exNew_distinct : VarsDistinct (decls exNewRun) := by decide +kernel

theorem exNew_input : CheckedBy (decls exNewRun) (parse exSysEnv exNewRun).2.parser.formatArguments (inputFile ["txt".toList] []).onPaths 0 := by
  rw [exNew_decls]
  exact Or.inl ⟨_, .head _, rfl, rfl, "--input".toList, by decide +kernel, by decide +kernel⟩

theorem exNew_output : CheckedBy (decls exNewRun) (parse exSysEnv exNewRun).2.parser.formatArguments (outputFile false .createNew [] []).onPaths 1 := by
  rw [exNew_decls]
  exact Or.inl ⟨_, .tail _ (.head _), rfl, rfl, "-o".toList, by decide +kernel, by decide +kernel⟩

theorem exNew_words : CheckedBy (decls exNewRun) (parse exSysEnv exNewRun).2.parser.formatArguments (inputFile [] []).onPaths 2 := by
  rw [exNew_decls]
  exact Or.inr ⟨_, .head _, rfl, rfl⟩

theorem exNew_store : (parse exSysEnv exNewRun).2.store 0 = .one (pathElem "a.txt".toList) ∧
    (parse exSysEnv exNewRun).2.store 1 = .one (.str "c.txt".toList) ∧
    (parse exSysEnv exNewRun).2.store 2 = .many [pathElem "b.txt".toList, pathElem "/h/a.txt".toList] := by decide +kernel

example : InputUsable (parse exSysEnv exNewRun).2.world ["txt".toList] "a.txt".toList :=
  C86_input_files_usable_partial exSysEnv exNewRun (parse exSysEnv exNewRun).2 ⟨_, _, _, _, rfl⟩ exNew_returned exNew_distinct exNew_in_range exNew_leaves
    ["txt".toList] [] 0 exNew_input "a.txt".toList (Or.inl exNew_store.1)

example : InputUsable (parse exSysEnv exNewRun).2.world [] "/h/a.txt".toList :=
  C86_input_files_usable_partial exSysEnv exNewRun (parse exSysEnv exNewRun).2 ⟨_, _, _, _, rfl⟩ exNew_returned exNew_distinct exNew_in_range exNew_leaves
    [] [] 2 exNew_words "/h/a.txt".toList (Or.inr (Or.inr ⟨_, exNew_store.2.2, Or.inl (.tail _ (.head _))⟩))

example : OutputFree (parse exSysEnv exNewRun).2.world [] "c.txt".toList :=
  C86_output_files_free_partial exSysEnv exNewRun (parse exSysEnv exNewRun).2 ⟨_, _, _, _, rfl⟩ exNew_returned exNew_distinct exNew_in_range exNew_leaves
    false [] [] 1 exNew_output "c.txt".toList (Or.inr (Or.inl exNew_store.2.1))

/-- `app --input a.txt -o a.txt b.txt` with `open_or_create`: `a.txt` is gone. -/
def exOldRun : Prog System := exFileRun .openOrCreate ["--input", "a.txt", "-o", "/h/a.txt", "b.txt"]

theorem exOld_decls : decls exOldRun = declsOf ((exFileCalls .openOrCreate).filterMap Call.entry?) := exFileRun_decls _ _ (by decide +kernel)

theorem exOld_returned : parse exSysEnv exOldRun = (.returned, (parse exSysEnv exOldRun).2) := returned_pair (by decide +kernel)

theorem exFiles_wellFormed : WellFormed exFiles.disk := by decide +kernel

theorem exOld_gone : (∀ n, ¬ Reaches (parse exSysEnv exOldRun).2.world.disk (locOf (parse exSysEnv exOldRun).2.world.cwd "/h/a.txt".toList) n) ∧
    ∀ q exts', locOf (parse exSysEnv exOldRun).2.world.cwd q = locOf (parse exSysEnv exOldRun).2.world.cwd "/h/a.txt".toList →
      ¬ InputUsable (parse exSysEnv exOldRun).2.world exts' q :=
  C86_input_given_as_output_is_deleted exSysEnv exOldRun (parse exSysEnv exOldRun).2 ⟨_, _, _, _, rfl⟩ exOld_returned (by decide +kernel)
    [⟨'i', "input".toList, 0, false, pathTy, false, (inputFile ["txt".toList] []).onPaths⟩] []
    ⟨'o', "output".toList, 1, false, .string, false, (outputFile false .openOrCreate [] []).onPaths⟩
    (by rw [exOld_decls]; rfl) (fun e he => by rw [List.mem_singleton.1 he]; exact (C86_who_leaves_files false _ _).1) (by simp)
    (by
      rw [exOld_decls]
      intro e he
      rcases List.mem_cons.1 he with rfl | he
      · exact (C86_who_leaves_files false _ _).1
      · cases he)
    (fun _ => exFiles_wellFormed) false [] [] rfl
    ⟨"-o".toList, by decide +kernel, by decide +kernel⟩ "/h/a.txt".toList (Or.inr (by decide +kernel))

example : ¬ InputUsable (parse exSysEnv exOldRun).2.world ["txt".toList] "a.txt".toList := exOld_gone.2 _ _ (by decide +kernel)

/-- Two outputs may be the same file: both are free. -/
example : (parse exSysEnv (runActions exSysEnv
    [.call (.addOption { short := 'o' } 0 false .string (outputFile false .createNew [] []).onPaths),
     .call (.addOption { short := 'l' } 1 false .string (outputFile false .createNew [] []).onPaths)]
    (start { exInit with arguments := ["app", "-o", "c.txt", "-l", "c.txt"].map String.toList } exStore exFiles))).1 = .returned := by decide +kernel

end Sharg
