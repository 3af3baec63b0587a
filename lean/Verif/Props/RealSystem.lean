import Verif.Props.VersionParts
import Verif.Props.Lists
import Verif.Props.PagePrint

/-!
# `parse()` on a real system

C58 for the whole program: the version check and the pages are no longer arbitrary.
-/

namespace Sharg

open Spec

theorem tryDir_throws (nd : Bool) (d : Str) (s s' : System) (e : Exn) (h : tryDir nd s.cwd d s = .err e s') :
    e = .assertFailed ∧ nd = false := by
  obtain ⟨b, fs', h1, -, -⟩ := openForWriting_frame (locOf s.cwd (pathJoin d dummyName)) s.disk
  have e1 : tryDir nd s.cwd d s = M.bind (onDisk (withGuard nd (locOf s.cwd (pathJoin d dummyName))
      (fsRemoveNoThrow (locOf s.cwd (pathJoin d dummyName))))) (fun _ => M.pure (if b then d else [])) { s with disk := fs' } :=
    bind_of_ok (onDisk_ok h1)
  rw [e1] at h
  unfold M.bind at h
  rw [onDisk_run] at h
  dsimp only at h
  obtain ⟨fs₁, h2, -⟩ := removeNoThrow_frame (locOf s.cwd (pathJoin d dummyName)) fs'
  unfold withGuard at h
  rw [h2] at h
  dsimp only at h
  cases h3 : fsRemoveAll (locOf s.cwd (pathJoin d dummyName)) fs₁ with
  | ok u fs₂ => rw [h3] at h; cases h
  | err x fs₂ =>
    rw [h3] at h
    cases nd with
    | true => cases h
    | false => cases h; exact ⟨rfl, rfl⟩

/-- What the check can throw: nothing if the app has a proper name, `HOME` is set, and there is a directory for temporary
files, except that builds with assertions assert that the test file can be removed. -/
theorem run_throws (i : CheckInput) (notify : Bool) (user : Option Bool) (s : System) (e : Exn) (hn : CleanName i.name)
    (h : (runVersionCheck i notify user s).exn? = some e) :
    (e = .undefinedBehaviour ∧ s.home = none) ∨ (e = .filesystemError ∧ s.tempDir = none) ∨
      (e = .assertFailed ∧ i.ndebug = false) := by
  cases hm : makeChecker i s with
  | ok ck s₁ =>
    obtain ⟨k, r, s₂, -, h5, -⟩ := decideCheck_spec ck notify user s₁ (makeChecker_ok hm).1
    obtain ⟨t, h6, -⟩ := run_steps i notify user hm h5
    rw [h6] at h
    cases h
  | err x s₁ =>
    have hx : x = e := by
      unfold runVersionCheck at h
      rw [M.bind_run, hm] at h
      simpa [Res.exn?] using h
    subst hx
    unfold makeChecker at hm
    rw [M.bind_run] at hm
    cases hg : getPath i.ndebug s with
    | ok p s₂ =>
      rw [hg] at hm
      dsimp only at hm
      rw [if_neg (by rw [(matchesNameRegex_iff _).2 hn]; simp)] at hm
      cases hm
    | err y s₂ =>
      rw [hg] at hm
      cases hm
      obtain hh | ⟨h', hh⟩ := option_cases s.home
      · rw [getPath_no_home i.ndebug s hh] at hg
        cases hg
        exact Or.inl ⟨rfl, hh⟩
      · obtain ⟨ok₁, d₁, ok₂, d₂, -, -, h3⟩ := getPath_steps i.ndebug s h' hh
        rw [h3] at hg
        cases hdir : (if ok₂ then some (seqanText h') else s.tempDir) with
        | none =>
          rw [hdir] at hg
          cases hg
          right; left
          cases ok₂ with
          | true => simp at hdir
          | false => simpa using hdir
        | some d =>
          rw [hdir] at hg
          exact Or.inr (Or.inr (tryDir_throws _ _ { s with disk := d₂ } _ _ hg))

/-- C58 on a real system, with at least one argument: everything that is thrown is a parser error, except
* `std::out_of_range` for an enumeration without names or a synopsis line without a blank on a requested page;
* a failed assertion in debug builds;
* undefined behaviour if `HOME` is not set, or, on a requested page in release builds, for a cut off backslash sequence;
* a file system error if there is no directory for temporary files. -/
theorem C58_real_system_partial (r : Surroundings) (g g' : Prog System) (hg : Reachable r.env g) (hne : g.parser.arguments ≠ [])
    (e : Exn) (h : parse r.env g = (.threw e, g')) :
    e.isParserError = true ∨
    (e = .outOfRange ∧ ((∃ d ∈ (decls g).options, d.ty = .enumeration []) ∨ (∃ d ∈ (decls g).positionals, d.ty = .enumeration []) ∨
      ∃ f p, f ≠ .parse ∧ g.parser.SameSetup p ∧ (pageOf r.pages f p g.store).1 = some .outOfRange)) ∨
    (e = .assertFailed ∧ r.pages.build.ndebug = false) ∨
    (e = .undefinedBehaviour ∧ (g.world.home = none ∨ (r.pages.build.ndebug = true ∧
      ∃ f p, f ≠ .parse ∧ g.parser.SameSetup p ∧ (pageOf r.pages f p g.store).1 = some .undefinedBehaviour))) ∨
    (e = .filesystemError ∧ g.world.tempDir = none) := by
  rcases C58_only_parser_errors_partial r.env g g' hg hne e h with h1 | ⟨h1, h2⟩ | ⟨h1, h2, -⟩ | ⟨hn, u, h1⟩ | ⟨f, p, w, hf, hp, h1⟩
  · exact Or.inl h1
  · rcases h2 with h2 | h2
    · exact Or.inr (Or.inl ⟨h1, Or.inl h2⟩)
    · exact Or.inr (Or.inl ⟨h1, Or.inr (Or.inl h2)⟩)
  · exact Or.inr (Or.inr (Or.inl ⟨h1, h2⟩))
  · rcases run_throws (r.check g.parser.appName) g.parser.notify u g.world e hn h1 with ⟨h2, h3⟩ | ⟨h2, h3⟩ | ⟨h2, h3⟩
    · exact Or.inr (Or.inr (Or.inr (Or.inl ⟨h2, Or.inl h3⟩)))
    · exact Or.inr (Or.inr (Or.inr (Or.inr ⟨h2, h3⟩)))
    · exact Or.inr (Or.inr (Or.inl ⟨h2, h3⟩))
  · have h1 : (pageOf r.pages f p g.store).1 = some e := h1
    have h2 := C46_no_other_failures r.pages f p g.store
    rw [h1] at h2
    simp only [List.mem_cons, List.not_mem_nil, or_false, reduceCtorEq, false_or, Option.some.injEq] at h2
    rcases h2 with h2 | h2 | h2
    · unfold endReached at h2
      cases hb : r.pages.build.ndebug with
      | true =>
        rw [hb] at h2
        simp only [if_true] at h2
        exact Or.inr (Or.inr (Or.inr (Or.inl ⟨h2, Or.inr ⟨rfl, f, p, hf, hp, h2 ▸ h1⟩⟩)))
      | false =>
        rw [hb] at h2
        exact Or.inr (Or.inr (Or.inl ⟨h2, rfl⟩))
    · exact Or.inr (Or.inl ⟨h2, Or.inr (Or.inr ⟨f, p, hf, hp, h2 ▸ h1⟩)⟩)
    · left; rw [h2]; rfl

/-- C58 does not hold as stated: without the environment variable `HOME` every version check, even a switched off one, is
undefined behaviour ... -/
theorem C58_home_not_set (i : CheckInput) (notify : Bool) (user : Option Bool) (s : System) (h : s.home = none) :
    runVersionCheck i notify user s = .err .undefinedBehaviour s := by
  have h1 : makeChecker i s = .err .undefinedBehaviour s := by
    unfold makeChecker
    rw [M.bind_run, getPath_no_home _ _ h]
  unfold runVersionCheck
  rw [M.bind_run, h1]

/-- ... and therefore every call of `parse()` that gets that far. -/
theorem C58_parse_without_home (r : Surroundings) (g : Prog System) (h : g.world.home = none) :
    ∃ e g', parse r.env g = (.threw e, g') ∧ g'.store = g.store ∧ g'.world = g.world ∧
      (e = .undefinedBehaviour ∨ ∀ env : Env System, env.ndebug = r.env.ndebug → parse env g = (.threw e, g')) := by
  have hch : ∀ a n u, r.env.versionCheck a n u g.world = (some .undefinedBehaviour, g.world) := by
    intro a n u
    show ((runVersionCheck (r.check a) n u g.world).exn?, (runVersionCheck (r.check a) n u g.world).state) = _
    rw [C58_home_not_set _ _ _ _ h]
    rfl
  by_cases hp : g.parser.parseWasCalled = true
  · refine ⟨.designError, g, ?_, rfl, rfl, Or.inr fun env _ => ?_⟩ <;> simp [parse, hp]
  · cases hv : verifyAppAndSubcommandNames { g.parser with parseWasCalled := true } with
    | err e p => refine ⟨e, { g with parser := p }, ?_, rfl, rfl, Or.inr fun env _ => ?_⟩ <;> simp [parse, hp, hv]
    | ok u p =>
      cases hd : determineFormatAndSubcommand r.env.ndebug p with
      | err e p' =>
        refine ⟨e, { g with parser := p' }, ?_, rfl, rfl, Or.inr fun env he => ?_⟩
        · simp [parse, hp, hv, hd]
        · simp [parse, hp, hv, he, hd]
      | ok f p' =>
        refine ⟨.undefinedBehaviour, { g with parser := p' }, ?_, rfl, rfl, Or.inl rfl⟩
        simp [parse, hp, hv, hd, checkAndParse, hch]

/-- If neither `~/.config` can be created nor a directory for temporary files is known, `std::filesystem::filesystem_error`
leaves `parse()`, although the developer switched notifications off. -/
theorem C58_no_temporary_directory :
    (runVersionCheck exCheck false none { exReadOnly 0 "" with tempDir := none }).exn? = some .filesystemError := by
  decide +kernel

/-- In a debug build a `dummy.txt` that can be written but not removed fails an assertion. -/
theorem C58_test_file_not_removed :
    (runVersionCheck { exCheck with ndebug := false } false none
      { exSystem [exFile "dummy.txt" ""] 0 "" with disk := [([], .dir true false true), (["h".toList], .dir true true true),
          (["h".toList, ".config".toList], .dir true true true),
          (["h".toList, ".config".toList, "seqan".toList], .dir true false true), exFile "dummy.txt" ""] }).exn?
      = some .assertFailed := by
  decide +kernel

/-! ## Examples -/

/-- The surroundings of an app with the given meta data, for examples. -/
def exSurroundings (m : Meta) : Surroundings where
  pages := exPages m
  shargVersion := (1, 1, 2)

/-- A program with an option `-a` on a real system. -/
def exProgram (s : System) (args : List String) : Prog System :=
  runActions (exSurroundings {}).env
    [.call (.addOption { short := 'a', long := "alpha".toList } 0 false (.integer (-128) 127) (fun _ w => (true, w)))]
    (start { exInit with arguments := args.map String.toList, notify := true } (fun _ => .one (.int 0)) s)

/-- The cases of the theorem: a parser error, and undefined behaviour because of `HOME`. -/
example :
    Reachable (exSurroundings {}).env (exProgram (exSystem [] 0 "") ["app", "-a", "x"]) ∧
    (parse (exSurroundings {}).env (exProgram (exSystem [] 0 "") ["app", "-a", "x"])).1 = .threw .userInputError ∧
    (parse (exSurroundings {}).env (exProgram { exSystem [] 0 "" with home := none } ["app", "-a", "1"])).1
      = .threw .undefinedBehaviour ∧
    (parse (exSurroundings {}).env (exProgram (exSystem [] 0 "n\n") ["app", "-a", "1"])).1 = .returned := by
  exact ⟨⟨_, _, _, _, rfl⟩, by decide +kernel, by decide +kernel, by decide +kernel⟩

end Sharg
