import Verif.Lemmas.Chaining
import Verif.Props.OnlyLines

/-!
# A pattern in front of an input file (C104)
-/

namespace Sharg

open Spec

/-- C104: the two validators in a row accept a text exactly if the pattern matches it and the file can be read; otherwise the text is
rejected. Nothing changes. -/
theorem C104_both_checks (other : Str → Option (Str → Bool)) (e : Exn) (p : Str) (A : Str → Prop) (hp : PatternFor p A) (exts : List Str)
    (help : Str) (s : System) :
    (∀ t, ((patternFile other e p exts help).run t s = .ok () s ↔ A t ∧ InputUsable s exts t) ∧
      ((patternFile other e p exts help).run t s = .err .validationError s ↔ ¬ (A t ∧ InputUsable s exts t))) ∧
    ∀ ts, ((patternFile other e p exts help).each.run ts s = .ok () s ↔ ∀ t ∈ ts, A t ∧ InputUsable s exts t) ∧
      ((patternFile other e p exts help).each.run ts s = .err .validationError s ↔ ¬ ∀ t ∈ ts, A t ∧ InputUsable s exts t) := by
  refine ⟨fun t => ?_, fun ts => ?_⟩
  · rw [patternFile_run hp]
    by_cases h : A t ∧ InputUsable s exts t
    · rw [if_pos h]
      exact ⟨⟨fun _ => h, fun _ => rfl⟩, ⟨fun hh => (by cases hh), fun hh => absurd h hh⟩⟩
    · rw [if_neg h]
      exact ⟨⟨fun hh => (by cases hh), fun hh => absurd hh h⟩, ⟨fun _ => h, fun _ => rfl⟩⟩
  · rw [patternFile_each hp]
    by_cases h : ∀ t ∈ ts, A t ∧ InputUsable s exts t
    · rw [if_pos h]
      exact ⟨⟨fun _ => h, fun _ => rfl⟩, ⟨fun hh => (by cases hh), fun hh => absurd h hh⟩⟩
    · rw [if_neg h]
      exact ⟨⟨fun hh => (by cases hh), fun hh => absurd hh h⟩, ⟨fun _ => h, fun _ => rfl⟩⟩

/-- C104, partial (validators that leave the files alone): in every program, when `parse()` has returned, every text that was given for such an
option is matched by the pattern and is the name of a file that can be read then. -/
theorem C104_parsed_texts_partial (env : Env System) (g g' : Prog System) (hg : Reachable env g) (h : parse env g = (.returned, g'))
    (hv : VarsDistinct (decls g)) (hl : PositionalListsInRange env g) (hf : AllLeaveFiles g) (other : Str → Option (Str → Bool)) (e : Exn)
    (p : Str) (A : Str → Prop) (hp : PatternFor p A) (exts : List Str) (help : Str) (x : VarId)
    (hx : CheckedBy (decls g) g'.parser.formatArguments (patternFile other e p exts help).atTexts x) :
    (∀ t, g'.store x = .one (.str t) → A t ∧ InputUsable g'.world exts t) ∧
    ∀ es t, g'.store x = .many es → .str t ∈ es → A t ∧ InputUsable g'.world exts t := by
  obtain ⟨u, u', hu, hdisk, hcwd⟩ := checked_with_final_files env g g' hg h hv hl hf _ x hx
  have same : ∀ t, InputUsable u exts t → InputUsable g'.world exts t := fun t ht => by
    unfold InputUsable at ht ⊢
    rw [← hdisk, ← hcwd]
    exact ht
  refine ⟨fun t ht => ?_, fun es t hs ht => ?_⟩
  · rw [ht] at hu
    have h1 := inParser_true (show (patternFile other e p exts help).inParser t u = (true, u') from hu)
    rw [patternFile_run hp] at h1
    split at h1
    · rename_i h2; exact ⟨h2.1, same t h2.2⟩
    · cases h1
  · rw [hs] at hu
    have h1 := inParser_true (show (patternFile other e p exts help).each.inParser _ u = (true, u') from hu)
    rw [patternFile_each hp] at h1
    split at h1
    · rename_i h2
      have h3 := h2 t (List.mem_filterMap.2 ⟨.str t, ht, rfl⟩)
      exact ⟨h3.1, same t h3.2⟩
    · cases h1

/-- C104: these validators leave the files alone, so such programs may have any number of them. -/
theorem C104_leaves_files (other : Str → Option (Str → Bool)) (e : Exn) (p : Str) (A : Str → Prop) (hp : PatternFor p A) (exts : List Str)
    (help : Str) : LeavesFiles (patternFile other e p exts help).atTexts :=
  leaves_of_same (atTexts_state (patternFile_state hp other e exts help))

/-- C104: which names pass both validators of the documentation: without line breaks, the names of files that can be read, have one of the
extensions, and are written as absolute paths. Files in the root directory are the exception: they are rejected. -/
theorem C104_accepted_names (s : System) (t : Str) (h1 : '\n' ∉ t) (h2 : '\r' ∉ t) :
    FilePassed s t ↔ InputUsable s ["sa".toList, "so".toList] t ∧ InDirectory t :=
  ⟨fun h => ⟨h.usable, (absoluteText_iff h.usable h1 h2).1 h.absolute⟩, fun h => ⟨(absoluteText_iff h.1 h1 h2).2 h.2, h.1⟩⟩

/-- What the ending is, as far as the options go. -/
theorem chaining_option (nd : Bool) (items : List Item) (w : System) :
    ∃ st₁ r₁, OptionEnds nd items chainedOption (fun _ => .one (.str [])) w st₁ w r₁ ∧ st₁ 0 = .one (.str (fileContent items)) ∧
      (∀ y, y ≠ 0 → st₁ y = .one (.str [])) ∧
      (2 ≤ (shortFiles items).length + (longFiles items).length → r₁ = some .optionDeclaredMultipleTimes) ∧
      ((shortFiles items).length + (longFiles items).length = 1 → ¬ FilePassed w (fileContent items) → r₁ = some .validationError) ∧
      ((shortFiles items).length + (longFiles items).length = 1 → FilePassed w (fileContent items) → r₁ = none) ∧
      ((shortFiles items).length + (longFiles items).length = 0 → r₁ = none) := by
  by_cases h0 : (shortFiles items).length + (longFiles items).length = 0
  · have hs : shortFiles items = [] := List.length_eq_zero_iff.1 (by omega)
    have hg : longFiles items = [] := List.length_eq_zero_iff.1 (by omega)
    refine ⟨fun _ => .one (.str []), none, ?_, ?_, fun _ _ => rfl, fun h => by omega, fun h => by omega, fun h => by omega, fun _ => rfl⟩
    · unfold OptionEnds
      rw [shortTexts_chained, longTexts_chained, if_pos ⟨hs, hg⟩]
      exact ⟨rfl, rfl, rfl⟩
    · unfold fileContent; rw [hs, hg]; rfl
  · have hne : ¬ (shortFiles items = [] ∧ longFiles items = []) := fun h => h0 (by rw [h.1, h.2]; rfl)
    obtain ⟨st₁, ha, hx, hy⟩ := assign_texts 0 (tried (shortFiles items) (longFiles items)) (fun _ => .one (.str []))
    have htr : tried (shortFiles items) (longFiles items) ≠ [] := by
      unfold tried
      split
      · intro hh
        have := congrArg List.length hh
        simp only [List.length_take, List.length_nil] at this
        omega
      · intro hh
        have := congrArg List.length hh
        simp only [List.length_append, List.length_take, List.length_nil] at this
        omega
    have hx' : st₁ 0 = .one (.str (fileContent items)) := by
      rw [hx]
      unfold fileContent
      cases hg : (tried (shortFiles items) (longFiles items)).getLast? with
      | none => exact absurd (List.getLast?_eq_none_iff.1 hg) htr
      | some t => rfl
    by_cases h2 : 2 ≤ (shortFiles items).length + (longFiles items).length
    · refine ⟨st₁, some .optionDeclaredMultipleTimes, ?_, hx', hy, fun _ => rfl, fun h => by omega, fun h => by omega, fun h => by omega⟩
      unfold OptionEnds
      rw [shortTexts_chained, longTexts_chained, if_neg hne]
      exact ⟨st₁, some .optionDeclaredMultipleTimes, ⟨none, ha, (if_pos h2).symm⟩, rfl, rfl, rfl⟩
    · classical
      refine ⟨st₁, if decide (FilePassed w (fileContent items)) then none else some .validationError, ?_, hx', hy, fun h => absurd h h2, fun _ h => ?_,
        fun _ h => ?_, fun h => absurd h h0⟩
      · unfold OptionEnds
        rw [shortTexts_chained, longTexts_chained, if_neg hne]
        refine ⟨st₁, none, ⟨none, ha, (if_neg h2).symm⟩, rfl, _, ?_, rfl⟩
        show absoluteFile.atTexts (st₁ 0) w = _
        rw [hx', absoluteFile_atTexts]
      · rw [decide_eq_false h]; rfl
      · rw [decide_eq_true h]; rfl

/-- C104: how the program ends, on every line with `-f` or `--file` in any number and spelling, together with words, misspelled options and `--`, and
what is in `file_name` then. The files are the same as before. -/
theorem C104_ending (env : Env System) (args : List Str) (s : System) (items : List Item) (tail : Option (List Str))
    (hl : LooseGiven (chaining env args s) items tail) (hok : NeatLine chainingDecls items tail) (w₁ : System)
    (hv : CheckPasses env (chaining env args s) w₁) :
    ∃ p st' r, parse env (chaining env args s) = (endOutcome r, ⟨p, st', w₁⟩) ∧ st' 0 = .one (.str (fileContent items)) ∧
      FileLineEnds w₁ items tail r := by
  have key := C100_ending env _ (chaining_reachable env args s) items tail hl (by rw [chaining_decls]; exact hok) w₁ hv
  rw [chaining_decls] at key
  obtain ⟨st₁, r₁, ho, hx, -, t1, t2, t3, t4⟩ := chaining_option env.ndebug items w₁
  have hstop : ∀ e, r₁ = some e → ∃ p, parse env (chaining env args s) = (.threw e, ⟨p, st₁, w₁⟩) := by
    rintro e rfl
    exact (key st₁ w₁ (some e)).2 ⟨st₁, w₁, some e, ⟨st₁, w₁, some e, ho, rfl, rfl, rfl⟩, rfl, rfl, rfl⟩
  have hgo : r₁ = none → (StrayDash items → ∃ p, parse env (chaining env args s) = (.threw .unknownOption, ⟨p, st₁, w₁⟩)) ∧
      (¬ StrayDash items → Spec.words items tail ≠ [] → ∃ p, parse env (chaining env args s) = (.threw .tooManyArguments, ⟨p, st₁, w₁⟩)) ∧
      (¬ StrayDash items → Spec.words items tail = [] → ∃ p, parse env (chaining env args s) = (.returned, ⟨p, st₁, w₁⟩)) := by
    rintro rfl
    refine ⟨fun hd => ?_, fun hd hw => ?_, fun hd hw => ?_⟩
    · exact (key st₁ w₁ (some .unknownOption)).2
        ⟨st₁, w₁, none, ⟨st₁, w₁, none, ho, rfl, rfl, rfl⟩, Or.inl ⟨(suspect_chaining hok).2 hd, rfl, rfl, rfl⟩⟩
    · refine (key st₁ w₁ (some .tooManyArguments)).2
        ⟨st₁, w₁, none, ⟨st₁, w₁, none, ho, rfl, rfl, rfl⟩, Or.inr ⟨fun h => hd ((suspect_chaining hok).1 h), ?_⟩⟩
      cases hww : Spec.words items tail with
      | nil => exact absurd hww hw
      | cons t ts => exact ⟨rfl, rfl, rfl⟩
    · refine (key st₁ w₁ none).2
        ⟨st₁, w₁, none, ⟨st₁, w₁, none, ho, rfl, rfl, rfl⟩, Or.inr ⟨fun h => hd ((suspect_chaining hok).1 h), ?_⟩⟩
      rw [hw]
      exact ⟨rfl, rfl, rfl⟩
  by_cases h2 : 2 ≤ (shortFiles items).length + (longFiles items).length
  · obtain ⟨p, hp⟩ := hstop _ (t1 h2)
    exact ⟨p, st₁, some .optionDeclaredMultipleTimes, hp, hx, .twice h2⟩
  by_cases h3 : (shortFiles items).length + (longFiles items).length = 1 ∧ ¬ FilePassed w₁ (fileContent items)
  · obtain ⟨p, hp⟩ := hstop _ (t2 h3.1 h3.2)
    exact ⟨p, st₁, some .validationError, hp, hx, .rejected h3.1 h3.2⟩
  have h4 : (shortFiles items).length + (longFiles items).length = 0 ∨
      (shortFiles items).length + (longFiles items).length = 1 ∧ FilePassed w₁ (fileContent items) := by
    by_cases h0 : (shortFiles items).length + (longFiles items).length = 0
    · exact Or.inl h0
    · exact Or.inr ⟨by omega, Classical.not_not.1 fun h => h3 ⟨by omega, h⟩⟩
  obtain ⟨g1, g2, g3⟩ := hgo (h4.elim t4 fun h => t3 h.1 h.2)
  by_cases hd : StrayDash items
  · obtain ⟨p, hp⟩ := g1 hd
    exact ⟨p, st₁, some .unknownOption, hp, hx, .unknown h4 hd⟩
  by_cases hw : Spec.words items tail = []
  · obtain ⟨p, hp⟩ := g3 hd hw
    exact ⟨p, st₁, none, hp, hx, .fine h4 hd hw⟩
  · obtain ⟨p, hp⟩ := g2 hd hw
    exact ⟨p, st₁, some .tooManyArguments, hp, hx, .words h4 hd hw⟩

/-- There is only one ending. -/
theorem C104_one_ending (s : System) (items : List Item) (tail : Option (List Str)) (r r' : Option Exn) (h : FileLineEnds s items tail r)
    (h' : FileLineEnds s items tail r') : r = r' := by
  cases h <;> cases h' <;> first | rfl | grind

/-! ### Every command line -/

theorem first_named_free {W : Type} {D : Decls W} {d : OptDecl W} (hD : D.options = [d]) :
    ∀ {l : List Str}, (∃ a ∈ l, Names d a) → ∃ a ∈ free D false l, Names d a := by
  intro l
  induction l with
  | nil => rintro ⟨a, ha, _⟩; cases ha
  | cons b l ih =>
    rintro ⟨a, ha, hn⟩
    by_cases hb : Names d b
    · exact ⟨b, List.mem_cons_self, hb⟩
    · have hbare : decide (BareAny D b) = false := by
        refine decide_eq_false ?_
        rintro ⟨c, hc, hh⟩
        rw [hD, List.mem_singleton] at hc
        subst hc
        exact hb (names_of_bare hh)
      rcases List.mem_cons.1 ha with rfl | ha
      · exact absurd hn hb
      · obtain ⟨a', ha', hn'⟩ := ih ⟨a, ha, hn⟩
        refine ⟨a', ?_, hn'⟩
        show a' ∈ b :: free D (decide (BareAny D b)) l
        rw [hbare]
        exact List.mem_cons_of_mem _ ha'

theorem not_filePassed_nil (s : System) : ¬ FilePassed s [] := by
  rintro ⟨⟨names, r, e, h, _⟩, _⟩
  have := congrArg List.length h
  simp at this

/-- C104, partial: whatever the arguments, the files and the answers of the version check are, when `parse()` has returned, `file_name` is empty or
the name passed both validators, with the files as they are then. The name is empty exactly if the option was not given; the program
nevertheless says that the name given by the user passed validation. -/
theorem C104_name_passed_partial (env : Env System) (args : List Str) (s : System) (g' : Prog System)
    (h : parse env (chaining env args s) = (.returned, g')) :
    ∃ t, g'.store 0 = .one (.str t) ∧ (t ≠ [] → FilePassed g'.world t) ∧
      (t = [] ↔ ∀ a ∈ before g'.parser.formatArguments, ¬ Names chainedOption a) := by
  have hg := chaining_reachable env args s
  have hdist : VarsDistinct chainingDecls := by decide +kernel
  have hv : VarsDistinct (decls (chaining env args s)) := by rw [chaining_decls]; exact hdist
  have hl : PositionalListsInRange env (chaining env args s) := by
    right
    rw [chaining_decls]
    intro d hd
    cases hd
  have hf : AllLeaveFiles (chaining env args s) := by
    unfold AllLeaveFiles
    rw [chaining_decls]
    refine ⟨fun d hd => ?_, fun d hd => by cases hd⟩
    rw [List.mem_singleton.1 hd]
    exact C104_leaves_files _ _ _ _ absolutePattern_for _ _
  obtain ⟨hi, hD, w1, f, hr, hs, _⟩ := reachable_returned hg h
  rw [show declsOf (chaining env args s).parser.operations = chainingDecls from chaining_decls env args s] at hD hr
  obtain ⟨ph⟩ := phases env.ndebug hD _ _ w1 f () hr
  by_cases hn : ∃ a ∈ before g'.parser.formatArguments, Names chainedOption a
  · rcases option_final hD hdist (d := chainedOption) (.head _) env.ndebug ph with ⟨_, _, h2⟩ | ⟨_, vs, vl, _, h2⟩
    · obtain ⟨a, ha, hna⟩ := first_named_free (D := chainingDecls) rfl hn
      exact absurd hna (h2 a ha)
    · obtain ⟨t, e, h3, h4⟩ := (optValue_elems h2).1 rfl
      have h3 : e = .str t := h3
      subst h3
      have h4 : g'.store 0 = .one (.str t) := by rw [hs]; exact h4
      have hp : FilePassed g'.world t := by
        have := (C104_parsed_texts_partial env _ g' hg h hv hl hf _ _ _ _ absolutePattern_for _ _ 0
          (Or.inl ⟨chainedOption, by rw [chaining_decls]; exact .head _, rfl, rfl, by rw [chaining_decls]; exact first_named_free rfl hn⟩)).1 t h4
        exact ⟨this.1, this.2⟩
      exact ⟨t, h4, fun _ => hp, fun ht => absurd (ht ▸ hp) (not_filePassed_nil _), fun hh => absurd hn fun ⟨a, ha, hna⟩ => hh a ha hna⟩
  · have hn : ∀ a ∈ before g'.parser.formatArguments, ¬ Names chainedOption a := fun a ha hna => hn ⟨a, ha, hna⟩
    refine ⟨[], ?_, fun h => absurd rfl h, fun _ => hn, fun _ => rfl⟩
    have f1 := ph.optRun
    rw [show chainingDecls.options = [chainedOption] from rfl, M.forEach_cons, M.bind_run, getOption_unnamed env.ndebug chainedOption _ hn] at f1
    have f3 := ph.flgRun
    have f4 := keeps_bind (keeps_runPositionals env.ndebug [] (x := 0) (by intro d hd; cases hd)) (fun _ => keeps_leftOver (W := System) 0)
      { ph.flg with pre := ph.flg.pre ++ blankHead ph.flg.post, post := [] }
    rw [show M.bind (runPositionals env.ndebug []) _ _ = _ from ph.posRun] at f4
    simp only [Res.state] at f4
    rw [hs, f4]
    have e3 : ph.opt = ph.flg := by injection f3
    have e1 := (Res.ok.inj (show Res.ok () (⟨before g'.parser.formatArguments, g'.parser.formatArguments.dropWhile (· ≠ endMarker),
      fun _ => .one (.str []), w1⟩ : FState System) = Res.ok () ph.opt from f1)).2
    show ph.flg.store 0 = _
    rw [← e3, ← e1]

/-! ### What goes wrong, and cases -/

/-- The files `/h/x.sa`, `/h/d/y.so`, `/h/x.txt` and `/z.sa`; the current directory is `/h`. -/
def exIndexFiles : System := exSystem [(["h".toList, "x.sa".toList], .file "1".toList true true),
  (["h".toList, "d".toList], .dir true true true), (["h".toList, "d".toList, "y.so".toList], .file "2".toList true true),
  (["h".toList, "x.txt".toList], .file "3".toList true true), (["z.sa".toList], .file "4".toList true true)] 0 ""

def exChaining (args : List String) : Prog System := chaining exSysEnv (("app" :: args).map String.toList) exIndexFiles

theorem exUnnamed_returned : parse exSysEnv (exChaining ["--"]) = (.returned, (parse exSysEnv (exChaining ["--"])).2) :=
  returned_pair (by decide +kernel)

/-- The program says "filename given by user passed validation" although none was given and the empty name would be rejected. -/
theorem C104_no_name_passes :
    ¬ ∀ (env : Env System) (args : List Str) (s : System) (g' : Prog System), parse env (chaining env args s) = (.returned, g') →
      ∃ t, g'.store 0 = .one (.str t) ∧ FilePassed g'.world t := by
  intro h
  obtain ⟨t, h1, h2⟩ := h exSysEnv _ exIndexFiles _ exUnnamed_returned
  have h3 : (parse exSysEnv (exChaining ["--"])).2.store 0 = .one (.str []) := by decide +kernel
  rw [h3] at h1
  cases h1
  exact not_filePassed_nil _ h2

/-- The file may be readable, have the right extension, and be given by its absolute path: in the root directory it is rejected. -/
theorem C104_root_directory_rejected :
    ¬ ∀ (env : Env System) (args : List Str) (s : System) (path : Str), InputUsable s ["sa".toList, "so".toList] path → path.head? = some '/' →
      args = ["app".toList, "-f".toList, path] → (parse env (chaining env args s)).1 = .returned := by
  intro h
  have := h exSysEnv _ exIndexFiles "/z.sa".toList (inputUsable_of (.file "4".toList true true) (by decide +kernel) rfl (by decide +kernel)) rfl rfl
  exact absurd this (by decide +kernel)

/-- Line breaks in names are the other exception. -/
theorem C104_line_breaks_rejected (s : System) : ¬ FilePassed s "/h/\n.sa".toList ∧ InDirectory "/h/\n.sa".toList := by
  refine ⟨fun h => ?_, "h".toList, "\n.sa".toList, by decide, by decide, by decide⟩
  have h1 := (C103_accepts (W := Unit) (fun _ => none) .validationError _ _ absolutePattern_for ()).1 "/h/\n.sa".toList
  rw [if_pos h.absolute] at h1
  exact absurd (congrArg Res.isOk h1) (by decide +kernel)

theorem exPassed : FilePassed exIndexFiles "/h/x.sa".toList :=
  (C104_accepted_names exIndexFiles "/h/x.sa".toList (by decide) (by decide)).2
    ⟨inputUsable_of (.file "1".toList true true) (by decide +kernel) rfl (by decide +kernel), "h".toList, "x.sa".toList, by decide, by decide, by decide⟩

/-- `app --file=/h/x.sa`. -/
def exFileItems : List Item := [.long "file".toList false "/h/x.sa".toList]

def exFileGood : Prog System := exChaining ["--file=/h/x.sa"]

theorem exFileGood_returned : parse exSysEnv exFileGood = (.returned, (parse exSysEnv exFileGood).2) := returned_pair (by decide +kernel)

theorem exFile_given : LooseGiven exFileGood exFileItems none :=
  ⟨rfl, by decide +kernel, rfl, ⟨"app".toList, by decide +kernel⟩, by decide, by
    rw [show declsOf exFileGood.parser.operations = chainingDecls from chaining_decls _ _ _]
    decide +kernel, by decide, fun _ h => by cases h⟩

theorem exFile_neat : NeatLine chainingDecls exFileItems none := ⟨by
  intro it hi
  rw [List.mem_singleton.1 hi]
  show Item.Ok chainingDecls (.long "file".toList false "/h/x.sa".toList)
  decide +kernel, fun _ h => by cases h⟩

/-- The line is accepted, by the theorem and by running the program. -/
example : ∃ p st', parse exSysEnv exFileGood = (.returned, ⟨p, st', exIndexFiles⟩) ∧ st' 0 = .one (.str "/h/x.sa".toList) := by
  obtain ⟨p, st', r, h1, h2, h3⟩ := C104_ending exSysEnv _ exIndexFiles exFileItems none exFile_given exFile_neat exIndexFiles rfl
  have hr : r = none := C104_one_ending _ _ _ _ _ h3 (.fine (Or.inr ⟨by decide +kernel, by
    rw [show fileContent exFileItems = "/h/x.sa".toList by decide +kernel]; exact exPassed⟩)
    (by rintro ⟨it, hi, h⟩; rw [List.mem_singleton.1 hi] at h; rcases h with ⟨_, h⟩ | ⟨_, h⟩ <;> cases h) rfl)
  subst hr
  exact ⟨p, st', h1, h2⟩

example : (parse exSysEnv exFileGood).2.store 0 = .one (.str "/h/x.sa".toList) := by decide +kernel

example : ∃ t, (parse exSysEnv exFileGood).2.store 0 = .one (.str t) ∧ (t ≠ [] → FilePassed (parse exSysEnv exFileGood).2.world t) ∧
    (t = [] ↔ ∀ a ∈ before (parse exSysEnv exFileGood).2.parser.formatArguments, ¬ Names chainedOption a) :=
  C104_name_passed_partial exSysEnv _ exIndexFiles _ exFileGood_returned

/-- One ending of each kind. -/
example : (parse exSysEnv (exChaining ["-f", "/h/d/y.so"])).1 = .returned ∧
    (parse exSysEnv (exChaining ["-f", "/h/x.txt"])).1 = .threw .validationError ∧
    (parse exSysEnv (exChaining ["-f", "x.sa"])).1 = .threw .validationError ∧
    (parse exSysEnv (exChaining ["-f", "/h/x.sa", "--file", "/h/d/y.so"])).1 = .threw .optionDeclaredMultipleTimes ∧
    (parse exSysEnv (exChaining ["-f", "/h/x.sa", "-x"])).1 = .threw .unknownOption ∧
    (parse exSysEnv (exChaining ["-f", "/h/x.sa", "y"])).1 = .threw .tooManyArguments := by decide +kernel

example : AbsoluteText "/h/x.sa".toList ∧ InputUsable (parse exSysEnv exFileGood).2.world ["sa".toList, "so".toList] "/h/x.sa".toList := by
  refine (C104_parsed_texts_partial exSysEnv exFileGood _ (chaining_reachable _ _ _) exFileGood_returned ?_ ?_ ?_ (fun _ => none) .validationError
    absolutePattern _ absolutePattern_for _ (inputFileMessage ["sa".toList, "so".toList]) 0 ?_).1 _ (by decide +kernel)
  · rw [show decls exFileGood = chainingDecls from chaining_decls _ _ _]; decide +kernel
  · exact Or.inl rfl
  · unfold AllLeaveFiles
    rw [show decls exFileGood = chainingDecls from chaining_decls _ _ _]
    exact ⟨fun d hd => by rw [List.mem_singleton.1 hd]; exact C104_leaves_files _ _ _ _ absolutePattern_for _ _, fun d hd => by cases hd⟩
  · rw [show decls exFileGood = chainingDecls from chaining_decls _ _ _]
    exact Or.inl ⟨chainedOption, .head _, rfl, rfl, "--file=/h/x.sa".toList, by decide +kernel, by decide +kernel⟩

end Sharg
