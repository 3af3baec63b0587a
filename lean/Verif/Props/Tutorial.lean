import Verif.Lemmas.Tutorial

/-!
# The program of the tutorial (C91)
-/

namespace Sharg

open Spec

/-- The name of the file matches as a whole if all its parts match. -/
theorem seasonsText_of_parts {p : Str} (hn : Nameable p) (h : ∀ q, PartOf p q → SeasonsText q) : SeasonsText p := by
  refine ⟨?_, fun hc => hn.2.1 _ hc (by decide), fun hc => hn.2.1 _ hc (by decide)⟩
  have hname : ∃ q, NameIn p q := by
    obtain ⟨q, hq⟩ := exists_part hn.1
    rcases hq with ⟨rfl, b, rfl⟩ | hq | ⟨_, hq, _⟩
    · obtain ⟨⟨a, b', e, _⟩, _⟩ := h ['/'] (Or.inl ⟨rfl, b, rfl⟩)
      have := congrArg List.length e
      simp at this
      omega
    · exact ⟨q, hq⟩
    · exact hq
  obtain ⟨q, hq⟩ := hname
  obtain ⟨⟨a, b, e, hb⟩, _⟩ := h q (Or.inr (Or.inl hq))
  obtain ⟨_, _, c, d, e', _⟩ := hq
  exact ⟨c ++ a, b ++ d, by rw [e', e]; simp, by simp [hb]⟩

theorem ints_of_denoted {lo hi : Int} {es : List Elem} (h : ∀ e ∈ es, ∃ t, Denotes (.integer lo hi) t e) :
    ∃ is : List Int, es = is.map .int ∧ ∀ i ∈ is, lo ≤ i ∧ i ≤ hi := by
  induction es with
  | nil => exact ⟨[], rfl, by simp⟩
  | cons e es ih =>
    obtain ⟨t, i, rfl, h1, h2, _⟩ := h e (.head _)
    obtain ⟨is, rfl, his⟩ := ih fun e he => h e (.tail _ he)
    refine ⟨i :: is, rfl, fun j hj => ?_⟩
    rcases List.mem_cons.1 hj with rfl | hj
    · exact ⟨h1, h2⟩
    · exact his j hj

theorem ints_of_vals (is : List Int) : ((is.map Elem.int).filterMap fun | .int i => some (Num.int i) | _ => none) = is.map .int := by
  induction is with
  | nil => rfl
  | cons i is ih => simp only [List.map_cons, List.filterMap_cons]; rw [ih]

theorem each_seasons {is : List Int} {s s' : System} (hr : ∀ i ∈ is, 0 ≤ i ∧ i ≤ 255) (h : seasonsRange.each.run (is.map .int) s = .ok () s') :
    ∀ i ∈ is, 1 ≤ i ∧ i ≤ 7 := by
  change M.forEach seasonsRange.run (is.map .int) s = _ at h
  induction is generalizing s with
  | nil => simp
  | cons i is ih =>
    rw [List.map_cons, M.forEach_cons, M.bind_run, seasonsRange_run i (hr i (.head _))] at h
    by_cases hi : 1 ≤ i ∧ i ≤ 7
    · rw [if_pos hi] at h
      intro j hj
      rcases List.mem_cons.1 hj with rfl | hj
      · exact hi
      · exact ih (fun i hi => hr i (.tail _ hi)) h j hj
    · rw [if_neg hi] at h; cases h

theorem optValue_elems {W : Type} {nd : Bool} {d : OptDecl W} {ws wl : List Str} {v : Val} (h : optValue nd d ws wl = some v) :
    (d.isList = false → ∃ t e, Denotes d.ty t e ∧ v = .one e) ∧
    (d.isList = true → ∃ es, v = .many es ∧ (∀ e ∈ es, ∃ t, Denotes d.ty t e) ∧ (nd = false → ws ++ wl ≠ [] → es ≠ [])) := by
  unfold optValue at h
  constructor
  · intro hl
    rw [hl] at h
    simp only [Bool.false_eq_true, if_false] at h
    cases ht : ws ++ wl with
    | nil => simp [ht] at h
    | cons t ts =>
      cases ts with
      | cons t' ts => simp [ht] at h
      | nil =>
        simp only [ht, Option.map_eq_some_iff] at h
        obtain ⟨e, h3, h4⟩ := h
        exact ⟨t, e, (readElem_iff _ _ _).1 h3, h4.symm⟩
  · intro hl
    rw [if_pos hl] at h
    cases h1 : readListElems nd d.ty ws with
    | error e => simp [h1] at h
    | ok es1 =>
      cases h4 : readListElems nd d.ty wl with
      | error e => simp [h1, h4] at h
      | ok es2 =>
        simp only [h1, h4] at h
        refine ⟨_, (Option.some.inj h).symm, ?_, ?_⟩
        · intro e he
          split at he
          · obtain ⟨t, _, ht⟩ := readListElems_mem _ _ _ _ h1 e he
            exact ⟨t, ht⟩
          · obtain ⟨t, _, ht⟩ := readListElems_mem _ _ _ _ h4 e he
            exact ⟨t, ht⟩
        · intro hnd hne
          have key : ∀ ts es, readListElems nd d.ty ts = .ok es → ts ≠ [] → es ≠ [] := by
            intro ts es hr hts hes
            have := readListElems_denote nd d.ty ts es (fun _ _ => Or.inl hnd) hr
            subst hes
            cases ts with
            | nil => exact hts rfl
            | cons t ts => exact this
          split
          · rename_i hwl
            exact key _ _ h1 (by simpa [hwl] using hne)
          · rename_i hwl
            exact key _ _ h4 hwl

/-- What the options and the flag of the program hold in the end. -/
theorem tutorial_options (env : Env System) (args : List Str) (s : System) (g' : Prog System)
    (h : parse env (tutorial env args s) = (.returned, g')) :
    (∃ is : List Int, g'.store 1 = .many (is.map .int) ∧ (∀ i ∈ is, 1 ≤ i ∧ i ≤ 7) ∧ (env.ndebug = false → is ≠ [])) ∧
    (∃ t, g'.store 2 = .one (.str t) ∧ (t = "median".toList ∨ t = "mean".toList)) ∧ ∃ b, g'.store 3 = .one (.bool b) := by
  obtain ⟨hi, hD, w1, f, hf, hs, _⟩ := reachable_returned (tutorial_reachable env args s) h
  rw [show declsOf (tutorial env args s).parser.operations = tutorialDecls from tutorial_decls env args s] at hD hf
  rw [show (tutorial env args s).store = tutorialStore from rfl] at hf
  obtain ⟨ph⟩ := phases env.ndebug hD _ _ w1 f () hf
  have hseason := option_final hD tutorial_distinct (d := seasonOption) (.head _) env.ndebug ph
  have haggr := option_final hD tutorial_distinct (d := aggregateOption) (.tail _ (.head _)) env.ndebug ph
  rw [hs]
  refine ⟨?_, ?_, ?_⟩
  · rcases hseason with ⟨_, h1, _⟩ | ⟨⟨u, u', h1⟩, vs, vl, hne, h2⟩
    · cases h1
    · obtain ⟨es, h3, h4, h5⟩ := (optValue_elems h2).2 rfl
      obtain ⟨is, rfl, his⟩ := ints_of_denoted h4
      have h3 : f.store 1 = .many (is.map .int) := h3
      refine ⟨is, h3, ?_, fun hnd e => h5 hnd hne (by rw [e]; rfl)⟩
      rw [show f.store seasonOption.var = f.store 1 from rfl, h3] at h1
      change seasonsRange.each.inParser _ u = _ at h1
      exact each_seasons his (inParser_true (w' := u') (by rw [← ints_of_vals]; exact h1))
  · rcases haggr with ⟨h1, _⟩ | ⟨⟨u, u', h1⟩, vs, vl, hne, h2⟩
    · exact ⟨"mean".toList, h1, Or.inr rfl⟩
    · obtain ⟨t, e, h3, h4⟩ := (optValue_elems h2).1 rfl
      have h3 : e = .str t := h3
      subst h3
      refine ⟨t, h4, ?_⟩
      rw [show f.store aggregateOption.var = _ from h4] at h1
      have h1 := inParser_true (show aggregateValues.inParser t u = _ from h1)
      rw [aggregateValues_run] at h1
      split at h1
      · assumption
      · cases h1
  · have f1 := keeps_options env.ndebug [seasonOption, aggregateOption] (x := 3) (by decide +kernel)
      ⟨before g'.parser.formatArguments, g'.parser.formatArguments.dropWhile (· ≠ endMarker), tutorialStore, w1⟩
    rw [show M.forEach (getOption env.ndebug) [seasonOption, aggregateOption] _ = _ from ph.optRun] at f1
    have f4 := keeps_bind (keeps_runPositionals env.ndebug [fileOption] (x := 3) (by decide +kernel)) (fun _ => keeps_leftOver 3)
      { ph.flg with pre := ph.flg.pre ++ blankHead ph.flg.post, post := [] }
    rw [show M.bind (runPositionals env.ndebug [fileOption]) _ _ = _ from ph.posRun] at f4
    have f3 := ph.flgRun
    rw [show tutorialDecls.flags = [headerFlag] from rfl, M.forEach_cons, M.bind_run] at f3
    simp only [Res.state] at f1 f4
    rw [f4]
    cases hg : getFlag headerFlag ph.opt with
    | err e s' => rw [hg] at f3; cases f3
    | ok u s' =>
      rw [hg] at f3
      have e : s' = ph.flg := by injection f3
      rw [← e]
      unfold getFlag at hg
      split at hg
      · cases hg; exact ⟨true, Store.set_self ph.opt.store 3 _⟩
      · split at hg
        · cases hg; exact ⟨true, Store.set_self ph.opt.store 3 _⟩
        · split at hg
          · cases hg; exact ⟨true, Store.set_self ph.opt.store 3 _⟩
          · cases hg; exact ⟨false, f1⟩

/-- C91: whatever the arguments, the files and the answers of the version check are: when `parse()` has returned, the variables hold what `run_program`
expects: the file can be read and is called as wanted, the seasons are seasons, and the way of aggregation is known. -/
theorem C91_variables_usable (env : Env System) (args : List Str) (s : System) (g' : Prog System)
    (h : parse env (tutorial env args s) = (.returned, g')) :
    ∃ path seasons aggregateBy header, TutorialHolds g'.store path seasons aggregateBy header ∧
      TutorialUsable g'.world path seasons aggregateBy := by
  have hg := tutorial_reachable env args s
  have hv : VarsDistinct (decls (tutorial env args s)) := by rw [tutorial_decls]; exact tutorial_distinct
  have hl : PositionalListsInRange env (tutorial env args s) := by
    right
    rw [tutorial_decls]
    intro d hd hl
    rw [List.mem_singleton.1 hd] at hl
    cases hl
  -- the file
  obtain ⟨path, hpath, hname⟩ := (C85_positionals_only_nameable_paths env _ g' hg h hv (Or.inr (by
    rw [tutorial_decls]
    intro d hd hl
    rw [List.mem_singleton.1 hd] at hl
    cases hl)) fileOption (by rw [tutorial_decls]; exact .head _) rfl).1 rfl
  obtain ⟨u, u', hu, hdisk, hcwd⟩ := checked_with_final_files env _ g' hg h hv hl (tutorial_leaves env args s) _ 0
    (Or.inr ⟨fileOption, by rw [tutorial_decls]; exact .head _, rfl, rfl⟩)
  rw [show g'.store 0 = .one (pathElem path) from hpath] at hu
  change (match elemPath (pathElem path) with
    | some t => seasonsFile.inParser t u
    | none => (true, u)) = _ at hu
  rw [elemPath_path] at hu
  obtain ⟨hparts, hfile⟩ := seasonsFile_ok (inParser_true hu)
  have husable : InputUsable g'.world ["tsv".toList] path := by
    have := (C40_input_file _ _ _ _).1.1 hfile
    rw [hdisk, hcwd] at this
    exact ⟨this.1, fun name hn => by rw [← nameOf_unique hn]; exact this.2⟩
  obtain ⟨⟨seasons, hst, hin, _⟩, ⟨aggr, hagg, hin2⟩, header, hheader⟩ := tutorial_options env args s g' h
  exact ⟨path, seasons, aggr, header, ⟨hpath, hst, hagg, hheader⟩, ⟨husable, seasonsText_of_parts hname hparts, hin, hin2⟩⟩

/-- C91, partial (with assertions): at least one season was given, since the option is required. -/
theorem C91_some_season_partial (env : Env System) (args : List Str) (s : System) (g' : Prog System) (hnd : env.ndebug = false)
    (h : parse env (tutorial env args s) = (.returned, g')) : g'.store 1 ≠ .many [] := by
  obtain ⟨⟨is, h1, _, h2⟩, _⟩ := tutorial_options env args s g' h
  rw [h1]
  intro e
  injection e with e
  exact h2 hnd (List.map_eq_nil_iff.1 e)

/-- The pattern makes files in other directories unusable: every directory in the path must match it, too. In particular no absolute path can be given. -/
theorem C91_directories_must_match (env : Env System) (args : List Str) (s : System) (g' : Prog System)
    (h : parse env (tutorial env args s) = (.returned, g')) (path : Str) (hp : g'.store 0 = .one (pathElem path)) :
    (∀ name, NameIn path name → SeasonsText name) ∧ path.head? ≠ some '/' := by
  have hg := tutorial_reachable env args s
  have hv : VarsDistinct (decls (tutorial env args s)) := by rw [tutorial_decls]; exact tutorial_distinct
  have hl : PositionalListsInRange env (tutorial env args s) := by
    right
    rw [tutorial_decls]
    intro d hd hl
    rw [List.mem_singleton.1 hd] at hl
    cases hl
  obtain ⟨u, u', hu, -, -⟩ := checked_with_final_files env _ g' hg h hv hl (tutorial_leaves env args s) _ 0
    (Or.inr ⟨fileOption, by rw [tutorial_decls]; exact .head _, rfl, rfl⟩)
  rw [hp] at hu
  change (match elemPath (pathElem path) with
    | some t => seasonsFile.inParser t u
    | none => (true, u)) = _ at hu
  rw [elemPath_path] at hu
  obtain ⟨hparts, -⟩ := seasonsFile_ok (inParser_true hu)
  refine ⟨fun name hn => hparts name (Or.inr (Or.inl hn)), fun hh => ?_⟩
  cases path with
  | nil => cases hh
  | cons c p =>
    obtain ⟨⟨a, b, e, _⟩, _⟩ := hparts ['/'] (Or.inl ⟨rfl, p, by rw [Option.some.inj hh]⟩)
    have := congrArg List.length e
    simp at this
    omega

/-! ### Lines that work -/

theorem each_seasons_of {is : List Int} {s : System} (h : ∀ i ∈ is, 1 ≤ i ∧ i ≤ 7) : seasonsRange.each.run (is.map .int) s = .ok () s := by
  show M.forEach seasonsRange.run (is.map .int) s = _
  induction is with
  | nil => rfl
  | cons i is ih =>
    have hi := h i (.head _)
    rw [List.map_cons, M.forEach_cons, M.bind_run, seasonsRange_run i (by omega), if_pos hi]
    exact ih fun i hi => h i (.tail _ hi)

theorem inParser_of {W α : Type} {v : Validator W α} {x : α} {w w' : W} (h : v.run x w = .ok () w') : v.inParser x w = (true, w') := by
  unfold Validator.inParser
  rw [h]

theorem nameOf_fileName (p : Str) : NameOf p (fileName p) := by
  have hs : p = (p.reverse.dropWhile (· ≠ '/')).reverse ++ fileName p := by
    unfold fileName
    rw [← List.reverse_append, List.takeWhile_append_dropWhile, List.reverse_reverse]
  have hno : '/' ∉ fileName p := by
    intro h
    unfold fileName at h
    have := List.all_takeWhile (p := fun c => decide (c ≠ '/')) (l := p.reverse)
    have := List.all_eq_true.1 this _ (List.mem_reverse.1 h)
    simp at this
  refine ⟨hno, ?_⟩
  cases hd : p.reverse.dropWhile (· ≠ '/') with
  | nil => left; rw [hd] at hs; exact hs
  | cons c r =>
    right
    have hc : c = '/' := by
      have := List.head?_dropWhile_not (fun c => decide (c ≠ '/')) p.reverse
      rw [hd] at this
      simpa using this
    rw [hd, hc, List.reverse_cons, List.append_assoc] at hs
    exact ⟨_, hs⟩

theorem denoteAll_ints {lo hi : Int} {ts : List Str} {is : List Int} (h : List.Forall₂ (DenotesInt lo hi) ts is) :
    DenoteAll (.integer lo hi) ts (is.map .int) := by
  induction h with
  | nil => trivial
  | cons h _ ih => exact ⟨⟨_, rfl, h⟩, ih⟩

/-- C91, partial (no directories but those that match): a well-formed line with a file that is called as wanted and can be read, at least one season and
perhaps a way of aggregation is accepted, in every spelling, and the variables get the values. -/
theorem C91_line_works_partial (env : Env System) (args : List Str) (s : System) (items : List Item) (tail : Option (List Str))
    (hl : LineGiven (tutorial env args s) items tail) (hok : LineOk tutorialDecls items tail) (w₁ : System)
    (hc : CheckPasses env (tutorial env args s) w₁)
    (text path : Str) (hw : Spec.words items tail = [text]) (hpath : DenotesPath text path)
    (hparts : ∀ q, PartOf path q → SeasonsText q) (hfile : InputUsable w₁ ["tsv".toList] path)
    (seasons : List Int) (hs : given seasonOption items ≠ []) (hs' : List.Forall₂ (DenotesInt 0 255) (given seasonOption items) seasons)
    (hr : ∀ i ∈ seasons, 1 ≤ i ∧ i ≤ 7)
    (aggregateBy : Str) (ha : given aggregateOption items = [] ∧ aggregateBy = "mean".toList ∨ given aggregateOption items = [aggregateBy])
    (ha' : aggregateBy = "median".toList ∨ aggregateBy = "mean".toList) :
    ∃ g', parse env (tutorial env args s) = (.returned, g') ∧
      TutorialHolds g'.store path seasons aggregateBy (decide (mentions headerFlag items ≠ 0)) ∧ g'.world = w₁ := by
  let st₁ : Store := tutorialStore.set 1 (.many (seasons.map .int))
  let st₂ : Store := if given aggregateOption items = [] then st₁ else st₁.set 2 (.one (.str aggregateBy))
  let st₃ : Store := if mentions headerFlag items = 0 then st₂ else st₂.set 3 (.one (.bool true))
  let st₄ : Store := st₃.set 0 (.one (pathElem path))
  have hm : LineMeans tutorialDecls items tail tutorialStore w₁ st₄ w₁ := by
    refine ⟨st₂, w₁, Or.inr ⟨hs, .many (seasons.map .int), w₁, ⟨_, rfl, denoteAll_ints hs'⟩, ?_, ?_⟩, ?_⟩
    · show seasonsRange.each.inParser _ w₁ = _
      refine inParser_of ?_
      have := each_seasons_of (s := w₁) hr
      rw [← ints_of_vals] at this
      exact this
    · rcases ha with ⟨h1, h2⟩ | h1
      · left
        refine ⟨h1, rfl, ?_, rfl⟩
        show st₂ = st₁
        exact if_pos h1
      · right
        refine ⟨by rw [h1]; simp, .one (.str aggregateBy), w₁, ⟨aggregateBy, _, h1, rfl, rfl⟩, ?_, ?_, rfl⟩
        · exact inParser_of (v := aggregateValues) (by rw [aggregateValues_run, if_pos ha'])
        · show st₂ = st₁.set 2 _
          exact if_neg (by rw [h1]; simp)
    · rw [hw]
      refine ⟨text, [], .one (pathElem path), w₁, rfl, ⟨text, _, rfl, rfl, (C85_accepted_exactly text _).2 ⟨path, hpath, rfl⟩⟩, ?_, rfl, rfl, rfl⟩
      show (match elemPath (pathElem path) with
        | some t => seasonsFile.inParser t w₁
        | none => (true, w₁)) = _
      rw [elemPath_path]
      refine inParser_of (seasonsFile_of hparts ?_)
      refine (C40_input_file _ _ _ _).1.2 ⟨hfile.1, hfile.2 _ ?_⟩
      exact nameOf_fileName path
  obtain ⟨g', h1, h2, h3⟩ := C17_line_has_its_meaning env _ (tutorial_reachable env args s) items tail hl (by rw [tutorial_decls]; exact hok) w₁ hc st₄ w₁
    (by rw [tutorial_decls]; exact hm)
  refine ⟨g', h1, ?_, h3⟩
  rw [h2]
  have h12 : ∀ x, x ≠ 2 → st₂ x = st₁ x := by
    intro x hx
    show (if _ then st₁ else st₁.set 2 _) x = _
    split
    · rfl
    · exact Store.set_ne _ _ hx
  have h23 : ∀ x, x ≠ 3 → st₃ x = st₂ x := by
    intro x hx
    show (if _ then st₂ else st₂.set 3 _) x = _
    split
    · rfl
    · exact Store.set_ne _ _ hx
  have h34 : ∀ x, x ≠ 0 → st₄ x = st₃ x := fun x hx => Store.set_ne _ _ hx
  refine ⟨Store.set_self _ _ _, ?_, ?_, ?_⟩
  · rw [h34 1 (by decide), h23 1 (by decide), h12 1 (by decide)]
    exact Store.set_self _ _ _
  · rw [h34 2 (by decide), h23 2 (by decide)]
    show (if _ then st₁ else st₁.set 2 _) 2 = _
    rcases ha with ⟨h1, h2⟩ | h1
    · rw [if_pos h1, h2]; rfl
    · rw [if_neg (by rw [h1]; simp)]; exact Store.set_self _ _ _
  · rw [h34 3 (by decide)]
    show (if _ then st₂ else st₂.set 3 _) 3 = _
    by_cases hm : mentions headerFlag items = 0
    · rw [if_pos hm, h12 3 (by decide)]
      simp only [hm, ne_eq, not_true_eq_false, decide_false]
      rfl
    · rw [if_neg hm, Store.set_self]
      simp [hm]

/-! ### What goes wrong, and cases -/

/-- A directory with the files `seasons.tsv`, `data/seasons.tsv` and `seasons.csv`. -/
def exSeasons : System := exSystem [(["h".toList, "seasons.tsv".toList], .file "1 2".toList true true),
  (["h".toList, "data".toList], .dir true true true), (["h".toList, "data".toList, "seasons.tsv".toList], .file "1 2".toList true true),
  (["h".toList, "seasons.csv".toList], .file "1,2".toList true true)] 0 ""

def exTutorial (env : Env System) (args : List String) : Prog System := tutorial env (("app" :: args).map String.toList) exSeasons

theorem inputUsable_of {s : System} {exts : List Str} {p : Str} (n : Node) (h1 : Reaches s.disk (locOf s.cwd p) n) (h2 : Readable n)
    (h3 : NameAccepted exts (fileName p)) : InputUsable s exts p :=
  ⟨⟨n, h1, h2⟩, fun name hn => by rw [← nameOf_unique hn]; exact h3⟩

def exReleaseEnv : Env System := { exSysEnv with ndebug := true }

def exNoSeason : Prog System := exTutorial exReleaseEnv ["-s", "300", "seasons.tsv", "-a", "median"]

theorem exNoSeason_returned : parse exReleaseEnv exNoSeason = (.returned, (parse exReleaseEnv exNoSeason).2) := returned_pair (by decide +kernel)

/-- Without assertions the required list of seasons may be empty: a number that does not fit into `std::uint8_t` vanishes (C31). `run_program` then
computes the median of no numbers (line 16: `v[v.size() / 2]`). -/
theorem C91_no_season_in_release :
    ¬ ∀ (env : Env System) (args : List Str) (s : System) (g' : Prog System), parse env (tutorial env args s) = (.returned, g') →
      g'.store 1 ≠ .many [] := by
  intro h
  exact h exReleaseEnv _ exSeasons _ exNoSeason_returned (by decide +kernel)

/-- The file may be readable and called as wanted, and the line may be right in every other respect: in a directory it is rejected. -/
theorem C91_files_elsewhere_rejected :
    ¬ ∀ (env : Env System) (args : List Str) (s : System) (path : Str), InputUsable s ["tsv".toList] path → SeasonsText path →
      args = ["app".toList, "-s".toList, "1".toList, path] → (parse env (tutorial env args s)).1 = .returned := by
  intro h
  have := h exSysEnv _ exSeasons "data/seasons.tsv".toList (inputUsable_of (.file "1 2".toList true true) (by decide +kernel) rfl (by decide +kernel))
    ⟨⟨"data/".toList, "tsv".toList, by decide, by decide⟩, by decide⟩ rfl
  exact absurd this (by decide +kernel)

/-- `app -H -s 2 -s7 seasons.tsv`. -/
def exSeasonItems : List Item := [.flags ['H'], .short 's' .separate "2".toList, .short 's' .attached "7".toList, .word "seasons.tsv".toList]

def exGood : Prog System := exTutorial exSysEnv ["-H", "-s", "2", "-s7", "seasons.tsv"]

theorem exGood_returned : parse exSysEnv exGood = (.returned, (parse exSysEnv exGood).2) := returned_pair (by decide +kernel)

example : ∃ path seasons aggregateBy header, TutorialHolds (parse exSysEnv exGood).2.store path seasons aggregateBy header ∧
    TutorialUsable (parse exSysEnv exGood).2.world path seasons aggregateBy :=
  C91_variables_usable exSysEnv _ exSeasons _ exGood_returned

example : (parse exSysEnv exGood).2.store 1 ≠ .many [] := C91_some_season_partial exSysEnv _ exSeasons _ rfl exGood_returned

example : ∀ name, NameIn "seasons.tsv".toList name → SeasonsText name :=
  (C91_directories_must_match exSysEnv _ exSeasons _ exGood_returned "seasons.tsv".toList (by decide +kernel)).1

example : ∃ g', parse exSysEnv exGood = (.returned, g') ∧ TutorialHolds g'.store "seasons.tsv".toList [2, 7] "mean".toList true ∧ g'.world = exSeasons := by
  have hm : decide (mentions headerFlag exSeasonItems ≠ 0) = true := by decide +kernel
  rw [← hm]
  have hplain : ∀ q, PartOf "seasons.tsv".toList q → SeasonsText q := by
    intro q hq
    rw [← mem_pathParts] at hq
    rw [show pathParts "seasons.tsv".toList = ["seasons.tsv".toList] by decide +kernel] at hq
    rw [List.mem_singleton.1 hq]
    exact ⟨⟨[], "tsv".toList, by decide, by decide⟩, by decide⟩
  refine C91_line_works_partial exSysEnv _ exSeasons exSeasonItems none ⟨rfl, by decide +kernel, rfl, ⟨"app".toList, rfl⟩, by decide +kernel, ?_⟩ ?_
    exSeasons rfl "seasons.tsv".toList "seasons.tsv".toList (by decide +kernel) ⟨by decide +kernel, [], rfl, by simp⟩ hplain
    (inputUsable_of (.file "1 2".toList true true) (by decide +kernel) rfl (by decide +kernel)) [2, 7] (by decide +kernel) ?_ (by decide) "mean".toList (Or.inl ⟨by decide +kernel, rfl⟩) (Or.inr rfl)
  · decide +kernel
  · decide +kernel
  · rw [show given seasonOption exSeasonItems = ["2".toList, "7".toList] by decide +kernel]
    exact .cons ⟨by decide, by decide, Or.inl (by decide)⟩ (.cons ⟨by decide, by decide, Or.inl (by decide)⟩ .nil)

/-- Other outcomes: no season; not a season; not a way of aggregation; another extension; a file that does not exist. -/
example : ([["seasons.tsv"], ["-s", "8", "seasons.tsv"], ["-s", "1", "-a", "mode", "seasons.tsv"], ["-s", "1", "seasons.csv"], ["-s", "1", "no.tsv"]].map
    fun args => (parse exSysEnv (exTutorial exSysEnv args)).1) =
  [.threw .requiredOptionMissing, .threw .validationError, .threw .validationError, .threw .validationError, .threw .validationError] := by decide +kernel

end Sharg
