import Verif.Model.Git
import Verif.Spec.Git
import Verif.Props.Apps
import Verif.Props.SetupTexts

/-!
# The chosen subcommand and the program of the how-to (C92)
-/

namespace Sharg

open Spec

variable {W : Type}

theorem onlyDashed_toks {options subs : List Str} (hs : subs ≠ []) {toks : List Tok} (h : ∀ t ∈ toks, t.Ok options subs) (hr : lastRequest toks = none)
    {rest : List Str} (hrest : OnlyDashed options rest) : OnlyDashed options (renderToks toks ++ rest) := by
  have hno : ∀ t ∈ toks, t.request? = none := by
    intro t ht
    have := List.getLast?_eq_none_iff.1 hr
    exact (List.filterMap_eq_nil_iff.1 this) t ht
  clear hr
  induction toks with
  | nil => exact hrest
  | cons t toks ih =>
    have ih := ih (fun t ht => h t (.tail _ ht)) (fun t ht => hno t (.tail _ ht))
    have ht := h t (.head _)
    have hn := hno t (.head _)
    rw [show renderToks (t :: toks) ++ rest = t.render ++ (renderToks toks ++ rest) by simp [renderToks]]
    cases t with
    | option o v => exact .option ht ih
    | request f a => cases hn
    | check b v => exact .check ih
    | plain a => exact .dashed (ht.2.2.2 hs) ih

theorem decided_parse {options subs : List Str} {toks : List Tok} (h : ∀ t ∈ toks, t.Ok options subs) {stop : Stop} (hd : decided toks stop = .parse) :
    lastRequest toks = none := by
  cases hl : lastRequest toks with
  | none => rfl
  | some f =>
    unfold decided at hd
    rw [hl] at hd
    exact absurd hd (lastRequest_special _ _ _ h f hl).2

theorem returned_parse {env : Env W} {f : Format} {g g' : Prog W} (h : checkAndParse env f g = (.returned, g')) : f = .parse := by
  unfold checkAndParse at h
  split at h
  · cases h
  · unfold parseFormat at h
    split at h
    · rfl
    · split at h <;> cases h

/-- C92, partial (there may be none): what `get_sub_parser()` gives after `parse()` has returned: the parser of the first subcommand on the line, with its
name and the rest of the line; or an error, if there are only options and flags on the line. -/
theorem C92_sub_parser_partial (env : Env W) (g g' : Prog W) (h : parse env g = (.returned, g')) (hs : g.parser.subcommands ≠ []) :
    ∃ exe args, g.parser.arguments = exe :: args ∧
      ((∃ pre s rest j, args = pre ++ s :: rest ∧ OnlyDashed g.parser.options pre ∧ s ∈ g.parser.subcommands ∧ getSubParser g'.parser = .ok j ∧
          j.appName = g.parser.appName ++ "-".toList ++ s ∧ j.arguments = s :: rest) ∨
       (OnlyDashed g.parser.options args ∧ getSubParser g'.parser = .error .designError)) := by
  have hp : Ready g.parser := by
    by_cases hp : Ready g.parser
    · exact hp
    · rw [parse_not_ready env g hp] at h; cases h
  cases ha : g.parser.arguments with
  | nil =>
    rw [parse_no_arguments env g hp ha] at h
    cases h
  | cons exe args =>
    refine ⟨exe, args, rfl, ?_⟩
    obtain ⟨toks, stop, hr⟩ := reading_exists g.parser.options g.parser.subcommands args
    have hw := (C16_C13_what_remains env g hp exe args ha toks stop hr).2.2
    rw [h] at hw
    have hrun := parse_reading env g hp exe args ha toks stop hr
    rw [h] at hrun
    cases hx : stop.exn? with
    | some e => rw [hx] at hrun; cases hrun
    | none =>
      rw [hx] at hrun
      have hl := decided_parse hr.toksOk (returned_parse hrun.symm)
      have hstop := hr.stopOk
      have heq := hr.eq
      cases stop with
      | atEnd =>
        right
        refine ⟨?_, ?_⟩
        · rw [heq]; exact onlyDashed_toks hs hr.toksOk hl .nil
        · unfold getSubParser; rw [show g'.parser.subParser = none from hw]
      | lastOption o =>
        right
        refine ⟨?_, ?_⟩
        · rw [heq]; exact onlyDashed_toks hs hr.toksOk hl (.last hstop)
        · unfold getSubParser; rw [show g'.parser.subParser = none from hw]
      | subcommand s rest =>
        left
        let j : Init := { appName := g.parser.appName ++ '-' :: s, arguments := s :: rest, notify := false, subcommands := [],
                          executableName := g.parser.executableName ++ [exe] }
        refine ⟨renderToks toks, s, rest, j, heq, ?_, hstop.2, ?_, ?_, rfl⟩
        · have := onlyDashed_toks hs hr.toksOk hl .nil
          rwa [List.append_nil] at this
        · unfold getSubParser; rw [show g'.parser.subParser = some j from hw]
        · show g.parser.appName ++ '-' :: s = g.parser.appName ++ ['-'] ++ s
          simp
      | unknownSubcommand | missingValue | badExport | badExportEq | badCheck => cases hx

/-! ### Lines without subcommand -/

/-- The arguments contain no request and no subcommand and reach the option parser unchanged. -/
def NothingRequested (options subs args : List Str) : Prop :=
  ∃ toks, Reading options subs args toks .atEnd ∧ lastRequest toks = none ∧ lastCheck toks = none ∧ kept toks = args

theorem NothingRequested.option {options subs args : List Str} {o : Str} (v : Str) (ho : o ∈ options) (h : NothingRequested options subs args) :
    NothingRequested options subs (o :: v :: args) := by
  obtain ⟨toks, ⟨h1, h2, h3⟩, h4, h5, h6⟩ := h
  refine ⟨.option o v :: toks, ⟨?_, ?_, h3⟩, ?_, ?_, ?_⟩
  · rw [h1]; rfl
  · intro t ht
    rcases List.mem_cons.1 ht with rfl | ht
    · exact ho
    · exact h2 t ht
  · simpa [lastRequest, Tok.request?] using h4
  · simpa [lastCheck, Tok.check?] using h5
  · rw [← h6]; rfl

theorem NothingRequested.plain {options subs args : List Str} {a : Str} (ha : a ∉ options) (hs : a ∉ subs) (hr : ¬ Reserved a)
    (hd : a.head? = some '-') (h : NothingRequested options subs args) : NothingRequested options subs (a :: args) := by
  obtain ⟨toks, ⟨h1, h2, h3⟩, h4, h5, h6⟩ := h
  refine ⟨.plain a :: toks, ⟨?_, ?_, h3⟩, ?_, ?_, ?_⟩
  · rw [h1]; rfl
  · intro t ht
    rcases List.mem_cons.1 ht with rfl | ht
    · exact ⟨ha, hs, hr, fun _ => hd⟩
    · exact h2 t ht
  · simpa [lastRequest, Tok.request?] using h4
  · simpa [lastCheck, Tok.check?] using h5
  · rw [← h6]; rfl

theorem nothingRequested_line {g : Prog W} (h : Inv g.parser) {items : List Item} {tail : Option (List Str)} (hl : NoSubcommandGiven g items tail)
    (hit : ∀ it ∈ items, it.Ok (declsOf g.parser.operations)) :
    NothingRequested g.parser.options g.parser.subcommands (renderLine items tail) := by
  have hdash : ∀ {a : Str}, a.head? = some '-' → a ∉ g.parser.subcommands := fun ha hs => hl.noDash _ hs ha
  have hend : NothingRequested g.parser.options g.parser.subcommands [] := ⟨[], ⟨rfl, by simp, trivial⟩, rfl, rfl, rfl⟩
  have hw := hl.noWords
  have hn := hl.notRequest
  have ht := hl.noTail
  unfold renderLine
  clear hl
  induction items with
  | nil =>
    obtain h' | h' := ht
    · subst h'; exact hend
    · subst h'
      refine NothingRequested.plain (endMarker_not_option h) (hdash rfl) ?_ rfl hend
      intro hres
      have := reserved_long (s := []) (by simp) hres
      revert this; decide
  | cons it items ih =>
    rw [List.flatMap_cons, List.append_assoc]
    have ih := ih (fun i hi => hit i (by simp [hi])) (fun w hm => hw w (List.mem_cons_of_mem _ hm))
      (fun hm => hn (List.mem_cons_of_mem _ hm))
    rcases item_scanned h (hit it List.mem_cons_self) (fun e => hn (e ▸ List.mem_cons_self))
      (fun w e => hw w (e ▸ List.mem_cons_self)) with ⟨o, v, e, ho⟩ | ⟨a, e, h1, h2, h3⟩
    · rw [e]; exact .option v ho ih
    · rw [e]; exact .plain h1 (hdash h3) h2 h3 ih

/-- Every line of options and flags that is right for the top-level parser is accepted without a subcommand: `parse()` returns, and only
`get_sub_parser()` fails, with a text that blames the construction of the parser. -/
theorem C92_forgotten_subcommand_not_noticed (env : Env W) (g : Prog W) (hg : Reachable env g) (items : List Item) (tail : Option (List Str))
    (hl : NoSubcommandGiven g items tail) (hok : LineOk (decls g) items tail) (w₁ : W) (hv : CheckPasses env g w₁) (st' : Store) (w' : W)
    (hm : LineMeans (decls g) items tail g.store w₁ st' w') :
    ∃ g', parse env g = (.returned, g') ∧ g'.store = st' ∧
      getSubParserT g'.parser = .error (.designError, "No subcommand was provided at the construction of the argument parser!".toList) := by
  obtain ⟨exe, ha⟩ := hl.arguments
  obtain ⟨toks, hr, h1, h2, h3⟩ := nothingRequested_line (inv_reachable hg) hl hok.itemsOk
  obtain ⟨s', hs, h4, h5⟩ := formatParse_of_means env.ndebug (idsOk_reachable hg) items tail hok g.store w₁ st' w' hm
  have hp := parse_reading env g ⟨hl.notParsed, hl.cleanName, hl.cleanSubs⟩ exe _ ha toks _ hr
  have hd : decided toks .atEnd = .parse := by
    unfold decided
    rw [h1]
    have : kept toks ++ Stop.atEnd.kept ≠ [] := by rw [h3]; simpa [Stop.kept] using hl.notEmpty
    simp [this]
  simp only [Stop.exn?] at hp
  rw [hd] at hp
  have hf : (scannedParser g.parser exe toks .atEnd).formatArguments = renderLine items tail := by
    show kept toks ++ [] = _
    rw [h3, List.append_nil]
  unfold checkAndParse at hp
  dsimp only at hp
  rw [show (scannedParser g.parser exe toks .atEnd).userDecision = none from h2,
    show env.versionCheck (scannedParser g.parser exe toks .atEnd).appName
      (scannedParser g.parser exe toks .atEnd).notify none g.world = (none, w₁) from hv] at hp
  dsimp only at hp
  unfold parseFormat at hp
  dsimp only at hp
  rw [hf, show formatParse env.ndebug (declsOf (scannedParser g.parser exe toks .atEnd).operations)
    (renderLine items tail) g.store w₁ = .ok () s' from hs] at hp
  exact ⟨_, hp, h4, rfl⟩

/-! ### `mygit` -/

theorem gitCaught_eq {o : Outcome} {x y : GitEnd} (h : gitCaught o x = y) : (o = .returned ∧ x = y) ∨ (∃ f, y = .printed f) ∨
    (∃ e, e.isParserError = true ∧ y = .reported e) ∨ ∃ e, e.isParserError = false ∧ y = .terminated e := by
  cases o with
  | returned => exact Or.inl ⟨rfl, h⟩
  | exited f => exact Or.inr (Or.inl ⟨f, h.symm⟩)
  | threw e =>
    unfold gitCaught at h
    simp only at h
    split at h
    · rename_i he; exact Or.inr (Or.inr (Or.inl ⟨e, he, h.symm⟩))
    · rename_i he; exact Or.inr (Or.inr (Or.inr ⟨e, by simpa using he, h.symm⟩))

theorem gitTop_keeps (env : Env W) (args : List Str) (w : W) :
    (gitSetUp env gitTopCalls (gitInit args) gitStore w).parser.appName = "mygit".toList ∧
    (gitSetUp env gitTopCalls (gitInit args) gitStore w).parser.arguments = args ∧
    (gitSetUp env gitTopCalls (gitInit args) gitStore w).parser.options = [] ∧
    (gitSetUp env gitTopCalls (gitInit args) gitStore w).parser.subcommands = ["pull".toList, "push".toList] :=
  ⟨rfl, rfl, rfl, by rfl⟩

/-- C92: the program never meets a subcommand it does not know, and ends with an exception of the library only if there are no words on the line but
values of `--version-check`. -/
theorem C92_mygit_endings (env : Env W) (args : List Str) (w : W) :
    (∀ name, mygit env args w ≠ .unhandled name) ∧
    (∀ e, e.isParserError = true → mygit env args w = .terminated e → e = .designError ∧ ∃ exe rest, args = exe :: rest ∧ OnlyDashed [] rest) := by
  obtain ⟨k1, k2, k3, k4⟩ := gitTop_keeps env args w
  have key : ∀ y, mygit env args w = y → (∀ e, e.isParserError = false → y ≠ .terminated e) → (∀ e, y ≠ .reported e) → (∀ f, y ≠ .printed f) →
      (∃ i st w', y = runGitPull env i st w' ∨ y = runGitPush env i st w') ∨
        (y = .terminated .designError ∧ ∃ exe rest, args = exe :: rest ∧ OnlyDashed [] rest) := by
    intro y hy h1 h2 h3
    rcases gitCaught_eq hy with ⟨hr, hx⟩ | ⟨f, h⟩ | ⟨e, _, h⟩ | ⟨e, he, h⟩
    · have hp : parse env (gitSetUp env gitTopCalls (gitInit args) gitStore w) =
          (.returned, (parse env (gitSetUp env gitTopCalls (gitInit args) gitStore w)).2) := by rw [← hr]
      obtain ⟨exe, rest, ha, hsub⟩ := C92_sub_parser_partial env _ _ hp (by rw [k4]; simp)
      rcases hsub with ⟨pre, s, rest', j, _, _, hs, hj, hname, _⟩ | ⟨hd, hj⟩
      · left
        rw [hj] at hx
        simp only at hx
        rw [k1] at hname
        rw [k4] at hs
        simp only [List.mem_cons, List.not_mem_nil, or_false] at hs
        rcases hs with rfl | rfl
        · rw [if_pos (hname.trans (by decide))] at hx
          exact ⟨_, _, _, Or.inl hx.symm⟩
        · rw [if_neg (by rw [hname]; decide), if_pos (hname.trans (by decide))] at hx
          exact ⟨_, _, _, Or.inr hx.symm⟩
      · right
        rw [hj] at hx
        rw [k2] at ha
        rw [k3] at hd
        exact ⟨hx.symm, exe, rest, ha, hd⟩
    · exact absurd h (h3 f)
    · exact absurd h (h2 e)
    · exact absurd h (h1 e he)
  have hsub : ∀ y i st (w' : W), (y = runGitPull env i st w' ∨ y = runGitPush env i st w') → (∀ name, y ≠ .unhandled name) ∧
      ∀ e, e.isParserError = true → y ≠ .terminated e := by
    intro y i st w' h
    rcases h with h | h <;>
      rcases gitCaught_eq h.symm with ⟨_, hx⟩ | ⟨f, h⟩ | ⟨e, _, h⟩ | ⟨e, he, h⟩
    all_goals
      refine ⟨fun name hn => ?_, fun e' he' hn => ?_⟩
    all_goals first
      | (rw [hn] at hx; cases hx)
      | (rw [hn] at h; cases h)
    all_goals (rw [he'] at he; cases he)
  constructor
  · intro name h
    rcases key _ h (fun _ _ => nofun) (fun _ => nofun) (fun _ => nofun) with ⟨i, st, w', h'⟩ | ⟨h', _⟩
    · exact (hsub _ i st w' h').1 name rfl
    · cases h'
  · intro e he h
    rcases key _ h (fun e' he' hh => by cases hh; rw [he] at he'; cases he') (fun _ => nofun) (fun _ => nofun) with ⟨i, st, w', h'⟩ | ⟨h', h''⟩
    · exact absurd rfl ((hsub _ i st w' h').2 e he)
    · cases h'
      exact ⟨rfl, h''⟩

/-! ### Lines that work -/

def gitTopDecls : Decls W := declsOf (gitTopCalls.filterMap Call.entry?)

theorem gitTop_decls (env : Env W) (args : List Str) (w : W) : decls (gitSetUp env gitTopCalls (gitInit args) gitStore w) = gitTopDecls := rfl

/-- The flag of the top-level parser: not given, or one of the two spellings. -/
def gitFlags : List (List Item) := [[], [.flags ['f']], [.longFlag "flag".toList]]

theorem gitFlags_ok {items : List Item} (hi : items ∈ gitFlags) : LineOk (W := W) gitTopDecls items none := by
  have hf : (gitTopDecls (W := W)).flags = [⟨'f', "flag".toList, 0⟩] := rfl
  have ho : (gitTopDecls (W := W)).options = [] := rfl
  simp only [gitFlags, List.mem_cons, List.not_mem_nil, or_false] at hi
  constructor
  · intro it hit
    rcases hi with rfl | rfl | rfl
    · cases hit
    · rw [List.mem_singleton.1 hit]
      refine ⟨by decide, fun c hc => ?_⟩
      rw [List.mem_singleton.1 hc, hf]
      exact ⟨by decide, _, .head _, rfl⟩
    · rw [List.mem_singleton.1 hit]
      refine ⟨by decide, ?_⟩
      rw [hf]
      exact ⟨_, .head _, rfl⟩
  · intro f hf'
    rw [hf] at hf'
    rw [List.mem_singleton.1 hf']
    rcases hi with rfl | rfl | rfl <;> decide
  · intro d hd
    rw [ho] at hd
    cases hd
  · intro ws hws
    cases hws

theorem gitTop_runs (env : Env W) (exe : Str) (items : List Item) (hi : items ∈ gitFlags) (s : Str) (hs : s = "pull".toList ∨ s = "push".toList)
    (rest : List Str) (w w₁ : W) (hv : env.versionCheck "mygit".toList true none w = (none, w₁)) :
    ∃ g', parse env (gitSetUp env gitTopCalls (gitInit (exe :: (items.flatMap Item.render ++ s :: rest))) gitStore w) = (.returned, g') ∧
      (∀ x, x ≠ 0 → g'.store x = gitStore x) ∧ g'.world = w₁ ∧
      g'.parser.subParser = some { appName := "mygit-".toList ++ s, arguments := s :: rest, notify := false, subcommands := [], executableName := [exe] } := by
  have hg : Reachable env (gitSetUp env gitTopCalls (gitInit (exe :: (items.flatMap Item.render ++ s :: rest))) gitStore w) := ⟨_, _, _, _, rfl⟩
  obtain ⟨k1, k2, k3, k4⟩ := gitTop_keeps env (exe :: (items.flatMap Item.render ++ s :: rest)) w
  have hl : LevelGiven (gitSetUp env gitTopCalls (gitInit (exe :: (items.flatMap Item.render ++ s :: rest))) gitStore w) items none s rest := by
    refine ⟨rfl, by rw [k1]; decide, by rw [k4]; decide, by rw [k4]; decide, by rw [k4]; rcases hs with rfl | rfl <;> decide,
      ⟨exe, by rw [k2]; simp [renderLine]⟩, ?_, Or.inl rfl, ?_⟩
    · intro w hw
      simp only [gitFlags, List.mem_cons, List.not_mem_nil, or_false] at hi
      rcases hi with rfl | rfl | rfl <;> simp at hw
    · simp only [gitFlags, List.mem_cons, List.not_mem_nil, or_false] at hi
      rcases hi with rfl | rfl | rfl <;> decide
  have hok : LineOk (W := W) gitTopDecls items none := gitFlags_ok hi
  obtain ⟨g', h1, h2, h3, -, h5⟩ := level_means env _ hg items none s rest hl (by rw [gitTop_decls]; exact hok) w₁ hv
    (setFlags items (gitTopDecls (W := W)).flags gitStore) w₁ (by
      rw [gitTop_decls]
      refine ⟨gitStore, w₁, ⟨rfl, rfl⟩, ?_, rfl, rfl⟩
      simp only [gitFlags, List.mem_cons, List.not_mem_nil, or_false] at hi
      rcases hi with rfl | rfl | rfl <;> rfl)
  refine ⟨g', h1, ?_, h3, ?_⟩
  · intro x hx
    rw [h2]
    show (if _ then gitStore else gitStore.set 0 _) x = _
    split
    · rfl
    · exact Store.set_ne _ _ hx
  · rw [h5]
    rfl

/-- The parser of a subcommand. -/
def gitSub (s : Str) (exe : Str) (rest : List Str) : Init where
  appName := "mygit-".toList ++ s
  arguments := s :: rest
  notify := false
  subcommands := []
  executableName := [exe]

/-- A level without options and flags that is called with words. -/
theorem words_line {env : Env W} {g : Prog W} (hg : Reachable env g) (hn : g.parser.parseWasCalled = false) (hc : CleanName g.parser.appName)
    (hsub : g.parser.subcommands = []) (ho : (decls g).options = []) (hf : (decls g).flags = []) (s : Str) (ws : List Str) (hne : ws ≠ [])
    (ha : g.parser.arguments = s :: ws) (hw : ∀ x ∈ ws, PlainWord x) (w₁ : W) (hv : CheckPasses env g w₁) (st' : Store) (w' : W)
    (hm : PositionalsMean (decls g).positionals ws g.store w₁ st' w') :
    ∃ g', parse env g = (.returned, g') ∧ g'.store = st' ∧ g'.world = w' := by
  have hrender : ∀ ws : List Str, renderLine (ws.map .word) none = ws := by
    intro ws
    unfold renderLine
    rw [List.append_nil, List.flatMap_map]
    exact List.flatMap_singleton' ws
  have hwords : Spec.words (ws.map .word) none = ws := by
    show (ws.map Item.word).filterMap Item.word? ++ [] = ws
    rw [List.append_nil, List.filterMap_map]
    exact List.filterMap_some
  refine C17_line_has_its_meaning env g hg (ws.map .word) none ⟨hn, hc, hsub, ⟨s, by rw [hrender]; exact ha⟩, by rw [hrender]; exact hne, ?_, nofun⟩ ?_ w₁ hv
    st' w' ?_
  · intro h
    obtain ⟨x, _, e⟩ := List.mem_map.1 h
    cases e
  · refine ⟨?_, by rw [hf]; nofun, by rw [ho]; nofun, nofun⟩
    intro it hit
    obtain ⟨x, hx, rfl⟩ := List.mem_map.1 hit
    exact hw x hx
  · refine ⟨g.store, w₁, by rw [ho]; exact ⟨rfl, rfl⟩, ?_⟩
    rw [hwords, hf]
    exact hm

/-- C92: `mygit [-f | --flag] pull <repository> <branch>` does what it says. -/
theorem C92_mygit_pulls (env : Env W) (exe : Str) (items : List Item) (hi : items ∈ gitFlags) (repository branch : Str) (h₁ : PlainWord repository)
    (h₂ : PlainWord branch) (w w₁ w₂ : W) (hv : env.versionCheck "mygit".toList true none w = (none, w₁))
    (hv₂ : env.versionCheck "mygit-pull".toList false none w₁ = (none, w₂)) :
    mygit env (exe :: (items.flatMap Item.render ++ ["pull".toList, repository, branch])) w = .pulled (.one (.str repository)) (.one (.str branch)) := by
  obtain ⟨g', h1, h2, h3, h4⟩ := gitTop_runs env exe items hi "pull".toList (Or.inl rfl) [repository, branch] w w₁ hv
  obtain ⟨g'', h5, h6, -⟩ := words_line (env := env) (g := gitSetUp env gitPullCalls (gitSub "pull".toList exe [repository, branch]) g'.store g'.world)
    ⟨_, _, _, _, rfl⟩ rfl (show CleanName "mygit-pull".toList by decide) rfl rfl rfl "pull".toList [repository, branch] (by simp) rfl
    (by simp [h₁, h₂]) w₂ (by rw [← h3] at hv₂; exact hv₂) ((g'.store.set 1 (.one (.str repository))).set 2 (.one (.str branch))) w₂
    ⟨repository, [branch], _, w₂, rfl, ⟨_, _, rfl, rfl, rfl⟩, rfl, branch, [], _, w₂, rfl, ⟨_, _, rfl, rfl, rfl⟩, rfl, rfl, rfl, rfl⟩
  unfold mygit
  rw [h1]
  show gitCaught .returned _ = _
  unfold gitCaught getSubParser
  simp only [h4]
  rw [if_pos (by decide)]
  unfold runGitPull
  rw [show (⟨"mygit-".toList ++ "pull".toList, ["pull".toList, repository, branch], false, [], [exe]⟩ : Init) =
    gitSub "pull".toList exe [repository, branch] from rfl, h5]
  show GitEnd.pulled (g''.store 1) (g''.store 2) = _
  rw [h6, Store.set_self, Store.set_ne _ _ (by decide), Store.set_self]

/-- C92: and `mygit [-f | --flag] push <repository> <branches>`, with at least one branch. -/
theorem C92_mygit_pushes (env : Env W) (exe : Str) (items : List Item) (hi : items ∈ gitFlags) (repository : Str) (branches : List Str) (hb : branches ≠ [])
    (h₁ : PlainWord repository) (h₂ : ∀ b ∈ branches, PlainWord b) (w w₁ w₂ : W) (hv : env.versionCheck "mygit".toList true none w = (none, w₁))
    (hv₂ : env.versionCheck "mygit-push".toList false none w₁ = (none, w₂)) :
    mygit env (exe :: (items.flatMap Item.render ++ "push".toList :: repository :: branches)) w =
      .pushed (.one (.str repository)) (.many (branches.map .str)) := by
  obtain ⟨g', h1, h2, h3, h4⟩ := gitTop_runs env exe items hi "push".toList (Or.inr rfl) (repository :: branches) w w₁ hv
  have hd : ∀ bs : List Str, DenoteAll .string bs (bs.map .str) := by
    intro bs
    induction bs with
    | nil => trivial
    | cons b bs ih => exact ⟨rfl, ih⟩
  obtain ⟨g'', h5, h6, -⟩ := words_line (env := env) (g := gitSetUp env gitPushCalls (gitSub "push".toList exe (repository :: branches)) g'.store g'.world)
    ⟨_, _, _, _, rfl⟩ rfl (show CleanName "mygit-push".toList by decide) rfl rfl rfl "push".toList (repository :: branches) (by simp) rfl
    (fun x hx => (List.mem_cons.1 hx).elim (fun e => e ▸ h₁) (h₂ x)) w₂ (by rw [← h3] at hv₂; exact hv₂)
    ((g'.store.set 3 (.one (.str repository))).set 4 (.many (branches.map .str))) w₂
    ⟨repository, branches, _, w₂, rfl, ⟨_, _, rfl, rfl, rfl⟩, rfl, rfl, hb, _, ⟨_, rfl, hd branches⟩, rfl, rfl⟩
  unfold mygit
  rw [h1]
  show gitCaught .returned _ = _
  unfold gitCaught getSubParser
  simp only [h4]
  rw [if_neg (by decide), if_pos (by decide)]
  unfold runGitPush
  rw [show (⟨"mygit-".toList ++ "push".toList, "push".toList :: repository :: branches, false, [], [exe]⟩ : Init) =
    gitSub "push".toList exe (repository :: branches) from rfl, h5]
  show GitEnd.pushed (g''.store 3) (g''.store 4) = _
  rw [h6, Store.set_self, Store.set_ne _ _ (by decide), Store.set_self]

/-! ### What goes wrong, and cases -/

/-- `mygit -f`: the program is terminated by an exception that nobody catches. -/
theorem C92_mygit_terminated : ¬ ∀ (env : Env Unit) (args : List Str) (e : Exn), e.isParserError = true → mygit env args () ≠ .terminated e :=
  fun h => h exEnv ["mygit".toList, "-f".toList] .designError rfl (by decide +kernel)

/-- After `parse()` of a parser with subcommands has returned there need not be a sub-parser. -/
theorem C92_no_sub_parser : ¬ ∀ (env : Env Unit) (g g' : Prog Unit), Reachable env g → parse env g = (.returned, g') → g.parser.subcommands ≠ [] →
    ∃ j, getSubParser g'.parser = .ok j := by
  intro h
  obtain ⟨j, hj⟩ := h exEnv (gitSetUp exEnv gitTopCalls (gitInit ["mygit".toList, "-f".toList]) gitStore ()) _ ⟨_, _, _, _, rfl⟩
    (returned_pair (by decide +kernel)) (by decide +kernel)
  revert hj
  rw [show getSubParser _ = Except.error Exn.designError from rfl]
  nofun

/-- The lines that the how-to shows, and what becomes of others. -/
def exMygit (args : List String) : GitEnd := mygit exEnv (("mygit" :: args).map String.toList) ()

example : exMygit ["-f", "pull", "origin", "master"] = .pulled (.one (.str "origin".toList)) (.one (.str "master".toList)) := by decide +kernel
example : exMygit ["push", "origin", "a", "b"] = .pushed (.one (.str "origin".toList)) (.many [.str "a".toList, .str "b".toList]) := by decide +kernel
example : exMygit ["foo"] = .reported .userInputError := by decide +kernel
example : exMygit ["pull", "origin"] = .reported .tooFewArguments := by decide +kernel
example : exMygit ["-h"] = .printed (.help false) := by decide +kernel
example : exMygit [] = .printed .shortHelp := by decide +kernel
example : exMygit ["--"] = .terminated .designError := by decide +kernel

/-- The hypotheses of `C92_mygit_pulls` and `C92_mygit_pushes`. -/
example : [Item.flags ['f']] ∈ gitFlags ∧ PlainWord "origin".toList ∧ PlainWord "-".toList ∧
    exEnv.versionCheck "mygit".toList true none () = (none, ()) ∧ exEnv.versionCheck "mygit-pull".toList false none () = (none, ()) :=
  ⟨.tail _ (.head _), ⟨by decide, Or.inr (by decide)⟩, ⟨by decide, Or.inl (by decide)⟩, rfl, rfl⟩

/-- The program without `pull` or `push`, for `C92_forgotten_subcommand_not_noticed`. -/
def exMygitTop : Prog Unit := gitSetUp exEnv gitTopCalls (gitInit ["mygit".toList, "-f".toList]) gitStore ()

example : NoSubcommandGiven exMygitTop [.flags ['f']] none ∧ LineOk (decls exMygitTop) [.flags ['f']] none ∧ CheckPasses exEnv exMygitTop () ∧
    LineMeans (decls exMygitTop) [.flags ['f']] none exMygitTop.store () (gitStore.set 0 (.one (.bool true))) () :=
  ⟨⟨rfl, by decide, by decide +kernel, by decide +kernel, ⟨"mygit".toList, rfl⟩, by decide, by simp, Or.inl rfl, by simp⟩,
   gitFlags_ok (.tail _ (.head _)), rfl, gitStore, (), ⟨rfl, rfl⟩, rfl, rfl, rfl⟩

end Sharg
