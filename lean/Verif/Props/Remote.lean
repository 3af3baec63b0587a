import Verif.Model.Remote
import Verif.Spec.Remote
import Verif.Props.Git
import Verif.Spec.AppEnds

/-!
# Commands without options of their own, and the program with subcommands of subcommands (C106)
-/

namespace Sharg

open Spec

variable {W : Type}

/-! ### Nothing registered -/

theorem formatParse_bare (nd : Bool) (args : List Str) (st : Store) (w : W) :
    formatParse nd ⟨[], [], []⟩ args st w =
      if (args.takeWhile (fun a => a ≠ endMarker)).any looksLikeId then
        .err .unknownOption ⟨args.takeWhile (fun a => a ≠ endMarker), args.dropWhile (fun a => a ≠ endMarker), st, w⟩
      else if (args.takeWhile (fun a => a ≠ endMarker) ++ blankHead (args.dropWhile (fun a => a ≠ endMarker))).any (fun a => a ≠ []) then
        .err .tooManyArguments ⟨args.takeWhile (fun a => a ≠ endMarker) ++ blankHead (args.dropWhile (fun a => a ≠ endMarker)), [], st, w⟩
      else .ok () ⟨args.takeWhile (fun a => a ≠ endMarker) ++ blankHead (args.dropWhile (fun a => a ≠ endMarker)), [], st, w⟩ := by
  unfold formatParse parseBody
  simp only [M.forEach, M.bind, M.pure, checkForUnknownIds, blankEndOfOptions, M.modify, runPositionals, checkForLeftOverArgs]
  by_cases h : (args.takeWhile (fun a => a ≠ endMarker)).any looksLikeId = true
  · rw [if_pos h, if_pos h]
  · rw [if_neg h, if_neg h]

theorem take_drop_marker (args : List Str) : ∃ pre post, args = pre ++ post ∧ args.takeWhile (fun a => a ≠ endMarker) = pre ∧
    args.dropWhile (fun a => a ≠ endMarker) = post ∧ endMarker ∉ pre ∧ (post = [] ∨ ∃ r, post = endMarker :: r) := by
  refine ⟨_, _, (List.takeWhile_append_dropWhile (p := fun a => decide (a ≠ endMarker))).symm, rfl, rfl, ?_, ?_⟩
  · intro h
    induction args with
    | nil => cases h
    | cons a args ih =>
      rw [List.takeWhile_cons] at h
      split at h
      · rename_i ha
        rcases List.mem_cons.1 h with rfl | h
        · simp at ha
        · exact ih h
      · cases h
  · cases hd : args.dropWhile (fun a => decide (a ≠ endMarker)) with
    | nil => exact Or.inl rfl
    | cons a r =>
      right
      refine ⟨r, ?_⟩
      have := List.head?_dropWhile_not (p := fun a => decide (a ≠ endMarker)) args
      rw [hd] at this
      simp at this
      rw [this]

theorem looksLikeId_iff (a : Str) : looksLikeId a = true ↔ ∃ c r, a = '-' :: c :: r := by
  unfold looksLikeId
  split
  · simp
  · rename_i h
    simp only [Bool.false_eq_true, false_iff]
    rintro ⟨c, r, rfl⟩
    exact h c r rfl

theorem optionInFront_iff (args : List Str) : OptionInFront args ↔ (args.takeWhile (fun a => a ≠ endMarker)).any looksLikeId = true := by
  rw [List.any_eq_true]
  constructor
  · rintro ⟨pre, a, post, rfl, h1, h2, h3⟩
    refine ⟨a, ?_, (looksLikeId_iff a).2 h3⟩
    rw [List.takeWhile_append_of_pos (p := fun a => decide (a ≠ endMarker)) (fun b hb => decide_eq_true (show b ≠ endMarker from fun e => h1 (show endMarker ∈ pre from e ▸ hb))), List.takeWhile_cons, if_pos (decide_eq_true (show a ≠ endMarker from h2))]
    simp
  · rintro ⟨a, ha, hl⟩
    obtain ⟨pre, post, h1, h2, h3, h4, -⟩ := take_drop_marker args
    rw [h2] at ha
    obtain ⟨x, y, rfl⟩ := List.append_of_mem ha
    exact ⟨x, a, y ++ post, by rw [h1]; simp, fun h => h4 (List.mem_append_left _ h), fun e => h4 (e ▸ List.mem_append_right _ (.head _)),
      (looksLikeId_iff a).1 hl⟩

theorem onlyMarker_iff (args : List Str) : OnlyMarker args ↔
    (args.takeWhile (fun a => a ≠ endMarker) ++ blankHead (args.dropWhile (fun a => a ≠ endMarker))).any (fun a => a ≠ []) = false := by
  obtain ⟨pre, post, h1, h2, h3, h4, h5⟩ := take_drop_marker args
  rw [h2, h3, List.any_eq_false]
  simp only [decide_eq_true_eq, Decidable.not_not]
  have hm : endMarker ≠ [] := nofun
  constructor
  · rintro (h | ⟨p, q, h, hp, hq⟩)
    · intro x hx
      rcases List.mem_append.1 hx with hx | hx
      · exact h x (by rw [h1]; exact List.mem_append_left _ hx)
      · rcases h5 with rfl | ⟨r, rfl⟩
        · cases hx
        · exact absurd (h endMarker (by rw [h1]; exact List.mem_append_right _ (.head _))) hm
    · have hpt : args.takeWhile (fun a => a ≠ endMarker) = p := by
        rw [h, List.takeWhile_append_of_pos (p := fun a => decide (a ≠ endMarker)) (fun b hb => decide_eq_true (show b ≠ endMarker from fun e => hm (e ▸ hp b hb))), List.takeWhile_cons,
          if_neg (by simp [endMarker]), List.append_nil]
      rw [h2] at hpt
      subst hpt
      have : post = endMarker :: q := List.append_cancel_left (h1.symm.trans h)
      subst this
      intro x hx
      rcases List.mem_append.1 hx with hx | hx
      · exact hp x hx
      · rcases List.mem_cons.1 hx with rfl | hx
        · rfl
        · exact hq x hx
  · intro h
    rcases h5 with rfl | ⟨r, rfl⟩
    · left
      intro a ha
      rw [h1, List.append_nil] at ha
      exact h a (List.mem_append_left _ ha)
    · right
      exact ⟨pre, r, h1, fun a ha => h a (List.mem_append_left _ ha), fun a ha => h a (List.mem_append_right _ (.tail _ ha))⟩

/-- C106: what a parser without registrations accepts: empty arguments and one `--`, and not nothing unless a subcommand follows. Nothing is changed. -/
theorem C106_only_marker (env : Env W) (g g' : Prog W) (hn : NothingRegistered g) (h : parse env g = (.returned, g')) :
    OnlyMarker g'.parser.formatArguments ∧ (g'.parser.formatArguments ≠ [] ∨ g'.parser.subParser ≠ none) ∧ g'.store = g.store := by
  obtain ⟨hp, -, ⟨exe, args, toks, stop, ha, hr, hx, hl, hg'⟩, w₁, s, -, hs, h1, -⟩ := parse_returned env g g' h
  rw [show declsOf g.parser.operations = ⟨[], [], []⟩ from hn, formatParse_bare] at hs
  refine ⟨?_, ?_, ?_⟩
  · rw [onlyMarker_iff]
    by_cases hu : (g'.parser.formatArguments.takeWhile (fun a => a ≠ endMarker)).any looksLikeId = true
    · rw [if_pos hu] at hs; cases hs
    · rw [if_neg hu] at hs
      split at hs
      · cases hs
      · rename_i hm; simpa using hm
  · have hrun := parse_reading env g hp exe args ha toks stop hr
    rw [h, hx] at hrun
    have hd := returned_parse hrun.symm
    unfold decided at hd
    rw [hl] at hd
    simp only at hd
    split at hd
    · rename_i hk
      rw [hg']
      rcases hk with hk | hk
      · exact Or.inl hk
      · refine Or.inr ?_
        show stop.sub?.map _ ≠ none
        simpa using hk
    · cases hd
  · rw [h1]
    split at hs
    · cases hs
    · split at hs
      · cases hs
      · cases hs; rfl

/-- C106, partial (no requests): how such a parser ends. With no arguments there is a page; otherwise the arguments decide. -/
theorem C106_bare_ends_partial (env : Env W) (g : Prog W) (hp : Ready g.parser) (hn : NothingRegistered g) (hs : g.parser.subcommands = [])
    (ho : g.parser.options = []) (exe : Str) (args : List Str) (ha : g.parser.arguments = exe :: args) (hres : ∀ a ∈ args, ¬ Reserved a) (w₁ : W)
    (hv : CheckPasses env g w₁) :
    (args = [] → (parse env g).1 = pageOutcome .shortHelp (env.printPage .shortHelp (parse env g).2.parser g.store w₁).1) ∧
    (args ≠ [] → BareEnds args (parse env g).1) := by
  have hplain : ∀ t ∈ args.map Tok.plain, ∃ a ∈ args, Tok.plain a = t := fun t ht => List.mem_map.1 ht
  have hr : Reading g.parser.options g.parser.subcommands args (args.map .plain) .atEnd := by
    refine ⟨?_, ?_, trivial⟩
    · show args = (args.map Tok.plain).flatMap Tok.render ++ []
      rw [List.append_nil, List.flatMap_map]
      exact (List.flatMap_singleton' args).symm
    · intro t ht
      obtain ⟨a, hm, rfl⟩ := hplain t ht
      rw [ho, hs]
      exact ⟨nofun, nofun, hres a hm, fun h => absurd rfl h⟩
  have hl : lastRequest (args.map .plain) = none := by
    unfold lastRequest
    rw [show (args.map Tok.plain).filterMap Tok.request? = [] from List.filterMap_eq_nil_iff.2 fun t ht => by
      obtain ⟨a, hm, rfl⟩ := hplain t ht; rfl]
    rfl
  have hc : lastCheck (args.map .plain) = none := by
    unfold lastCheck
    rw [show (args.map Tok.plain).filterMap Tok.check? = [] from List.filterMap_eq_nil_iff.2 fun t ht => by
      obtain ⟨a, hm, rfl⟩ := hplain t ht; rfl]
    rfl
  have hk : kept (args.map .plain) ++ Stop.atEnd.kept = args := by
    show (args.map Tok.plain).flatMap Tok.kept ++ [] = args
    rw [List.append_nil, List.flatMap_map]
    exact List.flatMap_singleton' args
  have hrun := parse_reading env g hp exe args ha _ _ hr
  simp only [Stop.exn?] at hrun
  have hpar : (parse env g).2.parser = scannedParser g.parser exe (args.map .plain) .atEnd := by rw [hrun, checkAndParse_parser]
  have hcheck : ∀ f, checkAndParse env f { g with parser := scannedParser g.parser exe (args.map .plain) .atEnd } =
      parseFormat env f { g with parser := scannedParser g.parser exe (args.map .plain) .atEnd, world := w₁ } := by
    intro f
    unfold checkAndParse
    dsimp only
    rw [show (scannedParser g.parser exe (args.map .plain) .atEnd).userDecision = none from hc,
      show env.versionCheck (scannedParser g.parser exe (args.map .plain) .atEnd).appName
        (scannedParser g.parser exe (args.map .plain) .atEnd).notify none g.world = (none, w₁) from hv]
  rw [hpar, hrun, hcheck]
  refine ⟨fun he => ?_, fun he => ?_⟩
  · have hd : decided (args.map .plain) .atEnd = .shortHelp := by
      unfold decided
      rw [hl, hk, if_neg (by simp [he, Stop.sub?])]
    rw [hd]
    unfold parseFormat
    dsimp only
    rcases env.printPage .shortHelp (scannedParser g.parser exe (args.map .plain) .atEnd) g.store w₁ with ⟨_ | e, w⟩ <;> rfl
  · have hd : decided (args.map .plain) .atEnd = .parse := by
      unfold decided
      rw [hl, hk, if_pos (Or.inl he)]
    rw [hd]
    unfold parseFormat
    dsimp only
    rw [show (scannedParser g.parser exe (args.map .plain) .atEnd).formatArguments = args from hk,
      show declsOf (scannedParser g.parser exe (args.map .plain) .atEnd).operations = ⟨[], [], []⟩ from hn, formatParse_bare]
    by_cases h1 : (args.takeWhile (fun a => a ≠ endMarker)).any looksLikeId = true
    · rw [if_pos h1]
      exact .unknown ((optionInFront_iff args).2 h1)
    · rw [if_neg h1]
      by_cases h2 : (args.takeWhile (fun a => a ≠ endMarker) ++ blankHead (args.dropWhile (fun a => a ≠ endMarker))).any (fun a => a ≠ []) = true
      · rw [if_pos h2]
        exact .tooMany (fun h => h1 ((optionInFront_iff args).1 h)) (fun h => by rw [(onlyMarker_iff args).1 h] at h2; cases h2)
      · rw [if_neg h2]
        exact .accepted ((onlyMarker_iff args).2 (by simpa using h2))

/-! ### The program -/

theorem remoteCaught_eq {o : Outcome} {x y : RemoteEnd} (h : remoteCaught o x = y) : (o = .returned ∧ x = y) ∨ (∃ f, y = .printed f) ∨
    (∃ e, e.isParserError = true ∧ y = .reported e) ∨ ∃ e, e.isParserError = false ∧ y = .terminated e := by
  cases o with
  | returned => exact Or.inl ⟨rfl, h⟩
  | exited f => exact Or.inr (Or.inl ⟨f, h.symm⟩)
  | threw e =>
    unfold remoteCaught at h
    simp only at h
    split at h
    · rename_i he; exact Or.inr (Or.inr (Or.inl ⟨e, he, h.symm⟩))
    · rename_i he; exact Or.inr (Or.inr (Or.inr ⟨e, by simpa using he, h.symm⟩))

/-- The top-level parser, and the parser of `git remote`. -/
def remoteTop (env : Env W) (args : List Str) (w : W) : Prog W := gitSetUp env remoteTopCalls (remoteInit args) (fun _ => .one (.str [])) w

def remoteLevel (env : Env W) (i : Init) (st : Store) (w : W) : Prog W := gitSetUp env remoteCalls i st w

theorem remoteTop_keeps (env : Env W) (args : List Str) (w : W) :
    (remoteTop env args w).parser.appName = "git".toList ∧ (remoteTop env args w).parser.arguments = args ∧
    (remoteTop env args w).parser.options = [] ∧ (remoteTop env args w).parser.subcommands = ["pull".toList, "push".toList, "remote".toList] ∧
    NothingRegistered (remoteTop env args w) ∧ Reachable env (remoteTop env args w) ∧ (remoteTop env args w).parser.parseWasCalled = false ∧
    (remoteTop env args w).parser.notify = false ∧ (remoteTop env args w).parser.executableName = [] :=
  ⟨rfl, rfl, rfl, by rfl, rfl, ⟨_, _, _, _, rfl⟩, rfl, rfl, rfl⟩

theorem remoteLevel_keeps (env : Env W) (i : Init) (hi : i.subcommands = []) (st : Store) (w : W) :
    (remoteLevel env i st w).parser.appName = i.appName ∧ (remoteLevel env i st w).parser.arguments = i.arguments ∧
    (remoteLevel env i st w).parser.options = [] ∧ (remoteLevel env i st w).parser.subcommands = ["set-url".toList, "show".toList] ∧
    NothingRegistered (remoteLevel env i st w) ∧ Reachable env (remoteLevel env i st w) ∧ (remoteLevel env i st w).parser.parseWasCalled = false ∧
    (remoteLevel env i st w).parser.notify = i.notify ∧ (remoteLevel env i st w).parser.executableName = i.executableName := by
  refine ⟨rfl, rfl, rfl, ?_, rfl, ⟨_, _, _, _, rfl⟩, rfl, rfl, rfl⟩
  show addSubcommandsTo (addSubcommandsTo [] i.subcommands) _ = _
  rw [hi]
  rfl

theorem sub_subcommands {p : Parser W} {exe : Str} {toks : List Tok} {stop : Stop} {j : Init}
    (h : (scannedParser p exe toks stop).subParser = some j) : j.subcommands = [] ∧ j.notify = false := by
  obtain ⟨a, -, rfl⟩ := Option.map_eq_some_iff.1 h
  cases a <;> exact ⟨rfl, rfl⟩

theorem getSub_some {p : Parser W} {j : Init} (h : getSubParser p = .ok j) : p.subParser = some j := by
  unfold getSubParser at h
  split at h
  · cases h
  · rename_i k hk
    cases h
    exact hk

theorem returned_of {env : Env W} {g : Prog W} (h : (parse env g).1 = .returned) : parse env g = (.returned, (parse env g).2) := by rw [← h]

/-- C106: how the program ends. It never meets a name it does not know, and reports every error of the library. -/
theorem C106_endings (env : Env W) (args : List Str) (w : W) :
    (∀ name, remoteMain env args w ≠ .unhandled name) ∧ ∀ e, e.isParserError = true → remoteMain env args w ≠ .terminated e := by
  have leaf : ∀ o x, (∀ name, x ≠ .unhandled name) → (∀ e, x ≠ .terminated e) →
      (∀ name, remoteCaught o x ≠ .unhandled name) ∧ ∀ e, e.isParserError = true → remoteCaught o x ≠ .terminated e := by
    intro o x h1 h2
    refine ⟨fun name hn => ?_, fun e he hn => ?_⟩ <;> rcases remoteCaught_eq hn with ⟨_, hx⟩ | ⟨f, h⟩ | ⟨e', he', h⟩ | ⟨e', he', h⟩
    · exact h1 _ hx
    · cases h
    · cases h
    · cases h
    · exact h2 _ hx
    · cases h
    · cases h
    · cases h; rw [he] at he'; cases he'
  have level : ∀ (g : Prog W) (k : Init → RemoteEnd) (P : RemoteEnd → Prop),
      P = (fun y => (∀ name, y ≠ .unhandled name) ∧ ∀ e, e.isParserError = true → y ≠ .terminated e) →
      g.parser.subcommands ≠ [] → (∀ j s, s ∈ g.parser.subcommands → j.appName = g.parser.appName ++ "-".toList ++ s →
        j.subcommands = [] → P (k j)) →
      P (remoteCaught (parse env g).1 (remoteSub (parse env g).2.parser k)) := by
    rintro g k P rfl hs hk
    refine ⟨fun name hn => ?_, fun e he hn => ?_⟩ <;> rcases remoteCaught_eq hn with ⟨hr, hx⟩ | ⟨f, h⟩ | ⟨e', he', h⟩ | ⟨e', he', h⟩
    all_goals first
      | (cases h; done)
      | (cases h; rw [he] at he'; cases he'; done)
      | skip
    all_goals
      obtain ⟨exe, rest, ha, ⟨pre, s, rest', j, _, _, hm, hj, hname, _⟩ | ⟨hd, hj⟩⟩ := C92_sub_parser_partial env g _ (returned_of hr) hs
    all_goals unfold remoteSub at hx
    all_goals rw [hj] at hx
    · obtain ⟨-, -, ⟨_, _, toks, stop, -, -, -, -, hg'⟩, -⟩ := parse_returned env g _ (returned_of hr)
      exact (hk j s hm hname (sub_subcommands (hg' ▸ getSub_some hj)).1).1 _ hx
    · cases hx
    · obtain ⟨-, -, ⟨_, _, toks, stop, -, -, -, -, hg'⟩, -⟩ := parse_returned env g _ (returned_of hr)
      exact (hk j s hm hname (sub_subcommands (hg' ▸ getSub_some hj)).1).2 e he hx
    · cases hx
  obtain ⟨k1, -, -, k4, -⟩ := remoteTop_keeps env args w
  refine level (remoteTop env args w) _ _ rfl (by rw [k4]; simp) ?_
  intro j s hm hname hj
  rw [k1] at hname
  rw [k4] at hm
  simp only [List.mem_cons, List.not_mem_nil, or_false] at hm
  rcases hm with rfl | rfl | rfl
  · rw [if_pos (hname.trans (by decide))]
    exact leaf _ _ nofun nofun
  · rw [if_neg (by rw [hname]; decide), if_pos (hname.trans (by decide))]
    exact leaf _ _ nofun nofun
  · rw [if_neg (by rw [hname]; decide), if_neg (by rw [hname]; decide), if_pos (hname.trans (by decide))]
    obtain ⟨l1, -, -, l4, -⟩ := remoteLevel_keeps env j hj (parse env (remoteTop env args w)).2.store (parse env (remoteTop env args w)).2.world
    refine level (remoteLevel env j (parse env (remoteTop env args w)).2.store (parse env (remoteTop env args w)).2.world) _ _ rfl (by rw [l4]; simp) ?_
    intro j' s hm hname' hj'
    rw [l1, hname] at hname'
    rw [l4] at hm
    simp only [List.mem_cons, List.not_mem_nil, or_false] at hm
    rcases hm with rfl | rfl
    · rw [if_pos (hname'.trans (by decide))]
      exact leaf _ _ nofun nofun
    · rw [if_neg (by rw [hname']; decide), if_pos (hname'.trans (by decide))]
      exact leaf _ _ nofun nofun

/-- The parser for the subcommand `s` of a level. -/
theorem remoteSub_shown {env : Env W} {g : Prog W} {k : Init → RemoteEnd} {y : RemoteEnd}
    (h : remoteCaught (parse env g).1 (remoteSub (parse env g).2.parser k) = y) (hs : g.parser.subcommands ≠ [])
    (h1 : ∀ f, y ≠ .printed f) (h2 : ∀ e, y ≠ .reported e) (h3 : ∀ e, y ≠ .terminated e) :
    ∃ exe pre s rest j, g.parser.arguments = exe :: (pre ++ s :: rest) ∧ OnlyDashed g.parser.options pre ∧ s ∈ g.parser.subcommands ∧
      j.appName = g.parser.appName ++ "-".toList ++ s ∧ j.arguments = s :: rest ∧ j.subcommands = [] ∧ k j = y := by
  rcases remoteCaught_eq h with ⟨hr, hx⟩ | ⟨f, h⟩ | ⟨e, _, h⟩ | ⟨e, _, h⟩
  · obtain ⟨exe, rest, ha, ⟨pre, s, rest', j, h4, h5, hm, hj, hname, h6⟩ | ⟨hd, hj⟩⟩ := C92_sub_parser_partial env g _ (returned_of hr) hs
    · obtain ⟨-, -, ⟨_, _, toks, stop, -, -, -, -, hg'⟩, -⟩ := parse_returned env g _ (returned_of hr)
      unfold remoteSub at hx
      rw [hj] at hx
      exact ⟨exe, pre, s, rest', j, by rw [ha, h4], h5, hm, hname, h6, (sub_subcommands (hg' ▸ getSub_some hj)).1, hx⟩
    · unfold remoteSub at hx
      rw [hj] at hx
      exact absurd hx.symm (h2 _)
  · exact absurd h (h1 f)
  · exact absurd h (h2 e)
  · exact absurd h (h3 e)

/-- The parser of `git remote show`. -/
theorem show_level (env : Env W) (j : Init) (hsub : j.subcommands = []) (s : Str) (rest : List Str) (hargs : j.arguments = s :: rest) (st : Store) (w : W)
    (hr : (parse env (gitSetUp env [] j st w)).1 = .returned) : ∃ a ∈ rest, a = [] ∨ a = "--".toList := by
  have hsubs : (gitSetUp env [] j st w).parser.subcommands = [] := by
    show addSubcommandsTo [] j.subcommands = []
    rw [hsub]
    rfl
  have hnothing : NothingRegistered (gitSetUp env [] j st w) := rfl
  have hja : (gitSetUp env [] j st w).parser.arguments = s :: rest := hargs
  generalize gitSetUp env [] j st w = g at *
  obtain ⟨hp, -, ⟨exe, args, toks, stop, ha, hrd, -, -, hg'⟩, -⟩ := parse_returned env g _ (returned_of hr)
  have hsl := C16_subsequence env g hp exe args ha
  obtain ⟨hm1, hm2, -⟩ := C106_only_marker env g _ hnothing (returned_of hr)
  have : args = rest := (List.cons.inj (ha.symm.trans hja)).2
  subst this
  have hns : stop.sub? = none := by
    have hok := hrd.stopOk
    cases stop with
    | subcommand t r =>
      have h0 := hok.2
      rw [hsubs] at h0
      cases h0
    | _ => rfl
  have hne : (parse env g).2.parser.formatArguments ≠ [] := by
    rcases hm2 with h | h
    · exact h
    · refine absurd ?_ h
      rw [hg']
      show stop.sub?.map _ = none
      rw [hns]
      rfl
  obtain ⟨a, l, hal⟩ := List.exists_cons_of_ne_nil hne
  refine ⟨a, hsl.subset (by rw [hal]; exact .head _), ?_⟩
  rw [hal] at hm1
  rcases hm1 with h | ⟨p, q, h, h', h''⟩
  · exact Or.inl (h a (.head _))
  · cases p with
    | nil => exact Or.inr (List.cons.inj h).1
    | cons b p => exact Or.inl ((List.cons.inj h).1.trans (h' b (.head _)))

/-- C106: `git remote show` gets through only if there is an empty argument or `--` behind `show`; the documented call never does. -/
theorem C106_show_needs_marker (env : Env W) (args : List Str) (w : W) (h : remoteMain env args w = .shown) :
    ∃ exe pre pre' rest, args = exe :: (pre ++ "remote".toList :: (pre' ++ "show".toList :: rest)) ∧ OnlyDashed [] pre ∧ OnlyDashed [] pre' ∧
      ∃ a ∈ rest, a = [] ∨ a = "--".toList := by
  obtain ⟨k1, k2, k3, k4, -⟩ := remoteTop_keeps env args w
  obtain ⟨exe, pre, s, rest, j, ha, hd, hm, hname, hargs, hsub, hk⟩ :=
    remoteSub_shown (g := remoteTop env args w) h (by rw [k4]; simp) nofun nofun nofun
  rw [k1] at hname
  rw [k4] at hm
  rw [k2] at ha
  rw [k3] at hd
  simp only [List.mem_cons, List.not_mem_nil, or_false] at hm
  have leaf : ∀ o v, remoteCaught o (.pulled v) ≠ .shown ∧ remoteCaught o (.pushed v) ≠ .shown ∧ remoteCaught o (.urlSet v) ≠ .shown := by
    intro o v
    refine ⟨fun h => ?_, fun h => ?_, fun h => ?_⟩ <;>
      rcases remoteCaught_eq h with ⟨_, hx⟩ | ⟨f, h⟩ | ⟨e, _, h⟩ | ⟨e, _, h⟩ <;> first | cases hx | cases h
  rcases hm with rfl | rfl | rfl
  · rw [if_pos (hname.trans (by decide))] at hk
    exact absurd hk (leaf _ _).1
  · rw [if_neg (by rw [hname]; decide), if_pos (hname.trans (by decide))] at hk
    exact absurd hk (leaf _ _).2.1
  · rw [if_neg (by rw [hname]; decide), if_neg (by rw [hname]; decide), if_pos (hname.trans (by decide))] at hk
    obtain ⟨l1, l2, l3, l4, -⟩ := remoteLevel_keeps env j hsub (parse env (remoteTop env args w)).2.store (parse env (remoteTop env args w)).2.world
    obtain ⟨exe', pre', s', rest', j', ha', hd', hm', hname', hargs', hsub', hk'⟩ :=
      remoteSub_shown (g := remoteLevel env j (parse env (remoteTop env args w)).2.store (parse env (remoteTop env args w)).2.world) hk
        (by rw [l4]; simp) nofun nofun nofun
    rw [l1, hname] at hname'
    rw [l4] at hm'
    rw [l2, hargs] at ha'
    rw [l3] at hd'
    obtain ⟨rfl, rfl⟩ := List.cons.inj ha'
    simp only [List.mem_cons, List.not_mem_nil, or_false] at hm'
    rcases hm' with rfl | rfl
    · rw [if_pos (hname'.trans (by decide))] at hk'
      exact absurd hk' (leaf _ _).2.2
    · rw [if_neg (by rw [hname']; decide), if_pos (hname'.trans (by decide))] at hk'
      refine ⟨exe, pre, pre', rest', ha, hd, hd', ?_⟩
      rcases remoteCaught_eq hk' with ⟨hr, -⟩ | ⟨f, h⟩ | ⟨e, _, h⟩ | ⟨e, _, h⟩
      · exact show_level env j' hsub' "show".toList rest' hargs' _ _ hr
      · cases h
      · cases h
      · cases h

/-! ### Lines that work, and `git remote show` -/

/-- A level at which nothing is registered, called with a subcommand, perhaps behind `--`. -/
theorem bare_sub (env : Env W) (g : Prog W) (hg : Reachable env g) (hn : NothingRegistered g) (tail : Option (List Str)) (s : Str) (rest : List Str)
    (hl : LevelGiven g [] tail s rest) (w₁ : W) (hv : CheckPasses env g w₁) :
    ∃ g', parse env g = (.returned, g') ∧ g'.store = g.store ∧ g'.world = w₁ ∧
      g'.parser.subParser = some (subInit g.parser.appName (g.parser.executableName ++ g.parser.arguments.take 1) (s :: rest)) := by
  have hd : decls g = ⟨[], [], []⟩ := hn
  obtain ⟨g', h1, h2, h3, -, h5⟩ := level_means env g hg [] tail s rest hl (by
      rw [hd]
      refine ⟨nofun, nofun, nofun, fun ws hws x hx => ?_⟩
      rcases hl.noTail with h | h
      · rw [h] at hws; cases hws
      · rw [h] at hws; cases hws; cases hx) w₁ hv g.store w₁ (by
      rw [hd]
      refine ⟨g.store, w₁, ⟨rfl, rfl⟩, ?_⟩
      rcases hl.noTail with h | h <;> subst h <;> exact ⟨rfl, rfl, rfl⟩)
  exact ⟨g', h1, h2, h3, h5⟩

/-- The parser for `git s`, and for `git remote s`. -/
def remoteNext (name : Str) (exes : List Str) (s : Str) (rest : List Str) : Init where
  appName := name ++ '-' :: s
  arguments := s :: rest
  notify := false
  subcommands := []
  executableName := exes

theorem remoteTop_runs (env : Env W) (exe : Str) (tail : Option (List Str)) (ht : tail = none ∨ tail = some []) (s : Str)
    (hs : s ∈ ["pull".toList, "push".toList, "remote".toList]) (rest : List Str) (w w₁ : W)
    (hv : env.versionCheck "git".toList false none w = (none, w₁)) :
    ∃ g', parse env (remoteTop env (exe :: (renderLine [] tail ++ s :: rest)) w) = (.returned, g') ∧ g'.world = w₁ ∧
      g'.parser.subParser = some (remoteNext "git".toList [exe] s rest) := by
  obtain ⟨k1, k2, k3, k4, k5, k6, k7, k8, k9⟩ := remoteTop_keeps env (exe :: (renderLine [] tail ++ s :: rest)) w
  obtain ⟨g', h1, h2, h3, h4⟩ := bare_sub env _ k6 k5 tail s rest
    ⟨k7, by rw [k1]; decide, by rw [k4]; decide, by rw [k4]; decide, by rw [k4]; exact hs, ⟨exe, k2⟩, nofun, ht, nofun⟩ w₁
    (show env.versionCheck _ _ none _ = _ by rw [k1, k8]; exact hv)
  refine ⟨g', h1, h3, h4.trans ?_⟩
  rw [k1, k2, k9]
  rfl

theorem remoteLevel_runs (env : Env W) (exe : Str) (tail : Option (List Str)) (ht : tail = none ∨ tail = some []) (s : Str)
    (hs : s ∈ ["set-url".toList, "show".toList]) (rest : List Str) (st : Store) (w w₁ : W)
    (hv : env.versionCheck "git-remote".toList false none w = (none, w₁)) :
    ∃ g', parse env (remoteLevel env (remoteNext "git".toList [exe] "remote".toList (renderLine [] tail ++ s :: rest)) st w) = (.returned, g') ∧
      g'.world = w₁ ∧ g'.parser.subParser = some (remoteNext "git-remote".toList [exe, "remote".toList] s rest) := by
  obtain ⟨k1, k2, k3, k4, k5, k6, k7, k8, k9⟩ :=
    remoteLevel_keeps env (remoteNext "git".toList [exe] "remote".toList (renderLine [] tail ++ s :: rest)) rfl st w
  obtain ⟨g', h1, h2, h3, h4⟩ := bare_sub env _ k6 k5 tail s rest
    ⟨k7, by rw [k1]; exact (show CleanName "git-remote".toList by decide), by rw [k4]; decide, by rw [k4]; decide, by rw [k4]; exact hs, ⟨_, k2⟩, nofun,
      ht, nofun⟩ w₁ (show env.versionCheck _ _ none _ = _ by rw [k1, k8]; exact hv)
  refine ⟨g', h1, h3, h4.trans ?_⟩
  rw [k1, k2, k9]
  rfl

/-- A level with one positional option, called with one word. -/
theorem repository_level (env : Env W) (x : VarId) (name : Str) (exes : List Str) (s repository : Str) (hc : CleanName (name ++ '-' :: s)) (hr : PlainWord repository)
    (st : Store) (w w₁ : W) (hv : env.versionCheck (name ++ '-' :: s) false none w = (none, w₁)) :
    ∃ g', parse env (gitSetUp env (repositoryCalls x) (remoteNext name exes s [repository]) st w) = (.returned, g') ∧
      g'.store x = .one (.str repository) := by
  obtain ⟨g', h1, h2, -⟩ := words_line (env := env) (g := gitSetUp env (repositoryCalls x) (remoteNext name exes s [repository]) st w)
    ⟨_, _, _, _, rfl⟩ rfl hc rfl rfl rfl s [repository] (by simp) rfl (fun y hy => List.mem_singleton.1 hy ▸ hr) w₁ hv
    (st.set x (.one (.str repository))) w₁ ⟨repository, [], _, w₁, rfl, ⟨_, _, rfl, rfl, rfl⟩, rfl, rfl, rfl, rfl⟩
  exact ⟨g', h1, by rw [h2, Store.set_self]⟩

theorem remoteSub_ok {p : Parser W} {j : Init} (h : p.subParser = some j) (k : Init → RemoteEnd) : remoteSub p k = k j := by
  unfold remoteSub getSubParser
  rw [h]

/-- C106: `git [--] pull <repository>` and `git [--] push <repository>` do what they say. -/
theorem C106_pull_and_push (env : Env W) (exe : Str) (tail : Option (List Str)) (ht : tail = none ∨ tail = some []) (repository : Str)
    (hr : PlainWord repository) (w w₁ w₂ : W) (hv : env.versionCheck "git".toList false none w = (none, w₁)) :
    (env.versionCheck "git-pull".toList false none w₁ = (none, w₂) →
      remoteMain env (exe :: (renderLine [] tail ++ ["pull".toList, repository])) w = .pulled (.one (.str repository))) ∧
    (env.versionCheck "git-push".toList false none w₁ = (none, w₂) →
      remoteMain env (exe :: (renderLine [] tail ++ ["push".toList, repository])) w = .pushed (.one (.str repository))) := by
  constructor
  · intro hv₂
    obtain ⟨g', h1, h2, h3⟩ := remoteTop_runs env exe tail ht "pull".toList (by decide) [repository] w w₁ hv
    obtain ⟨g'', h4, h5⟩ := repository_level env 0 "git".toList [exe] "pull".toList repository (by decide) hr g'.store g'.world w₂ (by rw [h2]; exact hv₂)
    unfold remoteTop at h1
    unfold remoteMain
    dsimp only
    rw [h1, remoteSub_ok h3]
    dsimp only [remoteCaught]
    rw [if_pos (by rfl), h4]
    show RemoteEnd.pulled _ = _
    rw [h5]
  · intro hv₂
    obtain ⟨g', h1, h2, h3⟩ := remoteTop_runs env exe tail ht "push".toList (by decide) [repository] w w₁ hv
    obtain ⟨g'', h4, h5⟩ := repository_level env 1 "git".toList [exe] "push".toList repository (by decide) hr g'.store g'.world w₂ (by rw [h2]; exact hv₂)
    unfold remoteTop at h1
    unfold remoteMain
    dsimp only
    rw [h1, remoteSub_ok h3]
    dsimp only [remoteCaught]
    rw [if_neg (by exact fun h => absurd (show "git-push".toList = "git-pull".toList from h) (by decide)), if_pos (by rfl), h4]
    show RemoteEnd.pushed _ = _
    rw [h5]

/-- The two levels of `git [--] remote [--] s rest`. -/
theorem remote_runs (env : Env W) (exe : Str) (t₁ t₂ : Option (List Str)) (h₁ : t₁ = none ∨ t₁ = some []) (h₂ : t₂ = none ∨ t₂ = some []) (s : Str)
    (hs : s ∈ ["set-url".toList, "show".toList]) (rest : List Str) (w w₁ w₂ : W)
    (hv : env.versionCheck "git".toList false none w = (none, w₁)) (hv₂ : env.versionCheck "git-remote".toList false none w₁ = (none, w₂)) :
    ∃ st, (s = "set-url".toList → remoteMain env (exe :: (renderLine [] t₁ ++ "remote".toList :: (renderLine [] t₂ ++ s :: rest))) w =
        remoteCaught (parse env (gitSetUp env (repositoryCalls 2) (remoteNext "git-remote".toList [exe, "remote".toList] s rest) st w₂)).1
          (.urlSet ((parse env (gitSetUp env (repositoryCalls 2) (remoteNext "git-remote".toList [exe, "remote".toList] s rest) st w₂)).2.store 2))) ∧
      (s = "show".toList → remoteMain env (exe :: (renderLine [] t₁ ++ "remote".toList :: (renderLine [] t₂ ++ s :: rest))) w =
        remoteCaught (parse env (gitSetUp env [] (remoteNext "git-remote".toList [exe, "remote".toList] s rest) st w₂)).1 .shown) := by
  obtain ⟨g', a1, a2, a3⟩ := remoteTop_runs env exe t₁ h₁ "remote".toList (by decide) (renderLine [] t₂ ++ s :: rest) w w₁ hv
  obtain ⟨g'', b1, b2, b3⟩ := remoteLevel_runs env exe t₂ h₂ s hs rest g'.store g'.world w₂ (by rw [a2]; exact hv₂)
  have hmain : remoteMain env (exe :: (renderLine [] t₁ ++ "remote".toList :: (renderLine [] t₂ ++ s :: rest))) w =
      (if "git-remote".toList ++ '-' :: s = "git-remote-set-url".toList then
        remoteCaught (parse env (gitSetUp env (repositoryCalls 2) (remoteNext "git-remote".toList [exe, "remote".toList] s rest) g''.store g''.world)).1
          (.urlSet ((parse env (gitSetUp env (repositoryCalls 2) (remoteNext "git-remote".toList [exe, "remote".toList] s rest) g''.store g''.world)).2.store 2))
      else if "git-remote".toList ++ '-' :: s = "git-remote-show".toList then
        remoteCaught (parse env (gitSetUp env [] (remoteNext "git-remote".toList [exe, "remote".toList] s rest) g''.store g''.world)).1 .shown
      else .unhandled ("git-remote".toList ++ '-' :: s)) := by
    unfold remoteTop at a1
    unfold remoteMain
    dsimp only
    rw [a1, remoteSub_ok a3]
    dsimp only [remoteCaught]
    rw [if_neg (by exact fun h => absurd (show "git-remote".toList = "git-pull".toList from h) (by decide)),
      if_neg (by exact fun h => absurd (show "git-remote".toList = "git-push".toList from h) (by decide)), if_pos (by rfl)]
    unfold remoteLevel at b1
    unfold runRemote
    dsimp only
    rw [b1, remoteSub_ok b3]
    rfl
  refine ⟨g''.store, fun h => ?_, fun h => ?_⟩
  · rw [hmain, if_pos (by rw [h]; decide), b2]
  · rw [hmain, if_neg (by rw [h]; decide), if_pos (by rw [h]; decide), b2]

/-- C106: `git [--] remote [--] set-url <repository>` does what it says. -/
theorem C106_set_url (env : Env W) (exe : Str) (t₁ t₂ : Option (List Str)) (h₁ : t₁ = none ∨ t₁ = some []) (h₂ : t₂ = none ∨ t₂ = some [])
    (repository : Str) (hr : PlainWord repository) (w w₁ w₂ w₃ : W) (hv : env.versionCheck "git".toList false none w = (none, w₁))
    (hv₂ : env.versionCheck "git-remote".toList false none w₁ = (none, w₂)) (hv₃ : env.versionCheck "git-remote-set-url".toList false none w₂ = (none, w₃)) :
    remoteMain env (exe :: (renderLine [] t₁ ++ "remote".toList :: (renderLine [] t₂ ++ ["set-url".toList, repository]))) w =
      .urlSet (.one (.str repository)) := by
  obtain ⟨st, h, -⟩ := remote_runs env exe t₁ t₂ h₁ h₂ "set-url".toList (by decide) [repository] w w₁ w₂ hv hv₂
  obtain ⟨g', h4, h5⟩ := repository_level env 2 "git-remote".toList [exe, "remote".toList] "set-url".toList repository (by decide) hr st w₂ w₃ hv₃
  rw [h rfl, h4]
  show RemoteEnd.urlSet _ = _
  rw [h5]

/-- C106: `git [--] remote [--] show` prints a page, whatever the rest of the world is like, and with further arguments (that are not reserved) it ends
as `BareEnds` says. -/
theorem C106_show (env : Env W) (exe : Str) (t₁ t₂ : Option (List Str)) (h₁ : t₁ = none ∨ t₁ = some []) (h₂ : t₂ = none ∨ t₂ = some [])
    (rest : List Str) (hres : ∀ a ∈ rest, ¬ Reserved a) (w w₁ w₂ w₃ : W) (hv : env.versionCheck "git".toList false none w = (none, w₁))
    (hv₂ : env.versionCheck "git-remote".toList false none w₁ = (none, w₂)) (hv₃ : env.versionCheck "git-remote-show".toList false none w₂ = (none, w₃)) :
    (rest = [] → (∀ p st, (env.printPage .shortHelp p st w₃).1 = none) →
      remoteMain env (exe :: (renderLine [] t₁ ++ "remote".toList :: (renderLine [] t₂ ++ "show".toList :: rest))) w = .printed .shortHelp) ∧
    (rest ≠ [] → ∃ o, BareEnds rest o ∧
      remoteMain env (exe :: (renderLine [] t₁ ++ "remote".toList :: (renderLine [] t₂ ++ "show".toList :: rest))) w = remoteCaught o .shown) := by
  obtain ⟨st, -, h⟩ := remote_runs env exe t₁ t₂ h₁ h₂ "show".toList (by decide) rest w w₁ w₂ hv hv₂
  obtain ⟨b1, b2⟩ := C106_bare_ends_partial env (gitSetUp env [] (remoteNext "git-remote".toList [exe, "remote".toList] "show".toList rest) st w₂)
    ⟨rfl, show CleanName "git-remote-show".toList by decide, nofun⟩ rfl rfl rfl "show".toList rest rfl hres w₃ hv₃
  rw [h rfl]
  refine ⟨fun he hp => ?_, fun he => ⟨_, b2 he, rfl⟩⟩
  rw [b1 he, hp]
  rfl

/-! ### Cases -/

def exRemote (args : List String) : RemoteEnd := remoteMain exEnv (("git" :: args).map String.toList) ()

example : exRemote ["pull", "origin"] = .pulled (.one (.str "origin".toList)) ∧ exRemote ["--", "push", "origin"] = .pushed (.one (.str "origin".toList)) ∧
    exRemote ["remote", "set-url", "origin"] = .urlSet (.one (.str "origin".toList)) := by decide +kernel

example : exRemote ["remote", "show"] = .printed .shortHelp ∧ exRemote ["remote", "show", "--"] = .shown ∧ exRemote ["remote", "show", ""] = .shown ∧
    exRemote ["remote", "show", "--", "--"] = .reported .tooManyArguments ∧ exRemote ["remote", "show", "-x"] = .reported .unknownOption ∧
    exRemote ["remote", "show", "origin"] = .reported .tooManyArguments ∧ exRemote ["remote", "show", "--version-check", "0"] = .printed .shortHelp := by
  decide +kernel

example : exRemote ["--"] = .reported .designError ∧ exRemote ["remote", "--"] = .reported .designError ∧ exRemote ["remote"] = .printed .shortHelp ∧
    exRemote ["remote", "add"] = .reported .userInputError := by decide +kernel

/-- The hypotheses of `C106_pull_and_push`, `C106_set_url` and `C106_show`. -/
example : PlainWord "origin".toList ∧ (∀ name, exEnv.versionCheck name false none () = (none, ())) ∧
    (∀ p st, (exEnv.printPage .shortHelp p st ()).1 = none) ∧ ∀ a ∈ ["--".toList, []], ¬ Reserved a :=
  ⟨⟨by decide, Or.inr (by decide)⟩, fun _ => rfl, fun _ _ => rfl, by decide +kernel⟩

/-- The documented program suggests that `git remote show` runs; there is no environment in which it does. -/
theorem C106_show_alone_never_runs (env : Env W) (exe : Str) (w : W) : remoteMain env [exe, "remote".toList, "show".toList] w ≠ .shown := by
  intro h
  obtain ⟨exe', pre, pre', rest, ha, -, -, a, hm, -⟩ := C106_show_needs_marker env _ w h
  have : rest = [] := by
    have := congrArg List.length ha
    simp at this
    exact List.eq_nil_of_length_eq_zero (by omega)
  rw [this] at hm
  cases hm

end Sharg
