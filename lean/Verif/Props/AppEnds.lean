import Verif.Spec.AppEnds
import Verif.Props.Ends
import Verif.Props.Apps
import Verif.Props.Git

/-!
# How `parse()` ends on any arguments, and how applications with subcommands end: C101
-/

namespace Sharg

open Spec

variable {W : Type}

theorem nextParser_eq (p : Parser W) (exe : Str) (args : List Str) (ha : p.arguments = exe :: args) (stop : Stop) :
    nextParser p stop = stop.sub?.map (subInit p.appName (p.executableName ++ [exe])) := by
  cases stop <;> simp [nextParser, Stop.sub?, subInit, ha]

theorem decided_page {toks : List Tok} {stop : Stop} {f : Format} (h : PageWanted toks stop f) : decided toks stop = f := by
  rcases h with h | ⟨h1, h2, h3, rfl⟩
  · simp [decided, h]
  · simp [decided, h1, h2, h3]

theorem decided_line {toks : List Tok} {stop : Stop} (h : ∀ f, ¬ PageWanted toks stop f) : lastRequest toks = none ∧ decided toks stop = .parse := by
  have h1 : lastRequest toks = none := by
    cases hl : lastRequest toks with
    | none => rfl
    | some f => exact absurd (Or.inl hl) (h f)
  refine ⟨h1, ?_⟩
  unfold decided
  rw [h1]
  dsimp only
  rw [if_pos]
  by_cases h2 : kept toks ++ stop.kept = []
  · exact Or.inr fun h3 => h .shortHelp (Or.inr ⟨h1, h2, h3, rfl⟩)
  · exact Or.inl h2

theorem page_special {options subs args : List Str} {toks : List Tok} {stop : Stop} (hr : Reading options subs args toks stop) {f : Format}
    (h : PageWanted toks stop f) : f ≠ .parse := by
  rcases h with h | ⟨-, -, -, rfl⟩
  · exact (lastRequest_special _ _ _ hr.toksOk f h).2
  · nofun

/-- C101: the description is right: `parse()` ends as described. -/
theorem C101_call (env : Env W) (g : Prog W) (hg : Reachable env g) (hn : g.parser.parseWasCalled = false) (st' : Store) (w' : W) (o : Outcome)
    (next : Option Init) (h : CallEnds env g st' w' o next) :
    (parse env g).1 = o ∧ (parse env g).2.store = st' ∧ (parse env g).2.world = w' ∧ (o = .returned → (parse env g).2.parser.subParser = next) := by
  have hready : CleanParser g.parser → Ready g.parser := fun h => ⟨hn, h.app, h.subs⟩
  cases h with
  | badName h =>
    rw [parse_not_ready env g (fun hr => h ⟨hr.app, hr.subs⟩)]
    exact ⟨rfl, rfl, rfl, nofun⟩
  | noArguments hc ha =>
    rw [parse_no_arguments env g (hready hc) ha]
    exact ⟨rfl, rfl, rfl, nofun⟩
  | refused hc ha hr he =>
    rw [parse_reading env g (hready hc) _ _ ha _ _ hr, he]
    exact ⟨rfl, rfl, rfl, nofun⟩
  | @checkThrows exe args toks stop e w' hc ha hr he hv =>
    rw [parse_reading env g (hready hc) _ _ ha _ _ hr, he]
    dsimp only
    unfold checkAndParse
    dsimp only
    rw [show env.versionCheck (scannedParser g.parser exe toks stop).appName (scannedParser g.parser exe toks stop).notify
      (scannedParser g.parser exe toks stop).userDecision g.world = (some e, w') from hv]
    exact ⟨rfl, rfl, rfl, nofun⟩
  | @page exe args toks stop f w₁ w' r hc ha hr he hf hv hpr =>
    have hp := parse_reading env g (hready hc) _ _ ha _ _ hr
    rw [he, decided_page hf] at hp
    dsimp only at hp
    have hpar : (parse env g).2.parser = scannedParser g.parser exe toks stop := by rw [hp, checkAndParse_parser]
    rw [hpar] at hpr
    rw [hp]
    unfold checkAndParse
    dsimp only
    rw [show env.versionCheck (scannedParser g.parser exe toks stop).appName (scannedParser g.parser exe toks stop).notify
      (scannedParser g.parser exe toks stop).userDecision g.world = (none, w₁) from hv]
    dsimp only
    rw [parseFormat_page env f (page_special hr hf)]
    dsimp only
    rw [hpr]
    cases r <;> exact ⟨rfl, rfl, rfl, nofun⟩
  | @line exe args toks stop w₁ w' items tail st' r hc ha hr he hf hv hk hok hl =>
    have hp := parse_reading env g (hready hc) _ _ ha _ _ hr
    rw [he, (decided_line hf).2] at hp
    dsimp only at hp
    unfold checkAndParse at hp
    dsimp only at hp
    rw [show env.versionCheck (scannedParser g.parser exe toks stop).appName (scannedParser g.parser exe toks stop).notify
      (scannedParser g.parser exe toks stop).userDecision g.world = (none, w₁) from hv] at hp
    dsimp only at hp
    unfold parseFormat at hp
    dsimp only at hp
    rw [show (scannedParser g.parser exe toks stop).formatArguments = renderLine items tail from hk,
      show (scannedParser g.parser exe toks stop).operations = g.parser.operations from rfl] at hp
    have hp' : parse env g = outcomeOf (scannedParser g.parser exe toks stop)
        (formatParse env.ndebug (decls g) (renderLine items tail) g.store w₁).core := by
      rw [hp]
      show _ = outcomeOf _ (formatParse env.ndebug (declsOf g.parser.operations) (renderLine items tail) g.store w₁).core
      cases formatParse env.ndebug (declsOf g.parser.operations) (renderLine items tail) g.store w₁ <;> rfl
    obtain ⟨p, hpe⟩ := (ends_of_core env hp' hg hok st' w' r).2 hl
    have hpar : (parse env g).2.parser = scannedParser g.parser exe toks stop := by
      rw [hp']
      cases (formatParse env.ndebug (decls g) (renderLine items tail) g.store w₁).core <;> rfl
    refine ⟨by rw [hpe], by rw [hpe], by rw [hpe], fun _ => ?_⟩
    rw [hpar, nextParser_eq g.parser exe args ha]
    rfl

/-- C101: the description is complete: every call on arguments that can be understood has an ending. -/
theorem C101_call_has_ending (env : Env W) (g : Prog W) (hu : Understandable g) : ∃ st' w' o next, CallEnds env g st' w' o next := by
  by_cases hc : CleanParser g.parser
  · cases ha : g.parser.arguments with
    | nil => exact ⟨_, _, _, _, .noArguments hc ha⟩
    | cons exe args =>
      obtain ⟨toks, stop, hr⟩ := reading_exists g.parser.options g.parser.subcommands args
      cases he : stop.exn? with
      | some e => exact ⟨_, _, _, _, .refused hc ha hr he⟩
      | none =>
        cases hv : env.versionCheck g.parser.appName g.parser.notify (lastCheck toks) g.world with
        | mk e w₁ =>
          cases e with
          | some e => exact ⟨_, _, _, _, .checkThrows hc ha hr he hv⟩
          | none =>
            by_cases hf : ∃ f, PageWanted toks stop f
            · obtain ⟨f, hf⟩ := hf
              exact ⟨_, _, _, _, .page hc ha hr he hf hv rfl⟩
            · have hf : ∀ f, ¬ PageWanted toks stop f := fun f h => hf ⟨f, h⟩
              obtain ⟨items, tail, hk, hok⟩ := hu exe args toks stop ha hr he hf
              obtain ⟨st', w', r, hl⟩ := lineEnds_exists env.ndebug (declsOf g.parser.operations) items tail g.store w₁
              exact ⟨_, _, _, _, .line hc ha hr he hf hv hk hok hl⟩
  · exact ⟨_, _, _, _, .badName hc⟩

theorem level_notParsed (app : App W) (env : Env W) (i : Init) (st : Store) (w : W) : (app.level env i st w).parser.parseWasCalled = false := by
  have key : ∀ (cs : List (Call W)) (g : Prog W), (runActions env (cs.map .call) g).parser.parseWasCalled = g.parser.parseWasCalled := by
    intro cs
    induction cs with
    | nil => intro g; rfl
    | cons c cs ih => intro g; exact (ih _).trans (call_keeps env c g).2.2.2.2.1
  exact key _ _

/-- C101: an application ends as described. -/
theorem C101_application (env : Env W) (app : App W) (i : Init) (st : Store) (w : W) (st' : Store) (w' : W) (o : Outcome)
    (h : AppEnds env app i st w st' w' o) : ∃ vs, AppRuns env app i st w o st' w' vs := by
  induction h with
  | @last i st st' w w' o next hc hs =>
    obtain ⟨h1, h2, h3, h4⟩ := C101_call env _ (level_reachable app env i st w) (level_notParsed app env i st w) _ _ _ _ hc
    cases hp : parse env (app.level env i st w) with
    | mk o₁ g' =>
      rw [hp] at h1 h2 h3 h4
      dsimp only at h1 h2 h3 h4
      subst h1 h2 h3
      refine ⟨_, .last hp ?_⟩
      by_cases ho : o₁ = .returned
      · rcases hs with hs | hs
        · exact Or.inl hs
        · exact Or.inr ((h4 ho).trans hs)
      · exact Or.inl ho
  | @sub i j st st₁ st' w w₁ w' o hc _ ih =>
    obtain ⟨vs, hr⟩ := ih
    obtain ⟨h1, h2, h3, h4⟩ := C101_call env _ (level_reachable app env i st w) (level_notParsed app env i st w) _ _ _ _ hc
    cases hp : parse env (app.level env i st w) with
    | mk o₁ g' =>
      rw [hp] at h1 h2 h3 h4
      dsimp only at h1 h2 h3 h4
      subst h1 h2 h3
      exact ⟨_, .sub hp (h4 rfl) hr⟩

theorem appEnds_exists (env : Env W) (app : App W) (i : Init) (st : Store) (w : W) (h : AppUnderstandable env app i st w) :
    ∃ st' w' o, AppEnds env app i st w st' w' o := by
  induction h with
  | @mk i st w hu _ ih =>
    obtain ⟨st₁, w₁, o, next, hc⟩ := C101_call_has_ending env _ hu
    by_cases ho : o = .returned
    · subst ho
      cases next with
      | none => exact ⟨_, _, _, .last hc (Or.inr rfl)⟩
      | some j =>
        obtain ⟨st', w', o, he⟩ := ih _ _ _ hc
        exact ⟨_, _, _, .sub hc he⟩
    · exact ⟨_, _, _, .last hc (Or.inl ho)⟩

/-- C101: exactly as described: the endings of the application are the ones described, and there is one. -/
theorem C101_application_ending (env : Env W) (app : App W) (i : Init) (st : Store) (w : W) (hu : AppUnderstandable env app i st w) (st' : Store)
    (w' : W) (o : Outcome) : AppEnds env app i st w st' w' o ↔ ∃ vs, AppRuns env app i st w o st' w' vs := by
  refine ⟨C101_application env app i st w st' w' o, ?_⟩
  rintro ⟨vs, h⟩
  obtain ⟨st₂, w₂, o₂, he⟩ := appEnds_exists env app i st w hu
  obtain ⟨vs₂, h2⟩ := C101_application env app i st w _ _ _ he
  obtain ⟨rfl, rfl, rfl, -⟩ := C82_runs_unique env app i st w _ _ _ _ _ _ _ _ h h2
  exact he

/-- C101: a mistake at one level ends the application there: the levels below are not reached, whatever is written behind the subcommand. -/
theorem C101_mistake_stops (env : Env W) (app : App W) (i : Init) (st : Store) (w : W) (items : List Item) (tail : Option (List Str)) (s : Str)
    (rest : List Str) (hl : LevelGiven (app.level env i st w) items tail s rest)
    (hit : ∀ it ∈ items, it.Ok (declsOf (app.level env i st w).parser.operations)) (w₁ : W) (hv : CheckPasses env (app.level env i st w) w₁)
    (st' : Store) (w' : W) (e : Exn) (h : LineEnds env.ndebug (declsOf (app.level env i st w).parser.operations) items tail st w₁ st' w' (some e)) :
    AppRuns env app i st w (.threw e) st' w' [⟨i, renderLine items tail⟩] := by
  obtain ⟨exe, ha⟩ := hl.arguments
  have hg := level_reachable app env i st w
  obtain ⟨toks, hr, h1, h2, h3⟩ := subRequested_line (inv_reachable hg) hl hit
  have hf : ∀ f, ¬ PageWanted toks (.subcommand s rest) f := by
    rintro f (hx | ⟨-, -, hx, -⟩)
    · rw [h1] at hx; cases hx
    · cases hx
  have hk : kept toks ++ Stop.kept (.subcommand s rest) = renderLine items tail := by
    show kept toks ++ [] = _
    rw [h3, List.append_nil]
  have hok : NeatLine (declsOf (app.level env i st w).parser.operations) items tail := by
    refine ⟨fun it hi => ((hit it hi).said (idsOk_reachable hg)).1, ?_⟩
    rintro ws rfl
    rcases hl.noTail with hx | hx <;> cases hx
    intro w hw; cases hw
  have hst : (app.level env i st w).store = st := (level_keeps app env i st w).2.2.2.2.1
  have hc : CallEnds env (app.level env i st w) st' w' (endOutcome (some e)) _ :=
    .line ⟨hl.cleanName, hl.cleanSubs⟩ ha hr rfl hf (by rw [h2]; exact hv) hk hok (by rw [hst]; exact h)
  obtain ⟨e1, e2, e3, -⟩ := C101_call env _ hg hl.notParsed _ _ _ _ hc
  have hfa := (C16_C13_what_remains env _ ⟨hl.notParsed, hl.cleanName, hl.cleanSubs⟩ _ _ ha _ _ hr).1
  cases hp : parse env (app.level env i st w) with
  | mk o₁ g' =>
    rw [hp] at e1 e2 e3 hfa
    dsimp only at e1 e2 e3 hfa
    subst e1 e2 e3
    rw [← hk, ← hfa]
    exact .last hp (Or.inl nofun)

/-- One reading is enough to see that arguments can be understood. -/
theorem understandable_of_reading {g : Prog W} {exe : Str} {args : List Str} {toks : List Tok} {stop : Stop} {items : List Item}
    {tail : Option (List Str)} (ha : g.parser.arguments = exe :: args) (hr : Reading g.parser.options g.parser.subcommands args toks stop)
    (hk : kept toks ++ stop.kept = renderLine items tail) (hok : NeatLine (declsOf g.parser.operations) items tail) : Understandable g := by
  intro exe' args' toks' stop' ha' hr' _ _
  rw [ha] at ha'
  cases ha'
  obtain ⟨-, -, -, h, -⟩ := reading_unique _ _ _ _ _ _ _ hr hr'
  exact ⟨items, tail, by rw [← h, hk], hok⟩

/-! ## Examples -/

instance (b : Bool) (v : Str) : Decidable (CheckValue b v) := by unfold CheckValue; infer_instance

instance (D : Decls W) (it : Item) : Decidable (it.Said D) :=
  match it with
  | .flags _ => inferInstanceAs (Decidable (_ ∧ _ ∧ _ ∧ _))
  | .longFlag _ => inferInstanceAs (Decidable (_ ∧ _))
  | .short c f v => inferInstanceAs (Decidable (Item.Ok D (.short c f v)))
  | .long s p v => inferInstanceAs (Decidable (Item.Ok D (.long s p v)))
  | .word w => inferInstanceAs (Decidable (Item.Ok D (.word w)))

instance (D : Decls W) (it : Item) : Decidable (it.Known D) :=
  match it with
  | .flags cs => inferInstanceAs (Decidable (∀ c ∈ cs, ∃ f ∈ D.flags, f.short = c))
  | .longFlag s => inferInstanceAs (Decidable (∃ f ∈ D.flags, f.long = s))
  | .short _ _ _ => inferInstanceAs (Decidable True)
  | .long _ _ _ => inferInstanceAs (Decidable True)
  | .word _ => inferInstanceAs (Decidable True)

instance (D : Decls W) (items : List Item) : Decidable (Suspect D items) := by unfold Suspect; infer_instance

/-- `app -v --version-check 0 add -n 3x file` -/
def exBadInit : Init :=
  { exInit with
      arguments := ["app", "-v", "--version-check", "0", "add", "-n", "3x", "file"].map String.toList
      subcommands := ["add".toList, "remove".toList] }

def exBadSub : Init :=
  { appName := "app-add".toList, arguments := ["add", "-n", "3x", "file"].map String.toList,
    notify := false, subcommands := [], executableName := ["app".toList] }

def exBadTop : Prog Unit := exApp.level exEnv exBadInit exStore ()

def exBadLast : Prog Unit := exApp.level exEnv exBadSub exAppStore ()

theorem exBadTop_decls : declsOf exBadTop.parser.operations = ⟨[], [⟨'v', "verbose".toList, 3⟩], []⟩ := by
  have h := operations_of_length exEnv (exApp exBadInit exStore ()) (start exBadInit exStore ()) (by decide +kernel)
  unfold exBadTop App.level
  rw [h]
  rfl

theorem exBadLast_decls : declsOf exBadLast.parser.operations =
    ⟨[⟨'n', "num".toList, 0, false, .integer (-128) 127, false, fun _ w => (true, w)⟩], [],
      [⟨6, false, .string, fun _ w => (true, w)⟩]⟩ := by
  have h := operations_of_length exEnv (exApp exBadSub exAppStore ()) (start exBadSub exAppStore ()) (by decide +kernel)
  unfold exBadLast App.level
  rw [h]
  rfl

def exBadTopToks : List Tok := [.plain "-v".toList, .check false "0".toList]

def exBadItems : List Item := [.short 'n' .separate "3x".toList, .word "file".toList]

theorem exBadTop_reading : Reading exBadTop.parser.options exBadTop.parser.subcommands
    (["-v", "--version-check", "0", "add", "-n", "3x", "file"].map String.toList) exBadTopToks
    (.subcommand "add".toList (["-n", "3x", "file"].map String.toList)) := by
  refine ⟨by decide, ?_, ?_⟩
  · intro t ht
    simp only [exBadTopToks, List.mem_cons, List.not_mem_nil, or_false] at ht
    rcases ht with rfl | rfl
    · exact ⟨by decide +kernel, by decide +kernel, by decide +kernel, fun _ => rfl⟩
    · exact ⟨by decide +kernel, by decide +kernel, by decide +kernel⟩
  · exact ⟨by decide +kernel, by decide +kernel⟩

theorem exBadLast_reading : Reading exBadLast.parser.options exBadLast.parser.subcommands (["-n", "3x", "file"].map String.toList)
    [.option "-n".toList "3x".toList, .plain "file".toList] .atEnd := by
  refine ⟨by decide, ?_, trivial⟩
  intro t ht
  simp only [List.mem_cons, List.not_mem_nil, or_false] at ht
  rcases ht with rfl | rfl
  · show _ ∈ _
    decide +kernel
  · exact ⟨by decide +kernel, by decide +kernel, by decide +kernel, fun h => absurd rfl h⟩

theorem exBad_top : CallEnds exEnv exBadTop exAppStore () .returned (some exBadSub) := by
  have hst : exBadTop.store = exStore := rfl
  have hr := exBadTop_reading
  refine CallEnds.line (exe := "app".toList) (items := [.flags ['v']]) (tail := none) (w₁ := ()) (r := none) ⟨by decide +kernel, by decide +kernel⟩
    (by decide +kernel) hr rfl ?_ rfl (by decide) ?_ ?_
  · rintro f (h | ⟨-, -, h, -⟩)
    · revert h; exact nofun
    · cases h
  · rw [exBadTop_decls]
    exact ⟨by decide +kernel, fun _ h => by cases h⟩
  · rw [exBadTop_decls, hst]
    exact ⟨exStore, (), none, ⟨rfl, rfl, rfl⟩, Or.inr ⟨by decide +kernel, rfl, rfl, rfl⟩⟩

theorem exBad_last : CallEnds exEnv exBadLast (exAppStore.set 0 (.one (.int 3))) () (.threw .userInputError) none := by
  have hst : exBadLast.store = exAppStore := rfl
  have hr := exBadLast_reading
  refine CallEnds.line (exe := "add".toList) (items := exBadItems) (tail := none) (w₁ := ()) (r := some .userInputError)
    ⟨by decide +kernel, by decide +kernel⟩ (by decide +kernel) hr rfl ?_ rfl (by decide) ?_ ?_
  · rintro f (h | ⟨-, h, -⟩)
    · revert h; exact nofun
    · revert h; decide
  · rw [exBadLast_decls]
    exact ⟨by decide +kernel, fun _ h => by cases h⟩
  · rw [exBadLast_decls, hst]
    have h0 : ReadsTo (.integer (-128) 127) "3x".toList (some (.int 3)) (some .userInputError) :=
      ReadsTo.beginning (a := "3".toList) (b := "x".toList)
        (((readElem_iff (.integer (-128) 127) "3".toList (.int 3)).1 (by decide +kernel)).elim fun v h => by
          obtain ⟨h1, h2⟩ := h; cases h1; exact h2) (by decide) (by decide)
    refine ⟨exAppStore.set 0 (.one (.int 3)), (), some .userInputError,
      ⟨exAppStore.set 0 (.one (.int 3)), (), some .userInputError, ?_, rfl, rfl, rfl⟩, rfl, rfl, rfl⟩
    unfold OptionEnds
    rw [show shortTexts _ exBadItems = ["3x".toList] by decide +kernel, show longTexts _ exBadItems = [] by decide +kernel, if_neg (by simp)]
    exact ⟨_, _, ⟨some .userInputError, .stopWritten h0, rfl⟩, rfl, rfl, rfl⟩

/-- The flag of the first level is set and the number in front of the garbage is stored when the second level throws. -/
example : ∃ vs, AppRuns exEnv exApp exBadInit exStore () (.threw .userInputError) (exAppStore.set 0 (.one (.int 3))) () vs :=
  C101_application _ _ _ _ _ _ _ _ (.sub exBad_top (.last exBad_last (Or.inl nofun)))

/-- The application is understandable on this line. -/
theorem exBad_understandable : AppUnderstandable exEnv exApp exBadInit exStore () := by
  have hr := exBadTop_reading
  have hr₂ := exBadLast_reading
  refine .mk (understandable_of_reading (g := exBadTop) (exe := "app".toList) (items := [.flags ['v']]) (tail := none) (by decide +kernel) hr (by decide) ?_) ?_
  · rw [exBadTop_decls]
    exact ⟨by decide +kernel, fun _ h => by cases h⟩
  · intro st₁ w₁ j hc
    obtain ⟨-, h2, -, h4⟩ := C101_call exEnv _ (level_reachable exApp exEnv exBadInit exStore ()) rfl _ _ _ _ hc
    obtain ⟨-, k2, -, k4⟩ := C101_call exEnv exBadTop (level_reachable exApp exEnv exBadInit exStore ()) rfl _ _ _ _ exBad_top
    have e1 : exAppStore = st₁ := k2.symm.trans h2
    have e2 : some exBadSub = some j := (k4 rfl).symm.trans (h4 rfl)
    cases e2
    subst e1
    refine .mk (understandable_of_reading (g := exBadLast) (exe := "add".toList) (items := exBadItems) (tail := none) (by decide +kernel) hr₂ (by decide) ?_) ?_
    · rw [exBadLast_decls]
      exact ⟨by decide +kernel, fun _ h => by cases h⟩
    · intro st₂ w₂ j₂ hc₂
      obtain ⟨h1, -⟩ := C101_call exEnv _ (level_reachable exApp exEnv exBadSub exAppStore ()) rfl _ _ _ _ hc₂
      obtain ⟨k1, -⟩ := C101_call exEnv exBadLast (level_reachable exApp exEnv exBadSub exAppStore ()) rfl _ _ _ _ exBad_last
      have := k1.symm.trans h1
      cases this

example (st' : Store) (o : Outcome) (vs : List Visit) (h : AppRuns exEnv exApp exBadInit exStore () o st' () vs) :
    AppEnds exEnv exApp exBadInit exStore () st' () o :=
  (C101_application_ending exEnv exApp exBadInit exStore () exBad_understandable st' () o).2 ⟨vs, h⟩

/-- Unknown subcommand, help at the second level, nothing at all. -/
example : (parse exEnv (exApp.level exEnv { exBadInit with arguments := ["app", "-v", "ad"].map String.toList } exStore ())).1 =
    .threw .userInputError := by decide +kernel

example : ∃ w', CallEnds exEnv (exApp.level exEnv { exBadInit with arguments := ["app".toList] } exStore ()) exStore w'
    (.exited .shortHelp) none :=
  ⟨_, CallEnds.page (exe := "app".toList) (args := []) (toks := []) (stop := .atEnd) (f := .shortHelp) (w₁ := ()) (r := none)
    ⟨by decide +kernel, by decide +kernel⟩ (by decide +kernel) ⟨rfl, by simp, trivial⟩ rfl (Or.inr ⟨rfl, rfl, rfl, rfl⟩) rfl rfl⟩

/-- `app -vv add …`: the repeated flag ends the application at the first level, whatever is behind `add`. -/
def exStopInit (rest : List Str) : Init :=
  { exInit with arguments := "app".toList :: "-vv".toList :: "add".toList :: rest, subcommands := ["add".toList, "remove".toList] }

theorem exStop_decls (rest : List Str) : declsOf (exApp.level exEnv (exStopInit rest) exStore ()).parser.operations =
    ⟨[], [⟨'v', "verbose".toList, 3⟩], []⟩ := by rfl

example (rest : List Str) : AppRuns exEnv exApp (exStopInit rest) exStore () (.threw .unknownOption) exAppStore ()
    [⟨exStopInit rest, ["-vv".toList]⟩] := by
  refine C101_mistake_stops exEnv exApp (exStopInit rest) exStore () [.flags ['v', 'v']] none "add".toList rest ?_ ?_ () rfl exAppStore ()
    .unknownOption ?_
  · exact ⟨rfl, (by decide +kernel : CleanName "app".toList), (by decide +kernel : ∀ s ∈ ["add".toList, "remove".toList], CleanName s),
      (by decide +kernel : ∀ s ∈ ["add".toList, "remove".toList], s.head? ≠ some '-'), (by decide +kernel : "add".toList ∈ ["add".toList, "remove".toList]),
      ⟨"app".toList, rfl⟩, by simp, Or.inl rfl, by simp⟩
  · rw [exStop_decls]
    decide +kernel
  · rw [exStop_decls]
    exact ⟨exStore, (), none, ⟨rfl, rfl, rfl⟩, Or.inl ⟨Or.inl (by decide +kernel), rfl, rfl, rfl⟩⟩

end Sharg
