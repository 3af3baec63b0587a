import Verif.Props.Success

/-!
# Properties C19 (exceptions), C23, C31, C32, C58
-/

set_option linter.unusedSimpArgs false

namespace Sharg

open Spec

variable {W : Type}

/-! ## C23, C31 -/

/-- C23 and C31, for well-formed lines (in particular each list option is given with one identifier) and, in release
builds, without out-of-range elements: if `parse()` returns, a list option that was given contains exactly the elements
denoted by its values, in command line order; so does a positional list for its words. -/
theorem C23_C31_list_holds_all_values_partial (env : Env W) (g g' : Prog W) (hg : Reachable env g) (items : List Item)
    (tail : Option (List Str)) (hl : LineGiven g items tail) (hok : LineOk (decls g) items tail)
    (hv : VarsDistinct (decls g)) (hnd : env.ndebug = false ∨ ListsRepresentable (decls g) items tail)
    (h : parse env g = (.returned, g')) :
    (∀ d ∈ (decls g).options, d.isList = true → given d items ≠ [] →
      ∃ es, g'.store d.var = .many es ∧ DenoteAll d.ty (given d items) es ∧ es.length = (given d items).length) ∧
    PositionalValues (decls g).positionals (words items tail) g'.store := by
  obtain ⟨w₁, _, hm⟩ := C17_only_meaningful_lines_partial env g g' hg items tail hl hok hnd h
  obtain ⟨hdel, _, _⟩ := line_delivered hv hm
  refine ⟨fun d hd hli hgi => ?_, hdel.positionals⟩
  have := hdel.value d hd hgi
  rw [hli] at this
  obtain ⟨es, h1, h2⟩ := this
  refine ⟨es, h1, h2, ?_⟩
  have key : ∀ (ts : List Str) (es : List Elem), DenoteAll d.ty ts es → es.length = ts.length := by
    intro ts
    induction ts with
    | nil => intro es h; cases es with
      | nil => rfl
      | cons _ _ => exact absurd h (by simp [DenoteAll])
    | cons t ts ih => intro es h; cases es with
      | nil => exact absurd h (by simp [DenoteAll])
      | cons e es => simp [ih es h.2]
  exact key _ _ h2

/-- C31: a list element that cannot be read makes `parse()` throw: `user_input_error`, or, if it is a number out of
range, a failed assertion in debug builds. The elements in front of it are fine, as are the options before. -/
theorem C31_bad_element_reported_partial (env : Env W) (g : Prog W) (hg : Reachable env g) (items : List Item)
    (tail : Option (List Str)) (hl : LooseGiven g items tail) (w₁ : W) (hv : CheckPasses env g w₁)
    (huni : ∀ d ∈ (decls g).options, d.isList = true → Uniform d items)
    (front back : List (OptDecl W)) (d : OptDecl W) (hsplit : (decls g).options = front ++ d :: back) (st₁ : Store) (w₂ : W)
    (hm : OptionsMean items front g.store w₁ st₁ w₂) (hli : d.isList = true) (good more : List Str) (t : Str)
    (hgiven : given d items = good ++ t :: more) (es : List Elem) (hgood : DenoteAll d.ty good es) (hbad : BadText d.ty t) :
    (¬ OutOfRange d.ty t → ∃ g', parse env g = (.threw .userInputError, g')) ∧
    (OutOfRange d.ty t → env.ndebug = false → ∃ g', parse env g = (.threw .assertFailed, g')) := by
  have key : ∀ e, (∀ c : Core W, lift (appendList env.ndebug d.ty d.var t) c = .err e c) →
      ∃ g', parse env g = (.threw e, g') := by
    intro e he
    have h1 := absOption_list_bad env.ndebug d hli good more es t hgood e he (st₁, w₂)
    rw [← hgiven, ← absOption_uniform _ _ _ (huni d (by rw [hsplit]; simp) hli)] at h1
    obtain ⟨g', h, _⟩ := parse_option_error env g hg items tail hl w₁ hv huni front back d hsplit st₁ w₂ hm _ _ h1
    exact ⟨g', h⟩
  refine ⟨fun ho => key _ fun c => (lift_append_bad env.ndebug d.var hbad c).1 ho,
    fun ho hnd => key _ fun c => (lift_append_bad env.ndebug d.var hbad c).2.1 ho hnd⟩

/-- The same for the words of a positional list. -/
theorem C31_bad_word_reported_partial (env : Env W) (g : Prog W) (hg : Reachable env g) (items : List Item)
    (tail : Option (List Str)) (hl : LineGiven g items tail) (hok : LineOk (decls g) items tail) (w₁ : W)
    (hv : CheckPasses env g w₁) (st₁ : Store) (w₂ : W) (hm : OptionsMean items (decls g).options g.store w₁ st₁ w₂)
    (ps : List (PosDecl W)) (p : PosDecl W) (hsplit : (decls g).positionals = ps ++ [p]) (hp : p.isList = true)
    (ws good more : List Str) (t : Str) (hws : words items tail = ws ++ (good ++ t :: more)) (st₃ : Store) (w₃ : W)
    (hps : PositionalsMean ps ws (setFlags items (decls g).flags st₁) w₂ st₃ w₃) (es : List Elem)
    (hgood : DenoteAll p.ty good es) (hbad : BadText p.ty t) :
    (¬ OutOfRange p.ty t → ∃ g', parse env g = (.threw .userInputError, g')) ∧
    (OutOfRange p.ty t → env.ndebug = false → ∃ g', parse env g = (.threw .assertFailed, g')) := by
  have hsc : ∀ q ∈ ps, q.isList = false := by
    intro q hq
    refine positional_lists_last (inv_reachable hg) q ?_
    show q ∈ (decls g).positionals.dropLast
    rw [hsplit, List.dropLast_append_of_ne_nil (by simp)]
    exact List.mem_append_left _ hq
  have key : ∀ e, (∀ c : Core W, lift (appendList env.ndebug p.ty p.var t) c = .err e c) →
      ∃ g', parse env g = (.threw e, g') := by
    intro e he
    have h1 := absPositionals_append env.ndebug ps hsc [p] (good ++ t :: more) _ _ _ _ _ hps
    rw [absPositionals_list_bad env.ndebug p hp good more es t hgood e he (st₃, w₃), ← hsplit, ← hws] at h1
    obtain ⟨g', h, _⟩ := parse_positional_error env g hg items tail hl hok w₁ hv st₁ w₂ hm _ _ h1
    exact ⟨g', h⟩
  refine ⟨fun ho => key _ fun c => (lift_append_bad env.ndebug p.var hbad c).1 ho,
    fun ho hnd => key _ fun c => (lift_append_bad env.ndebug p.var hbad c).2.1 ho hnd⟩

/-- A program with a list of numbers, in a release build. -/
def exRelease : Env Unit := { exEnv with ndebug := true }

def exNumbers (args : List String) : Prog Unit :=
  exRun [.addOption { short := 'i', long := "ints".toList } 0 true (.integer (-128) 127) fun _ w => (true, w)]
    (args.map String.toList)

/-- C31 fails in release builds: the element 300, which does not fit into the element type, is dropped silently ... -/
theorem C31_element_lost_in_release_build :
    (parse exRelease (exNumbers ["-i", "1", "-i", "300", "-i", "2"])).1 = .returned ∧
    (parse exRelease (exNumbers ["-i", "1", "-i", "300", "-i", "2"])).2.store 0 = .many [.int 1, .int 2] := by
  decide +kernel

/-- ... and in debug builds an assertion fails (C58). -/
theorem C58_overflow_fails_assertion :
    (parse exEnv (exNumbers ["-i", "1", "-i", "300", "-i", "2"])).1 = .threw .assertFailed := by
  decide +kernel

/-- C23 fails if both identifiers of a list option are used: the values given with the short one are lost. -/
theorem C23_mixed_identifiers_lose_values :
    exReturns ["-l", "a", "--list", "b", "-l", "c", "x"] [(2, .many [.str "b".toList])] = true := by decide +kernel

/-- C19 fails for such lists: respelling one occurrence changes the result ... -/
theorem C19_respelling_changes_list :
    exReturns ["-l", "a", "-l", "b", "x"] [(2, .many [.str "a".toList, .str "b".toList])] = true ∧
    exReturns ["-l", "a", "--list", "b", "x"] [(2, .many [.str "b".toList])] = true := by decide +kernel

/-- ... and, among lines that are rejected, it may change the exception. -/
theorem C19_respelling_changes_exception :
    exThrows ["-n", "1", "-n", "x", "x"] .optionDeclaredMultipleTimes = true ∧
    exThrows ["-n", "1", "--num", "x", "x"] .userInputError = true := by decide +kernel

/-! ## C32 -/

/-- C32 fails: the variables of options read before the failure keep their new values, and a number followed by other
characters is stored before the exception is thrown. -/
theorem C32_failed_parse_changes_variables :
    exThrows ["-s", "new", "-n", "12abc", "x"] .userInputError = true ∧
    (parse exEnv (exProg ["-s", "new", "-n", "12abc", "x"])).2.store 0 = .one (.int 12) ∧
    exThrows ["-s", "new", "--list=a", "-z", "x"] .unknownOption = true ∧
    (parse exEnv (exProg ["-s", "new", "--list=a", "-z", "x"])).2.store 1 = .one (.str "new".toList) := by
  decide +kernel

/-- C32 holds for failures before the options are read: misuse of the API, unclean names, errors while looking for
predefined requests and subcommands, a failing version check; and whenever a page is printed. -/
theorem C32_early_failures_leave_variables_partial (env : Env W) (g : Prog W)
    (hearly : ¬ Ready g.parser ∨ g.parser.arguments = [] ∨
      (∃ exe args toks stop, g.parser.arguments = exe :: args ∧
        Reading g.parser.options g.parser.subcommands args toks stop ∧
        (stop.exn? ≠ none ∨ lastRequest toks ≠ none ∨ (kept toks ++ stop.kept = [] ∧ stop.sub? = none) ∨
          (env.versionCheck g.parser.appName g.parser.notify (lastCheck toks) g.world).1 ≠ none))) :
    (parse env g).2.store = g.store := by
  by_cases hp : Ready g.parser
  · rcases hearly with h | h | ⟨exe, args, toks, stop, ha, hr, h⟩
    · exact absurd hp h
    · rw [parse_no_arguments env g hp h]
    · rw [parse_reading env g hp exe args ha toks stop hr]
      cases he : stop.exn? with
      | some e => rfl
      | none =>
        have page : decided toks stop ≠ .parse →
            (checkAndParse env (decided toks stop) { g with parser := scannedParser g.parser exe toks stop }).2.store = g.store :=
          fun hd => (checkAndParse_page env _ hd _).2.1
        rcases h with h | h | ⟨h1, h2⟩ | h
        · exact absurd he h
        · refine page ?_
          unfold decided
          cases hl : lastRequest toks with
          | none => exact absurd hl h
          | some f => exact (lastRequest_special _ _ toks hr.toksOk f hl).2
        · refine page ?_
          unfold decided
          cases hl : lastRequest toks with
          | none => rw [if_neg]; · simp
                    · rw [h1, h2]; simp
          | some f => exact (lastRequest_special _ _ toks hr.toksOk f hl).2
        · dsimp only
          unfold checkAndParse
          dsimp only
          rw [show (scannedParser g.parser exe toks stop).appName = g.parser.appName from rfl,
            show (scannedParser g.parser exe toks stop).notify = g.parser.notify from rfl,
            show (scannedParser g.parser exe toks stop).userDecision = lastCheck toks from rfl]
          cases hc : env.versionCheck g.parser.appName g.parser.notify (lastCheck toks) g.world with
          | mk o w =>
            rw [hc] at h
            cases o with
            | none => exact absurd rfl h
            | some e => rfl
  · rw [parse_not_ready env g hp]

/-! ## C58 -/

/-- C58, except for three accidents: with at least one argument, `parse()` throws nothing but parser exceptions, unless
the version check or the printing of a page does so (these are modelled separately). The accidents: an enumeration
without names gives `std::out_of_range`; in debug builds a number out of range in a list fails an assertion. In
particular there is no undefined behaviour. -/
theorem C58_only_parser_errors_partial (env : Env W) (g g' : Prog W) (hg : Reachable env g) (hne : g.parser.arguments ≠ [])
    (e : Exn) (h : parse env g = (.threw e, g')) :
    e.isParserError = true ∨
    (e = .outOfRange ∧ ((∃ d ∈ (decls g).options, d.ty = .enumeration []) ∨ ∃ d ∈ (decls g).positionals, d.ty = .enumeration [])) ∨
    (e = .assertFailed ∧ env.ndebug = false ∧
      ((∃ d ∈ (decls g).options, d.isList = true ∧ ∃ t, OutOfRange d.ty t) ∨
        ∃ d ∈ (decls g).positionals, d.isList = true ∧ ∃ t, OutOfRange d.ty t)) ∨
    (CleanName g.parser.appName ∧ ∃ u, (env.versionCheck g.parser.appName g.parser.notify u g.world).1 = some e) ∨
    (∃ f p w, f ≠ .parse ∧ g.parser.SameSetup p ∧ (env.printPage f p g.store w).1 = some e) := by
  by_cases hp : Ready g.parser
  · cases ha : g.parser.arguments with
    | nil => exact absurd ha hne
    | cons exe args =>
      obtain ⟨toks, stop, hr⟩ := reading_exists g.parser.options g.parser.subcommands args
      rw [parse_reading env g hp exe args ha toks stop hr] at h
      cases he : stop.exn? with
      | some e' =>
        rw [he] at h
        injection h with h _
        injection h with h
        subst h
        left
        cases stop <;> simp [Stop.exn?] at he <;> subst he <;> rfl
      | none =>
        rw [he] at h
        dsimp only at h
        unfold checkAndParse at h
        dsimp only at h
        split at h
        · rename_i e' w hc
          injection h with h _
          injection h with h
          subst h
          exact Or.inr (Or.inr (Or.inr (Or.inl ⟨hp.app, _, congrArg Prod.fst hc⟩)))
        · unfold parseFormat at h
          split at h
          · split at h
            · simp at h
            · rename_i e' s hf
              injection h with h _
              injection h with h
              subst h
              rcases throws_formatParse env.ndebug (decls g) (positional_lists_last (inv_reachable hg)) _ _ _ _ _ hf with
                h | ⟨d, hd, h⟩ | ⟨d, hd, h⟩
              · exact Or.inl (Exn.isParserError_of_user h)
              · rcases h with h | ⟨h1, h2⟩ | ⟨h1, h2, h3, h4⟩
                · exact Or.inl (Exn.isParserError_of_user h)
                · exact Or.inr (Or.inl ⟨h1, Or.inl ⟨d, hd, h2⟩⟩)
                · exact Or.inr (Or.inr (Or.inl ⟨h1, h2, Or.inl ⟨d, hd, h3, h4⟩⟩))
              · rcases h with h | ⟨h1, h2⟩ | ⟨h1, h2, h3, h4⟩
                · exact Or.inl (Exn.isParserError_of_user h)
                · exact Or.inr (Or.inl ⟨h1, Or.inr ⟨d, hd, h2⟩⟩)
                · exact Or.inr (Or.inr (Or.inl ⟨h1, h2, Or.inr ⟨d, hd, h3, h4⟩⟩))
          · split at h
            · rename_i e' w hc
              injection h with h _
              injection h with h
              subst h
              exact Or.inr (Or.inr (Or.inr (Or.inr ⟨_, scannedParser g.parser exe toks stop, _, by assumption, ⟨rfl, rfl, rfl, rfl, rfl, rfl, rfl, rfl⟩, congrArg Prod.fst hc⟩)))
            · simp at h
  · rw [parse_not_ready env g hp] at h
    injection h with h _
    injection h with h
    subst h
    exact Or.inl rfl

/-- C58 fails for an enumeration without names ... -/
theorem C58_empty_enumeration_out_of_range :
    (parse exEnv (exRun [.addOption { short := 'e' } 0 false (.enumeration []) fun _ w => (true, w)]
      ["-e".toList, "x".toList])).1 = .threw .outOfRange := by decide +kernel

/-- ... and an empty argument vector (allowed by the C++ standard) is undefined behaviour in release builds. -/
theorem C58_empty_argv_undefined :
    (parse exRelease (start { exInit with arguments := [] } exStore ())).1 = .threw .undefinedBehaviour := by decide +kernel

/-! ## C30 -/

/-- C30: a text for a bool or enumeration option that denotes no value gives `user_input_error` and no variable changes
except by the options registered before, which are fine. -/
theorem C30_variable_unchanged_on_error (env : Env W) (g : Prog W) (hg : Reachable env g) (items : List Item)
    (tail : Option (List Str)) (hl : LooseGiven g items tail) (w₁ : W) (hv : CheckPasses env g w₁)
    (huni : ∀ d ∈ (decls g).options, d.isList = true → Uniform d items)
    (front back : List (OptDecl W)) (d : OptDecl W) (hsplit : (decls g).options = front ++ d :: back) (st₁ : Store) (w₂ : W)
    (hm : OptionsMean items front g.store w₁ st₁ w₂) (hs : d.isList = false) (t : Str) (hgiven : given d items = [t])
    (hbad : BadText d.ty t) (hty : d.ty = .boolean ∨ ∃ names, d.ty = .enumeration names) :
    ∃ g', parse env g = (.threw .userInputError, g') ∧ g'.store = st₁ := by
  have h0 : lift (W := W) (assignScalar env.ndebug d.ty d.var t) (st₁, w₂) = .err .userInputError (st₁, w₂) := by
    obtain ⟨hb1, hb2⟩ := hbad
    have hr : ∀ e, readElem d.ty t ≠ some e := fun e h => hb1 e ((readElem_iff d.ty t e).1 h)
    rcases hty with hty | ⟨names, hty⟩
    · rw [hty] at hr ⊢
      simp only [Ne, readElem_some, parseElem, parseBool] at hr
      unfold lift assignScalar
      simp only [parseElem, parseBool]
      repeat' split
      all_goals first | rfl | (exfalso; simp_all)
    · have hne := hb2 names hty
      rw [hty] at hr ⊢
      simp only [Ne, readElem_some, parseElem, parseEnum] at hr
      unfold lift assignScalar
      simp only [parseElem, parseEnum]
      cases hlk : names.lookup t with
      | some tag => rw [hlk] at hr; exact absurd rfl (hr (.enumv tag))
      | none =>
        dsimp only
        rw [if_neg (by simpa using hne)]
        rfl
  have h1 : absOption env.ndebug d [t] [] (st₁, w₂) = .err .userInputError (st₁, w₂) := by
    unfold absOption absById absScalar
    simp [hs, M.bind_run, h0]
  rw [← hgiven, ← absOption_single _ _ _ (by rw [hgiven]; simp)] at h1
  obtain ⟨g', h, h4, _⟩ := parse_option_error env g hg items tail hl w₁ hv huni front back d hsplit st₁ w₂ hm _ _ h1
  exact ⟨g', h, h4⟩

/-! ## The hypotheses of the theorems above are met by concrete programs -/

example : PositionalValues (decls exLine).positionals (words exItems exTail) (parse exEnv exLine).2.store :=
  (C23_C31_list_holds_all_values_partial exEnv exLine _ (exRun_reachable _ _) exItems exTail exLine_given exLine_ok
    (by decide +kernel) (Or.inl rfl) (returned_pair (by decide +kernel))).2

def exInts : List (Call Unit) :=
  [.addOption { short := 'i', long := "ints".toList } 0 true (.integer (-128) 127) fun _ w => (true, w),
   .addOption { short := 'b' } 1 false .boolean fun _ w => (true, w)]

/-- `-i 1 -i x -i 2`: the second element is no number. -/
example : let items : List Item := [.short 'i' .separate "1".toList, .short 'i' .separate "x".toList,
      .short 'i' .separate "2".toList]
    ∃ g', parse exEnv (exRun exInts (renderLine items none)) = (.threw .userInputError, g') := by
  intro items
  have hd : decls (exRun exInts (renderLine items none)) = declsOf (exInts.filterMap Call.entry?) :=
    exRun_decls _ _ (by decide +kernel)
  refine (C31_bad_element_reported_partial exEnv _ (exRun_reachable _ _) items none (by decide +kernel) () rfl
    (by decide +kernel) [] [⟨'b', [], 1, false, .boolean, false, fun _ w => (true, w)⟩]
    ⟨'i', "ints".toList, 0, true, .integer (-128) 127, false, fun _ w => (true, w)⟩ (by rw [hd]; rfl) _ _ ⟨rfl, rfl⟩ rfl
    ["1".toList] ["2".toList] "x".toList (by decide) [.int 1]
    ⟨⟨1, rfl, by decide, by decide, Or.inl (by decide)⟩, trivial⟩ (badText_of (by decide) (by intro n h; cases h))).1 ?_
  intro h
  have := (fromChars_outOfRange (-128) 127 "x".toList).2 h
  exact absurd this (by decide)

/-- `-b yes`: no boolean; nothing changes. -/
example : let items : List Item := [.short 'b' .separate "yes".toList]
    ∃ g', parse exEnv (exRun exInts (renderLine items none)) = (.threw .userInputError, g') ∧
      g'.store = (exRun exInts (renderLine items none)).store := by
  intro items
  have hd : decls (exRun exInts (renderLine items none)) = declsOf (exInts.filterMap Call.entry?) :=
    exRun_decls _ _ (by decide +kernel)
  exact C30_variable_unchanged_on_error exEnv _ (exRun_reachable _ _) items none (by decide +kernel) () rfl
    (by decide +kernel) [⟨'i', "ints".toList, 0, true, .integer (-128) 127, false, fun _ w => (true, w)⟩] []
    ⟨'b', [], 1, false, .boolean, false, fun _ w => (true, w)⟩ (by rw [hd]; rfl) _ _
    (Or.inl ⟨by decide, rfl, rfl, rfl⟩) rfl "yes".toList (by decide)
    (badText_of (by decide) (by intro n h; cases h)) (Or.inl rfl)

/-- `x y`: the second word is no number for the positional list. -/
example : let items : List Item := [.word "1".toList, .word "y".toList]
    let cs : List (Call Unit) := [.addPositionalOption {} 6 true (.integer 0 255) fun _ w => (true, w)]
    ∃ g', parse exEnv (exRun cs (renderLine items none)) = (.threw .userInputError, g') := by
  intro items cs
  have hd : decls (exRun cs (renderLine items none)) = declsOf (cs.filterMap Call.entry?) :=
    exRun_decls _ _ (by decide +kernel)
  refine (C31_bad_word_reported_partial exEnv _ (exRun_reachable _ _) items none (by decide +kernel) (by decide +kernel) () rfl
    _ _ (by rw [hd]; exact ⟨rfl, rfl⟩) [] ⟨6, true, .integer 0 255, fun _ w => (true, w)⟩ (by rw [hd]; rfl) rfl []
    ["1".toList] [] "y".toList (by decide) _ _ ⟨rfl, rfl, rfl⟩ [.int 1]
    ⟨⟨1, rfl, by decide, by decide, Or.inl (by decide)⟩, trivial⟩ (badText_of (by decide) (by intro n h; cases h))).1 ?_
  intro h
  have := (fromChars_outOfRange 0 255 "y".toList).2 h
  exact absurd this (by decide)

/-- An unclean name, and a request for help, meet the hypothesis of C32. -/
example : ¬ Ready (start { exInit with appName := "a b".toList } exStore () : Prog Unit).parser := by
  rintro ⟨_, h, _⟩
  revert h
  decide

/-- `parse()` throws in the example for C58. -/
example : exThrows ["-z", "x"] .unknownOption = true := by decide +kernel

end Sharg
