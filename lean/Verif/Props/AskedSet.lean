import Verif.Model.AskedSet
import Verif.Props.IsSet
import Verif.Props.Lines

/-!
# The program that asks which options are set (C105)
-/

namespace Sharg

open Spec

variable {W : Type}

theorem asked_parsed (env : Env W) (args : List Str) (w : W) : (parse env (askedProg env args w)).2 =
    runActions env (askedCalls.map .call ++ [.parse])
      (start { appName := "awesome-app".toList, arguments := args, notify := true, subcommands := [], executableName := [] } (fun _ => .one (.int 3)) w) := by
  rw [runActions_append]
  rfl

theorem asked_reachable (env : Env W) (args : List Str) (w : W) : Reachable env (askedProg env args w) := ⟨_, _, _, _, rfl⟩

theorem asked_operations (env : Env W) (args : List Str) (w : W) :
    (askedProg env args w).parser.operations = askedCalls.filterMap Call.entry? :=
  operations_of_length env askedCalls _ (show (accepted env (askedCalls.map .call)
    (start { appName := "awesome-app".toList, arguments := args, notify := true, subcommands := [], executableName := [] } (fun _ => .one (.int 3)) w)).length = 1 from rfl)

/-- The question about the option that does not exist is always answered by an exception. -/
theorem asked_awesome (env : Env W) (args : List Str) (w : W) :
    isOptionSet (parse env (askedProg env args w)).2.parser (.long "awesome-parameter".toList) = .error .designError := by
  rw [asked_parsed]
  refine C35_unregistered_reported env _ _ w _ _ (by decide +kernel) fun a ha => ?_
  rcases List.mem_append.1 ha with ha | ha
  · obtain ⟨c, hc, rfl⟩ := List.mem_map.1 ha
    rw [List.mem_singleton.1 hc]
    intro cfg hcfg
    have : cfg = ({ short := 'a', long := "aint".toList, description := "Specify an integer.".toList } : Config) := (Option.some.inj hcfg).symm
    subst this
    decide +kernel
  · rw [List.mem_singleton.1 ha]
    trivial

/-- The question about `-a` is answered. -/
theorem asked_a (env : Env W) (args : List Str) (w : W) :
    ∃ b, isOptionSet (parse env (askedProg env args w)).2.parser (.short 'a') = .ok b ∧
      (b = true ↔ ∃ a ∈ before (parse env (askedProg env args w)).2.parser.formatArguments, ReadsAs (.short 'a') a) := by
  refine C35_tells_whether_identifier_occurs env _ (by rw [asked_parsed]; exact ⟨_, _, _, _, rfl⟩) (parse_parser env _).2 (.short 'a') nofun ?_
  rw [(parse_parser env _).1.operations, asked_operations]
  show _ ∈ ["a".toList, "aint".toList]
  decide +kernel

/-- C105, partial: how the program ends. If `parse()` does not return, a page was printed or the error is reported; if it returns, the program is terminated
by a `design_error` that nobody catches, after it has printed whether an argument reads as `-a`. -/
theorem C105_endings_partial (env : Env W) (args : List Str) (w : W) :
    (∀ f, (parse env (askedProg env args w)).1 = .exited f → askedMain env args w = .printed f) ∧
    (∀ e, (parse env (askedProg env args w)).1 = .threw e → askedMain env args w = if e.isParserError then .reported e else .terminated e []) ∧
    ((parse env (askedProg env args w)).1 = .returned →
      ((∃ a ∈ before (parse env (askedProg env args w)).2.parser.formatArguments, ReadsAs (.short 'a') a) →
        askedMain env args w = .terminated .designError [setA]) ∧
      ((∀ a ∈ before (parse env (askedProg env args w)).2.parser.formatArguments, ¬ ReadsAs (.short 'a') a) →
        askedMain env args w = .terminated .designError [])) := by
  unfold askedMain
  refine ⟨fun f h => ?_, fun e h => ?_, fun h => ?_⟩
  · simp only [h]
  · simp only [h]
  · obtain ⟨b, h1, h2⟩ := asked_a env args w
    simp only [h, h1, asked_awesome]
    refine ⟨fun ha => ?_, fun ha => ?_⟩
    · rw [h2.2 ha]; rfl
    · have : b = false := by
        cases b with
        | false => rfl
        | true =>
          obtain ⟨a, ha', hr⟩ := h2.1 rfl
          exact absurd hr (ha a ha')
      rw [this]; rfl

/-- The program never reaches its end, whatever the arguments and the outside world are. -/
theorem C105_never_finishes (env : Env W) (args : List Str) (w : W) (lines : List Str) : askedMain env args w ≠ .finished lines := by
  obtain ⟨h1, h2, h3⟩ := C105_endings_partial env args w
  cases ho : (parse env (askedProg env args w)).1 with
  | exited f => rw [h1 f ho]; nofun
  | threw e => rw [h2 e ho]; split <;> nofun
  | returned =>
    by_cases ha : ∃ a ∈ before (parse env (askedProg env args w)).2.parser.formatArguments, ReadsAs (.short 'a') a
    · rw [(h3 ho).1 ha]; nofun
    · rw [(h3 ho).2 fun a hm hr => ha ⟨a, hm, hr⟩]; nofun

/-- C105, partial: on every line that is right for the program the first line is printed exactly if `-a` is on the line, in any spelling; `--aint` is
the same option, but does not count. -/
theorem C105_right_lines_partial (env : Env W) (args : List Str) (w : W) (items : List Item) (tail : Option (List Str))
    (hl : LineGiven (askedProg env args w) items tail) (hok : LineOk (decls (askedProg env args w)) items tail) (w₁ : W)
    (hv : CheckPasses env (askedProg env args w) w₁) (hm : Accepted (decls (askedProg env args w)) items tail) :
    ((∃ form v, Item.short 'a' form v ∈ items) → askedMain env args w = .terminated .designError [setA]) ∧
    ((∀ form v, Item.short 'a' form v ∉ items) → askedMain env args w = .terminated .designError []) := by
  have hg := asked_reachable env args w
  obtain ⟨st', w', hm⟩ := means_of_accepted hm (askedProg env args w).store w₁
  obtain ⟨g', h, -, -⟩ := C17_line_has_its_meaning env _ hg items tail hl hok w₁ hv st' w' hm
  have hd : (⟨'a', "aint".toList, 0, false, .integer (-2147483648) 2147483647, false, fun _ w => (true, w)⟩ : OptDecl W) ∈
      (decls (askedProg env args w)).options := by
    unfold decls
    rw [asked_operations]
    exact .head _
  obtain ⟨b, h1, h2⟩ := (C35_tells_whether_option_given env _ g' hg items tail hl hok h _ hd).1 (show 'a' ≠ '\x00' by decide)
  have hr : (parse env (askedProg env args w)).1 = .returned := by rw [h]
  obtain ⟨c, h3, h4⟩ := asked_a env args w
  have hbc : b = c := by
    rw [show (parse env (askedProg env args w)).2 = g' by rw [h]] at h3
    have := h1.symm.trans h3
    injection this
  subst hbc
  obtain ⟨k1, k2⟩ := (C105_endings_partial env args w).2.2 hr
  refine ⟨fun ha => k1 (h4.1 (h2.2 ha)), fun ha => k2 fun a hm hra => ?_⟩
  obtain ⟨form, v, hi⟩ := h2.1 (h4.2 ⟨a, hm, hra⟩)
  exact ha form v hi

/-- The registration of line 12. -/
def askedDecl : OptDecl W := ⟨'a', "aint".toList, 0, false, .integer (-2147483648) 2147483647, false, fun _ w => (true, w)⟩

theorem asked_decls (env : Env W) (args : List Str) (w : W) : decls (askedProg env args w) = ⟨[askedDecl], [], []⟩ := by
  unfold decls
  rw [asked_operations]
  rfl

theorem asked_arguments (env : Env W) (args : List Str) (w : W) : (askedProg env args w).parser.arguments = args ∧
    (askedProg env args w).parser.appName = "awesome-app".toList ∧ (askedProg env args w).parser.notify = true ∧
    (askedProg env args w).world = w ∧ (askedProg env args w).parser.subcommands = [] ∧ (askedProg env args w).parser.parseWasCalled = false :=
  ⟨rfl, rfl, rfl, rfl, rfl, rfl⟩

/-- Numbers are written so that they are not mistaken for options. -/
theorem asked_number {t : Str} {e : Elem} (h : Denotes (.integer (-2147483648) 2147483647) t e) :
    t ≠ [] ∧ t.head? ≠ some '=' ∧ SeparateOk (W := W) ⟨[askedDecl], [], []⟩ t := by
  have key : ∀ ds : Str, IsDecimal ds → ∃ c r, ds = c :: r ∧ c ≠ '=' ∧ c ≠ '-' ∧ c ≠ 'a' := by
    rintro (_ | ⟨c, r⟩) hd
    · exact absurd rfl hd.1
    · have hc : c ∈ digits := hd.2 c (.head _)
      exact ⟨c, r, rfl, fun h => absurd (h ▸ hc) (by decide), fun h => absurd (h ▸ hc) (by decide), fun h => absurd (h ▸ hc) (by decide)⟩
  have hlook : ∀ t : Str, (∀ r, t ≠ '-' :: 'a' :: r) → (∀ r, t ≠ '-' :: '-' :: r) → SeparateOk (W := W) ⟨[askedDecl], [], []⟩ t := by
    intro t h1 h2
    refine ⟨?_, fun h => h2 _ h⟩
    rintro ⟨d, hd, h⟩
    rw [List.mem_singleton.1 hd] at h
    rcases h with ⟨-, r, h⟩ | ⟨-, h | ⟨r, h⟩⟩
    · exact h1 _ h
    · exact h2 _ h
    · exact h2 _ h
  obtain ⟨v, -, -, -, ⟨hd, -⟩ | ⟨-, ds, rfl, hd, -⟩⟩ := h
  · obtain ⟨c, r, rfl, h1, h2, h3⟩ := key t hd
    exact ⟨nofun, fun h => h1 (Option.some.inj h), hlook _ (fun r h => h2 (List.cons.inj h).1) fun r h => h2 (List.cons.inj h).1⟩
  · obtain ⟨c, r, rfl, h1, h2, h3⟩ := key ds hd
    exact ⟨nofun, fun h => absurd (Option.some.inj h) (by decide),
      hlook _ (fun r h => h3 (List.cons.inj (List.cons.inj h).2).1) fun r h => h2 (List.cons.inj (List.cons.inj h).2).1⟩

/-- A line that gives the option once, in the spelling `it`. -/
theorem asked_once (env : Env W) (exe : Str) (it : Item) (t : Str) (e : Elem) (w w₁ : W)
    (hit : it.Ok (W := W) ⟨[askedDecl], [], []⟩) (hv : Item.valueFor (W := W) askedDecl it = some t) (hw : it.word? = none)
    (hf : it ≠ .longFlag "version-check".toList) (hn : it.render ≠ [])
    (ht : Denotes (.integer (-2147483648) 2147483647) t e) (hc : env.versionCheck "awesome-app".toList true none w = (none, w₁)) :
    ((∃ form v, Item.short 'a' form v ∈ [it]) → askedMain env (exe :: it.render) w = .terminated .designError [setA]) ∧
    ((∀ form v, Item.short 'a' form v ∉ [it]) → askedMain env (exe :: it.render) w = .terminated .designError []) := by
  obtain ⟨k1, k2, k3, k4, k5, k6⟩ := asked_arguments env (exe :: it.render) w
  have hd := asked_decls env (exe :: it.render) w
  have hr : renderLine [it] none = it.render := by simp [renderLine]
  have hg : given (W := W) askedDecl [it] = [t] := by simp [given, hv]
  refine C105_right_lines_partial env (exe :: it.render) w [it] none
    ⟨k6, by rw [k2]; decide, k5, ⟨exe, by rw [k1, hr]⟩, by rw [hr]; exact hn, fun h => hf (List.mem_singleton.1 h).symm, nofun⟩ ?_ w₁
    (show env.versionCheck _ _ none _ = _ by rw [k2, k3, k4]; exact hc) ?_
  · rw [hd]
    exact ⟨fun u hu => (List.mem_singleton.1 hu) ▸ hit, nofun, fun d h h' => absurd h' (by rw [List.mem_singleton.1 h]; exact Bool.false_ne_true), nofun⟩
  · rw [hd]
    refine ⟨fun d h h' => absurd h' (by rw [List.mem_singleton.1 h]; exact Bool.false_ne_true), fun d h _ => ?_, ?_⟩
    · rw [List.mem_singleton.1 h, hg]
      exact ⟨.one e, ⟨t, e, rfl, rfl, ht⟩, fun _ => rfl⟩
    · show words [it] none = []
      simp [words, hw]

/-- C105: `-a 5` in every spelling and with every number: the first line is printed, then the program is terminated. -/
theorem C105_short_name (env : Env W) (exe t : Str) (e : Elem) (w w₁ : W) (form : Form)
    (ht : Denotes (.integer (-2147483648) 2147483647) t e)
    (hc : env.versionCheck "awesome-app".toList true none w = (none, w₁)) :
    askedMain env (exe :: (Item.short 'a' form t).render) w = .terminated .designError [setA] := by
  refine (asked_once env exe (.short 'a' form t) t e w w₁ ⟨by decide, ⟨_, .head _, rfl⟩, ?_⟩ rfl rfl nofun (by cases form <;> nofun) ht hc).1
    ⟨form, t, .head _⟩
  cases form with
  | attached => exact ⟨(asked_number (W := W) ht).1, (asked_number (W := W) ht).2.1⟩
  | equals => exact (asked_number (W := W) ht).1
  | separate => exact (asked_number ht).2.2

/-- C105: `--aint 5` gives the same option, but the first line is not printed. -/
theorem C105_long_name (env : Env W) (exe t : Str) (e : Elem) (w w₁ : W) (sep : Bool)
    (ht : Denotes (.integer (-2147483648) 2147483647) t e)
    (hc : env.versionCheck "awesome-app".toList true none w = (none, w₁)) :
    askedMain env (exe :: (Item.long "aint".toList sep t).render) w = .terminated .designError [] := by
  refine (asked_once env exe (.long "aint".toList sep t) t e w w₁ ⟨by decide, ⟨_, .head _, rfl⟩, ?_⟩ rfl rfl nofun (by cases sep <;> nofun) ht hc).2
    fun form v h => nomatch List.mem_singleton.1 h
  cases sep with
  | false => exact (asked_number (W := W) ht).1
  | true => exact (asked_number ht).2.2

/-! ### Cases -/

def exAskedSet (args : List String) : AskedEnd := askedMain exEnv (("app" :: args).map String.toList) ()

example : exAskedSet ["-a", "5"] = .terminated .designError [setA] := by decide +kernel

example : exAskedSet ["--aint", "5"] = .terminated .designError [] ∧ exAskedSet ["--"] = .terminated .designError [] ∧
    exAskedSet ["-a", "x"] = .reported .userInputError ∧ exAskedSet [] = .printed .shortHelp ∧ exAskedSet ["--awesome-parameter"] = .reported .unknownOption := by
  decide +kernel

/-- The hypotheses of `C105_short_name` and `C105_long_name`, and the lines they speak of. -/
example : Denotes (.integer (-2147483648) 2147483647) "-5".toList (.int (-5)) ∧ exEnv.versionCheck "awesome-app".toList true none () = (none, ()) ∧
    (Item.short 'a' .separate "-5".toList).render = ["-a".toList, "-5".toList] ∧
    (Item.long "aint".toList false "-5".toList).render = ["--aint=-5".toList] :=
  ⟨⟨-5, rfl, by decide, by decide, Or.inr ⟨by decide, ['5'], rfl, by decide, rfl⟩⟩, rfl, rfl, rfl⟩

/-- The documentation suggests that the program reaches its end whenever `parse()` succeeds; it never does. -/
theorem C105_documented_program_terminated :
    ¬ ∀ (env : Env Unit) (args : List Str), (parse env (askedProg env args ())).1 = .returned → ∃ lines, askedMain env args () = .finished lines := by
  intro h
  obtain ⟨lines, hl⟩ := h exEnv (["app", "-a", "5"].map String.toList) (by decide +kernel)
  exact C105_never_finishes exEnv _ () lines hl

end Sharg
