import Verif.Lemmas.Explained
import Verif.Props.Lines

/-!
# C67: the texts of exceptions
-/

set_option linter.unusedSimpArgs false

namespace Sharg

open Spec

variable {W : Type}

/-! ### Scanning -/

theorem foldl_names (l : List Str) (t : Str) (h : l ≠ []) :
    l.foldl (fun t c => t ++ c ++ ", ".toList) t = t ++ joined ", ".toList l ++ ", ".toList := by
  induction l generalizing t with
  | nil => exact absurd rfl h
  | cons p l ih =>
    rw [List.foldl_cons]
    cases l with
    | nil => rfl
    | cons q l =>
      rw [ih _ (by simp)]
      simp only [joined, List.append_assoc]

theorem unknownSubcommandText_eq (subs : List Str) (h : subs ≠ []) : unknownSubcommandText subs =
    "You specified an unknown subcommand! Available subcommands are: [".toList
      ++ joined ", ".toList subs ++ "]. Use -h/--help for more information.".toList := by
  unfold unknownSubcommandText
  rw [foldl_names _ _ h]
  have : ", ".toList = [','] ++ [' '] := rfl
  rw [this, ← List.append_assoc, List.dropLast_concat, List.dropLast_concat]

theorem exportFormat_error {v : Str} {e : Exn} (h : exportFormat v = .error e) : e = .validationError ∧
    v ∉ ["html".toList, "man".toList, "ctd".toList, "cwl".toList] := by
  unfold exportFormat at h
  repeat' split at h
  all_goals cases h
  rename_i h1 h2 h3 h4
  refine ⟨rfl, ?_⟩
  intro hm
  rcases List.mem_cons.1 hm with h | hm
  · exact h1 h
  · rcases List.mem_cons.1 hm with h | hm
    · exact h2 h
    · rcases List.mem_cons.1 hm with h | hm
      · exact h3 h
      · exact h4 (List.mem_singleton.1 hm)

theorem versionCheckValue_error {v : Str} {e : Exn} (h : versionCheckValue v = .error e) : e = .validationError ∧
    v ∉ ["0".toList, "1".toList, "false".toList, "true".toList] := by
  unfold versionCheckValue at h
  repeat' split at h
  all_goals cases h
  rename_i h1 h2
  refine ⟨rfl, ?_⟩
  intro hm
  rcases List.mem_cons.1 hm with h | hm
  · exact h2 (Or.inl h)
  · rcases List.mem_cons.1 hm with h | hm
    · exact h1 (Or.inl h)
    · rcases List.mem_cons.1 hm with h | hm
      · exact h2 (Or.inr h)
      · exact h1 (Or.inr (List.mem_singleton.1 hm))

theorem exportText_eq : exportText =
    "Validation failed for option --export-help: Value must be one of [html, man, ctd, cwl].".toList := by
  decide +kernel

theorem scanExplained_append {subs l : List Str} (pre : List Str) {e : Exn} {t : Str} (h : ScanExplained subs l e t) :
    ScanExplained subs (pre ++ l) e t := by
  cases h with
  | unknownSubcommand a h1 h2 h3 h4 => exact .unknownSubcommand a (by simp [h1]) h2 h3 h4
  | exportNothing h => exact .exportNothing (by rw [List.getLast?_append, h]; rfl)
  | exportUnknown v h1 h2 =>
    refine .exportUnknown v h1 ?_
    rcases h2 with ⟨front, rest, rfl⟩ | h2
    · exact Or.inl ⟨pre ++ front, rest, by simp⟩
    · exact Or.inr (List.mem_append_right _ h2)
  | checkNothing h => exact .checkNothing (by rw [List.getLast?_append, h]; rfl)
  | checkUnknown v h1 h2 =>
    obtain ⟨front, rest, rfl⟩ := h2
    exact .checkUnknown v h1 ⟨pre ++ front, rest, by simp⟩

theorem scanLoopT_err {options subs : List Str} {e : Exn} {t : Str} : ∀ (n : Nat) (l : List Str), l.length ≤ n →
    ∀ (s s' : ScanState), scanLoopT options subs l s = .err e t s' → ScanExplained subs l e t := by
  intro n
  induction n with
  | zero =>
    intro l hn s s' h
    have : l = [] := by simpa using hn
    subst this
    cases h
  | succ n ih =>
    intro l hn s s' h
    cases l with
    | nil => cases h
    | cons a rest =>
      have hn' : rest.length ≤ n := by simpa using hn
      have hrest : ∀ s s', scanLoopT options subs rest s = .err e t s' → ScanExplained subs (a :: rest) e t :=
        fun s s' h => scanExplained_append [a] (ih rest hn' s s' h)
      have hbehind : ∀ v rest', rest = v :: rest' → ∀ s s', scanLoopT options subs rest' s = .err e t s' →
          ScanExplained subs (a :: v :: rest') e t := by
        rintro v rest' rfl s s' h
        exact scanExplained_append [a, v] (ih rest' (by simp at hn'; omega) s s' h)
      rw [scanLoopT.eq_def] at h
      dsimp only at h
      by_cases c1 : a ∈ options
      · rw [if_pos c1] at h
        rcases tbind_err h with h2 | ⟨_, s1, _, h2⟩
        · cases h2
        · cases rest with
          | nil => cases h2
          | cons v rest' =>
            rcases tbind_err h2 with h3 | ⟨_, s2, _, h3⟩
            · cases h3
            · exact hbehind v rest' rfl _ _ h3
      rw [if_neg c1] at h
      by_cases c2 : subs ≠ [] ∧ a ∈ subs
      · rw [if_pos c2] at h; cases h
      rw [if_neg c2] at h
      by_cases c3 : subs ≠ [] ∧ a.head? ≠ some '-'
      · rw [if_pos c3] at h
        cases h
        rw [unknownSubcommandText_eq _ c3.1]
        exact .unknownSubcommand a (by simp) c3.1 (fun h => c2 ⟨c3.1, h⟩) c3.2
      rw [if_neg c3] at h
      have hset : ∀ {m : TSM Unit}, (∀ s e t s', m s ≠ .err e t s') →
          TM.bind m (fun _ => scanLoopT options subs rest) s = .err e t s' → ScanExplained subs (a :: rest) e t := by
        intro m hm h
        rcases tbind_err h with h2 | ⟨_, s1, _, h2⟩
        · exact absurd h2 (hm _ _ _ _)
        · exact hrest _ _ h2
      by_cases c4 : a = sDashH ∨ a = sHelp
      · rw [if_pos c4] at h; exact hset (by intro s e t s' h; cases h) h
      rw [if_neg c4] at h
      by_cases c5 : a = sDashHH ∨ a = sAdvancedHelp
      · rw [if_pos c5] at h; exact hset (by intro s e t s' h; cases h) h
      rw [if_neg c5] at h
      by_cases c6 : a = sVersion
      · rw [if_pos c6] at h; exact hset (by intro s e t s' h; cases h) h
      rw [if_neg c6] at h
      by_cases c7 : a = sCopyright
      · rw [if_pos c7] at h; exact hset (by intro s e t s' h; cases h) h
      rw [if_neg c7] at h
      by_cases c8 : a = sExportHelp
      · rw [if_pos c8] at h
        cases rest with
        | nil => cases h; exact .exportNothing (by rw [c8, sExportHelp_eq]; rfl)
        | cons v rest' =>
          dsimp only at h
          cases hv : exportFormat v with
          | error e2 =>
            rw [hv] at h
            cases h
            obtain ⟨rfl, hm⟩ := exportFormat_error hv
            rw [exportText_eq]
            exact .exportUnknown v hm (Or.inl ⟨[], rest', by rw [c8, sExportHelp_eq]; rfl⟩)
          | ok f =>
            rw [hv] at h
            dsimp only at h
            rcases tbind_err h with h2 | ⟨_, s1, _, h2⟩
            · cases h2
            · exact hbehind v rest' rfl _ _ h2
      rw [if_neg c8] at h
      by_cases c9 : (sExportHelp ++ ['=']).isPrefixOf a = true
      · rw [if_pos c9] at h
        cases hv : exportFormat (a.drop (sExportHelp.length + 1)) with
        | error e2 =>
          rw [hv] at h
          cases h
          obtain ⟨rfl, hm⟩ := exportFormat_error hv
          rw [exportText_eq]
          refine .exportUnknown _ hm (Or.inr ?_)
          obtain ⟨v, rfl⟩ := List.isPrefixOf_iff_prefix.1 c9
          rw [show (sExportHelp ++ ['='] ++ v).drop (sExportHelp.length + 1) = v by
            rw [show sExportHelp.length + 1 = (sExportHelp ++ ['=']).length by simp]; exact List.drop_left]
          rw [show sExportHelp ++ ['='] = "--export-help=".toList by decide]
          simp
        | ok f => rw [hv] at h; exact hset (by intro s e t s' h; cases h) h
      rw [if_neg c9] at h
      by_cases c10 : a = sVersionCheck
      · rw [if_pos c10] at h
        cases rest with
        | nil => cases h; exact .checkNothing (by rw [c10, sVersionCheck_eq]; rfl)
        | cons v rest' =>
          dsimp only at h
          cases hv : versionCheckValue v with
          | error e2 =>
            rw [hv] at h
            cases h
            obtain ⟨rfl, hm⟩ := versionCheckValue_error hv
            exact .checkUnknown v hm ⟨[], rest', by rw [c10, sVersionCheck_eq]; rfl⟩
          | ok f =>
            rw [hv] at h
            dsimp only at h
            rcases tbind_err h with h2 | ⟨_, s1, _, h2⟩
            · cases h2
            · exact hbehind v rest' rfl _ _ h2
      rw [if_neg c10] at h
      exact hset (by intro s e t s' h; cases h) h

/-! ### `parse()` -/

theorem textLists_last {p : Parser W} (h : Inv p) (why : Entry W → Val → W → Str) :
    ∀ d ∈ (textDeclsOf why p.operations).positionals.dropLast, d.decl.isList = false := by
  intro d hd
  refine positional_lists_last h d.decl ?_
  rw [← textDeclsOf_forget why p.operations]
  show d.decl ∈ (List.map (fun d : TPosDecl W => d.decl) _).dropLast
  rw [← List.map_dropLast]
  exact List.mem_map.2 ⟨d, hd, rfl⟩

theorem clean_iff {s : Str} : matchesNameRegex s = false ↔ ¬ CleanName s := by
  rw [← matchesNameRegex_iff]; simp

theorem appName_text : "The application name must only contain alpha-numeric characters or '_' and '-' ".toList
      ++ "(regex: \"^[a-zA-Z0-9_-]+$\").".toList =
    "The application name must only contain alpha-numeric characters or '_' and '-' (regex: \"^[a-zA-Z0-9_-]+$\").".toList := by
  decide +kernel

theorem subName_text : "The subcommand name must only contain alpha-numeric characters or '_' and '-' ".toList
      ++ "(regex: \"^[a-zA-Z0-9_-]+$\").".toList =
    "The subcommand name must only contain alpha-numeric characters or '_' and '-' (regex: \"^[a-zA-Z0-9_-]+$\").".toList := by
  decide +kernel

/-- C67: whenever `parse()` throws an exception derived from `parser_error` (not out of the version check or a page), its text
is one of those described, and what the text says about the arguments is true: it names an option that was registered, quotes a
text that stands at the place where the value of this option is expected and is not a value of its type, and so on.
Partial: the texts leave out or misstate some things, see the other theorems. -/
theorem C67_error_texts_partial {env : Env W} {g : Prog W} (hg : Reachable env g) (wd : Wording)
    (why : Entry W → Val → W → Str) {e : Exn} {t : Str} {g' : Prog W}
    (h : parseT env wd why g = (.threw e (some t), g')) (he : e.isParserError = true) :
    RunExplained wd (textDeclsOf why g.parser.operations) g.parser g'.parser.formatArguments e t := by
  have hinv := inv_reachable hg
  unfold parseT at h
  by_cases hc : g.parser.parseWasCalled = true
  · rw [if_pos hc] at h
    cases h
    exact .again hc
  rw [if_neg hc] at h
  unfold verifyNamesT at h
  dsimp only at h
  by_cases h1 : matchesNameRegex g.parser.appName = false
  · rw [if_pos h1] at h
    cases h
    rw [appName_text]
    exact .appName (clean_iff.1 h1)
  rw [if_neg h1] at h
  by_cases h2 : g.parser.subcommands.any (fun s => !matchesNameRegex s) = true
  · rw [if_pos h2] at h
    cases h
    simp only [List.any_eq_true, Bool.not_eq_true'] at h2
    obtain ⟨s, hs, hx⟩ := h2
    rw [subName_text]
    exact .subcommandName s hs (clean_iff.1 hx)
  rw [if_neg h2] at h
  dsimp only at h
  unfold determineFormatT at h
  dsimp only at h
  cases harg : g.parser.arguments with
  | nil =>
    rw [harg] at h
    dsimp only at h
    cases h
    cases hnd : env.ndebug <;> rw [hnd] at he <;> cases he
  | cons exe args =>
    rw [harg] at h
    dsimp only at h
    cases hs : scanLoopT g.parser.options g.parser.subcommands args scanInit with
    | err e2 t2 s =>
      rw [hs] at h
      cases h
      refine .scan ?_
      rw [harg]
      exact scanLoopT_err _ args (Nat.le_refl _) _ _ hs
    | ok u s =>
      rw [hs] at h
      dsimp only at h
      unfold checkAndParseT at h
      dsimp only at h
      split at h
      · cases h
      · unfold parseFormatT at h
        split at h
        · dsimp only at h
          split at h
          · cases h
          · rename_i hf
            cases h
            refine .options (formatParseT_explained ?_ (textLists_last hinv why) hf he)
            rw [textDeclsOf_forget]
            exact idsOk_of_inv hinv
        · split at h <;> cases h

/-- The result of `parseT` is the one of `parse`; only the texts are added. -/
theorem C67_texts_only (env : Env W) (wd : Wording) (why : Entry W → Val → W → Str) (g : Prog W) :
    ((parseT env wd why g).1.forget, (parseT env wd why g).2) = parse env g := parseT_forget env wd why g

/-! ### Examples and counterexamples -/

def exWording : Wording where
  typeName := fun _ _ => "signed 8 bit integer".toList
  maxText := fun _ => "340282346638528859811704183484516925440.000000".toList

def exWhy (_ : Entry Unit) (_ : Val) (_ : Unit) : Str := "not accepted".toList

/-- What a program with these calls and arguments throws, with the text. -/
def exSaid (cs : List (Call Unit)) (args : List String) : Option (Exn × Str) :=
  match (parseT exEnv exWording exWhy (exRun cs (args.map String.toList))).1 with
  | .threw e (some t) => some (e, t)
  | _ => none

def exInt (c : Char) (s : String) (x : VarId) (ok : Bool) : Call Unit :=
  .addOption { short := c, long := s.toList } x false (.integer (-128) 127) fun _ w => (ok, w)

def exColor (c : Char) (s : String) (x : VarId) : Call Unit :=
  .addOption { short := c, long := s.toList } x false
    (.enumeration [("red".toList, 2), ("green".toList, 1), ("rot".toList, 2), ("red".toList, 5)]) fun _ w => (true, w)

/-- Texts of all kinds. -/
example : exSaid [exInt 'i' "int" 0 true] ["-i", "x"] = some (.userInputError,
    "Value parse failed for -i: Argument x could not be parsed as type signed 8 bit integer.".toList) := by decide +kernel
example : exSaid [exInt 'i' "int" 0 true] ["--int=300"] = some (.userInputError,
    "Value parse failed for --int: Numeric argument 300 is not in the valid range [-128,127].".toList) := by decide +kernel
example : exSaid [exInt 'i' "int" 0 true] ["--int="] = some (.tooFewArguments,
    "Missing value for option --int".toList) := by decide +kernel
example : exSaid [exInt 'i' "int" 0 true] ["-i", "1", "-i2"] = some (.optionDeclaredMultipleTimes,
    "Option -i is no list/container but declared multiple times.".toList) := by decide +kernel
example : exSaid [exInt 'i' "int" 0 true] ["-i", "1", "--int", "2"] = some (.optionDeclaredMultipleTimes,
    "Option -i/--int is no list/container but specified multiple times".toList) := by decide +kernel
example : exSaid [exInt 'i' "int" 0 false] ["-i", "1"] = some (.validationError,
    "Validation failed for option -i/--int: not accepted".toList) := by decide +kernel
example : exSaid [] ["-k"] = some (.unknownOption, ("Unknown option -k. In case this is meant to be a "
    ++ "non-option/argument/parameter, please specify the start of non-options with '--'. "
    ++ "See -h/--help for program information.").toList) := by decide +kernel
example : exSaid [] ["-klm"] = some (.unknownOption, ("Unknown flags -k, -land -m. In case this is meant to be a "
    ++ "non-option/argument/parameter, please specify the start of arguments with '--'. "
    ++ "See -h/--help for program information.").toList) := by decide +kernel
example : exSaid [] ["word"] = some (.tooManyArguments,
    "Too many arguments provided. Please see -h/--help for more information.".toList) := by decide +kernel
example : exSaid [.addPositionalOption {} 0 false (.integer (-128) 127) fun _ w => (true, w),
      .addPositionalOption {} 1 false (.integer (-128) 127) fun _ w => (true, w)] ["3", "4x"] = some (.userInputError,
    "Value parse failed for positional option2: Argument 4x could not be parsed as type signed 8 bit integer.".toList) := by
  decide +kernel
example : exSaid [] ["--version-check", "maybe"] = some (.validationError,
    "Value for option --version-check must be true (1) or false (0).".toList) := by decide +kernel

/-- The hypotheses of the theorem are met: what it says about `-i x`. -/
example : RunExplained exWording (textDeclsOf exWhy (exRun [exInt 'i' "int" 0 true] ["-i".toList, "x".toList]).parser.operations)
    (exRun [exInt 'i' "int" 0 true] ["-i".toList, "x".toList]).parser ["-i".toList, "x".toList] .userInputError
    "Value parse failed for -i: Argument x could not be parsed as type signed 8 bit integer.".toList := by
  have h : (match parseT exEnv exWording exWhy (exRun [exInt 'i' "int" 0 true] ["-i".toList, "x".toList]) with
      | (.threw e (some t), g') => decide (e = .userInputError) && decide (t =
          "Value parse failed for -i: Argument x could not be parsed as type signed 8 bit integer.".toList) &&
          decide (g'.parser.formatArguments = ["-i".toList, "x".toList])
      | _ => false) = true := by decide +kernel
  split at h
  · rename_i e t g' hp
    simp only [Bool.and_eq_true, decide_eq_true_eq] at h
    obtain ⟨⟨rfl, rfl⟩, h3⟩ := h
    have := C67_error_texts_partial (exRun_reachable _ _) exWording exWhy hp rfl
    rw [h3] at this
    exact this
  · cases h

/-- C67 fails for enumerations: the text does not name the option, so that `-c blue` and `--paint=blue` for two different
options are reported with the same text. -/
theorem C67_enumeration_text_names_no_option :
    exSaid [exColor 'c' "color" 0, exColor 'p' "paint" 1] ["-c", "blue"] = some (.userInputError,
      "You have chosen an invalid input value: blue. Please use one of: [green, red, rot]".toList) ∧
    exSaid [exColor 'c' "color" 0, exColor 'p' "paint" 1] ["--paint=blue"] =
      exSaid [exColor 'c' "color" 0, exColor 'p' "paint" 1] ["-c", "blue"] := by
  constructor <;> decide +kernel

/-- C67 fails for positional lists: a rejected list, the only positional option, is reported as positional option 4 when it
has three elements. -/
theorem C67_rejected_list_has_wrong_number :
    exSaid [.addPositionalOption {} 0 true .string fun _ w => (false, w)] ["a", "b", "c"] = some (.validationError,
      "Validation failed for positional option 4: not accepted".toList) := by
  decide +kernel

/-- A type of fractions: `-1` is a value, `1e999` is too large. -/
def exFloat : ElemTy := .foreign true fun s =>
  if s = "-1".toList then .ok (.other s.length) else if s = "1e999".toList then .overflow else .fail none

/-- C67 fails for floating point options: the text says that the valid range begins with zero, but negative numbers are
accepted. -/
theorem C67_range_text_excludes_negative_numbers :
    exSaid [.addOption { short := 'f' } 0 false exFloat fun _ w => (true, w)] ["-f", "1e999"] = some (.userInputError,
      ("Value parse failed for -f: Numeric argument 1e999 is not in the valid range "
        ++ "[0.000000,340282346638528859811704183484516925440.000000].").toList) ∧
    (parse exEnv (exRun [.addOption { short := 'f' } 0 false exFloat fun _ w => (true, w)] ["-f".toList, "-1".toList])).1 =
      .returned := by
  constructor <;> decide +kernel

/-- C67 fails when the value of an option is missing and another option follows that was registered earlier: the text quotes
an empty argument although the user wrote none (compare C28). -/
theorem C67_text_quotes_what_nobody_wrote :
    exSaid [exInt 'j' "jnt" 1 true, exInt 'i' "int" 0 true] ["-i", "-j", "3"] = some (.userInputError,
      "Value parse failed for -i: Argument  could not be parsed as type signed 8 bit integer.".toList) := by
  decide +kernel

/-- C67 fails for subcommands: what the user wrote is not repeated, all unknown words have the same text. -/
theorem C67_subcommand_text_without_the_word {env : Env W} {wd : Wording} {why : Entry W → Val → W → Str} {g : Prog W}
    (subs : g.parser.subcommands = ["build".toList, "search".toList]) (clean : CleanName g.parser.appName)
    (once : g.parser.parseWasCalled = false) (exe word : Str) (rest : List Str) (args : g.parser.arguments = exe :: word :: rest)
    (hw : word ∉ g.parser.options) (hs : word ∉ g.parser.subcommands) (hd : word.head? ≠ some '-') :
    (parseT env wd why g).1 = .threw .userInputError (some
      ("You specified an unknown subcommand! Available subcommands are: [build, search]. "
        ++ "Use -h/--help for more information.").toList) := by
  have hscan : scanLoopT g.parser.options g.parser.subcommands (word :: rest) scanInit =
      .err .userInputError (unknownSubcommandText g.parser.subcommands) scanInit := by
    rw [scanLoopT.eq_def]
    dsimp only
    have hne : g.parser.subcommands ≠ [] := by rw [subs]; simp
    rw [if_neg hw, if_neg (fun h => hs h.2), if_pos ⟨hne, hd⟩]
    rfl
  unfold parseT verifyNamesT determineFormatT
  rw [if_neg (by rw [once]; simp)]
  dsimp only
  rw [if_neg (by rw [(matchesNameRegex_iff _).2 clean]; simp), if_neg (by rw [subs]; decide)]
  dsimp only
  rw [args]
  dsimp only
  rw [hscan, subs]
  dsimp only
  congr 2

end Sharg
