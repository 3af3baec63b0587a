import Verif.Lemmas.Exact
import Verif.Lemmas.Decide
import Verif.Props.Arguments

/-!
# Properties of well-formed lines

Lines are given as lists of items (`Verif.Spec.Grammar`), optionally followed by `--` and further words. `D` stands for
the registered options, flags and positional options of the program.
-/

set_option linter.unusedSimpArgs false

namespace Sharg

open Spec

variable {W : Type}

/-- The registrations of a program. -/
abbrev Spec.decls (g : Prog W) : Decls W := declsOf g.parser.operations

theorem idsOk_reachable {env : Env W} {g : Prog W} (hg : Reachable env g) : IdsOk (decls g) := idsOk_of_inv (inv_reachable hg)

/-! ## C17 -/

/-- C17: a well-formed line with a meaning is parsed and has the effect its meaning says. -/
theorem C17_line_has_its_meaning (env : Env W) (g : Prog W) (hg : Reachable env g) (items : List Item)
    (tail : Option (List Str)) (hl : LineGiven g items tail) (hok : LineOk (decls g) items tail) (w₁ : W)
    (hv : CheckPasses env g w₁) (st' : Store) (w' : W) (hm : LineMeans (decls g) items tail g.store w₁ st' w') :
    ∃ g', parse env g = (.returned, g') ∧ g'.store = st' ∧ g'.world = w' := by
  obtain ⟨exe, _, hp⟩ := parse_line hg hl hok.itemsOk hv
  obtain ⟨s, hs, h1, h2⟩ := formatParse_of_means env.ndebug (idsOk_reachable hg) items tail hok g.store w₁ st' w' hm
  rw [hs] at hp
  exact ⟨_, hp, h1, h2⟩

/-- C17: if every option, flag and positional option has a variable of its own, a well-formed line whose values parse
and validate makes `parse()` return, and then every given option holds its value, every given flag is true, the
positional variables hold the words in order, and nothing else has changed. -/
theorem C17_well_formed_line_delivers (env : Env W) (g : Prog W) (hg : Reachable env g) (items : List Item)
    (tail : Option (List Str)) (hl : LineGiven g items tail) (hok : LineOk (decls g) items tail) (w₁ : W)
    (hv : CheckPasses env g w₁) (hd : VarsDistinct (decls g)) (ha : Accepted (decls g) items tail) :
    ∃ g', parse env g = (.returned, g') ∧ Delivered (decls g) items tail g.store g'.store := by
  obtain ⟨st', w', hm⟩ := means_of_accepted ha g.store w₁
  obtain ⟨g', h1, rfl, _⟩ := C17_line_has_its_meaning env g hg items tail hl hok w₁ hv st' w' hm
  exact ⟨g', h1, (line_delivered hd hm).1⟩

/-- The converse: a well-formed line that is parsed has a meaning, which is its effect. In release builds elements of
lists that are out of range are excluded (see C31). -/
theorem C17_only_meaningful_lines_partial (env : Env W) (g g' : Prog W) (hg : Reachable env g) (items : List Item)
    (tail : Option (List Str)) (hl : LineGiven g items tail) (hok : LineOk (decls g) items tail)
    (hnd : env.ndebug = false ∨ ListsRepresentable (decls g) items tail)
    (h : parse env g = (.returned, g')) :
    ∃ w₁, CheckPasses env g w₁ ∧ LineMeans (decls g) items tail g.store w₁ g'.store g'.world := by
  have hch : ∃ w₁, CheckPasses env g w₁ := by
    obtain ⟨exe, ha⟩ := hl.arguments
    rw [parse_unrequested env g (ready_of hl.notParsed hl.cleanName hl.noSubcommands) exe _ ha hl.noSubcommands
      hl.notEmpty (unrequested_line (inv_reachable hg) items hok.itemsOk tail hl.notRequest)] at h
    unfold CheckPasses
    cases hc : env.versionCheck g.parser.appName g.parser.notify none g.world with
    | mk o w =>
      cases o with
      | none => exact ⟨w, rfl⟩
      | some e => rw [hc] at h; simp at h
  obtain ⟨w₁, hv⟩ := hch
  obtain ⟨exe, _, hp⟩ := parse_line hg hl hok.itemsOk hv
  rw [h] at hp
  cases hf : formatParse env.ndebug (decls g) (renderLine items tail) g.store w₁ with
  | err e s => rw [hf] at hp; simp [outcomeOf, Res.core] at hp
  | ok u s =>
    rw [hf] at hp
    simp only [outcomeOf, Res.core, Prod.mk.injEq, true_and] at hp
    subst hp
    exact ⟨w₁, hv, means_of_formatParse env.ndebug (idsOk_reachable hg) items tail hok g.store w₁ s u hnd hf⟩

/-! ## C21, C22: exact exceptions -/

/-- The front of the options is fine and the next option goes wrong. -/
theorem parse_option_error (env : Env W) (g : Prog W) (hg : Reachable env g) (items : List Item)
    (tail : Option (List Str)) (hl : LooseGiven g items tail) (w₁ : W) (hv : CheckPasses env g w₁)
    (huni : ∀ d ∈ (decls g).options, d.isList = true → Uniform d items)
    (front back : List (OptDecl W)) (d : OptDecl W) (hsplit : (decls g).options = front ++ d :: back) (st₁ : Store) (w₂ : W)
    (hm : OptionsMean items front g.store w₁ st₁ w₂) (e : Exn) (c : Core W)
    (he : absOption env.ndebug d (shortValues d items) (longValues d items) (st₁, w₂) = .err e c) :
    ∃ g', parse env g = (.threw e, g') ∧ g'.store = c.1 ∧ g'.world = c.2 := by
  obtain ⟨exe, _, hp⟩ := parse_loose hg hl hv
  rw [formatParse_option_error (idsOk_reachable hg) items hl.itemsLoose tail huni env.ndebug hsplit _ _ _ _ hm e c he] at hp
  exact ⟨_, hp, rfl, rfl⟩

/-- C21: if a required option is absent and the options registered before it are fine, `required_option_missing` is
thrown, whatever else is on the line. -/
theorem C21_missing_required_option_reported (env : Env W) (g : Prog W) (hg : Reachable env g) (items : List Item)
    (tail : Option (List Str)) (hl : LooseGiven g items tail) (w₁ : W) (hv : CheckPasses env g w₁)
    (huni : ∀ d ∈ (decls g).options, d.isList = true → Uniform d items)
    (front back : List (OptDecl W)) (d : OptDecl W) (hsplit : (decls g).options = front ++ d :: back) (st₁ : Store) (w₂ : W)
    (hm : OptionsMean items front g.store w₁ st₁ w₂) (hreq : d.required = true) (habs : given d items = []) :
    ∃ g', parse env g = (.threw .requiredOptionMissing, g') := by
  have h1 : absOption env.ndebug d (shortValues d items) (longValues d items) (st₁, w₂) =
      .err .requiredOptionMissing (st₁, w₂) := by
    rw [absOption_single _ _ _ (by rw [habs]; simp), habs, absOption_missing _ _ hreq]
  obtain ⟨g', h, _⟩ := parse_option_error env g hg items tail hl w₁ hv huni front back d hsplit st₁ w₂ hm _ _ h1
  exact ⟨g', h⟩

/-- C22: if a scalar option is given more than once, with readable values in any spellings, and the options registered
before it are fine, `option_declared_multiple_times` is thrown. -/
theorem C22_second_occurrence_reported (env : Env W) (g : Prog W) (hg : Reachable env g) (items : List Item)
    (tail : Option (List Str)) (hl : LooseGiven g items tail) (w₁ : W) (hv : CheckPasses env g w₁)
    (huni : ∀ d ∈ (decls g).options, d.isList = true → Uniform d items)
    (front back : List (OptDecl W)) (d : OptDecl W) (hsplit : (decls g).options = front ++ d :: back) (st₁ : Store) (w₂ : W)
    (hm : OptionsMean items front g.store w₁ st₁ w₂) (hs : d.isList = false) (htwo : 2 ≤ (given d items).length)
    (hread : ∀ t ∈ given d items, ∃ e, Denotes d.ty t e) :
    ∃ g', parse env g = (.threw .optionDeclaredMultipleTimes, g') := by
  have hmem : ∀ t ∈ shortValues d items ++ longValues d items, t ∈ given d items := by
    intro t ht
    rcases List.mem_append.1 ht with ht | ht
    · obtain ⟨it, hi, he⟩ := List.mem_filterMap.1 ht
      refine List.mem_filterMap.2 ⟨it, hi, ?_⟩
      cases it <;> simp [Id.valueIn, Item.valueFor] at he ⊢ <;> exact ⟨he.1.symm, he.2⟩
    · obtain ⟨it, hi, he⟩ := List.mem_filterMap.1 ht
      refine List.mem_filterMap.2 ⟨it, hi, ?_⟩
      cases it <;> simp [Id.valueIn, Item.valueFor] at he ⊢ <;> exact ⟨he.1.symm, he.2⟩
  obtain ⟨c, h1, _⟩ := absOption_twice env.ndebug d hs (shortValues d items) (longValues d items)
    (by have := given_length d items; unfold shortValues longValues; omega)
    (fun t ht => hread t (hmem t ht)) (st₁, w₂)
  obtain ⟨g', h, _⟩ := parse_option_error env g hg items tail hl w₁ hv huni front back d hsplit st₁ w₂ hm _ _ h1
  exact ⟨g', h⟩

/-! ## C29, C30: texts that denote no value -/

/-- C29 and C30: a text for a scalar option that denotes no value of its type gives `user_input_error`, if the options
registered before it are fine. Other variables than that of the option and those before it are untouched. -/
theorem C29_C30_unreadable_text_reported (env : Env W) (g : Prog W) (hg : Reachable env g) (items : List Item)
    (tail : Option (List Str)) (hl : LooseGiven g items tail) (w₁ : W) (hv : CheckPasses env g w₁)
    (huni : ∀ d ∈ (decls g).options, d.isList = true → Uniform d items)
    (front back : List (OptDecl W)) (d : OptDecl W) (hsplit : (decls g).options = front ++ d :: back) (st₁ : Store) (w₂ : W)
    (hm : OptionsMean items front g.store w₁ st₁ w₂) (hs : d.isList = false) (t : Str) (hgiven : given d items = [t])
    (hbad : BadText d.ty t) :
    ∃ g', parse env g = (.threw .userInputError, g') ∧ ∀ y, y ≠ d.var → g'.store y = st₁ y := by
  obtain ⟨c, h1, _, h3⟩ := absOption_bad env.ndebug d hs t hbad (st₁, w₂)
  rw [← hgiven, ← absOption_single _ _ _ (by rw [hgiven]; simp)] at h1
  obtain ⟨g', h, h4, _⟩ := parse_option_error env g hg items tail hl w₁ hv huni front back d hsplit st₁ w₂ hm _ _ h1
  exact ⟨g', h, fun y hy => by rw [h4]; exact h3 y hy⟩

/-! ## C33: validators -/

/-- C33: a value that the validator of its option rejects gives `validation_error`, if the options registered before
it are fine. -/
theorem C33_rejected_value_reported (env : Env W) (g : Prog W) (hg : Reachable env g) (items : List Item)
    (tail : Option (List Str)) (hl : LooseGiven g items tail) (w₁ : W) (hv : CheckPasses env g w₁)
    (huni : ∀ d ∈ (decls g).options, d.isList = true → Uniform d items)
    (front back : List (OptDecl W)) (d : OptDecl W) (hsplit : (decls g).options = front ++ d :: back) (st₁ : Store) (w₂ : W)
    (hm : OptionsMean items front g.store w₁ st₁ w₂) (hgiven : given d items ≠ []) (val : Val)
    (hval : ValueOf d.isList d.ty (given d items) val) (w₃ : W) (hrej : d.validator val w₂ = (false, w₃)) :
    ∃ g', parse env g = (.threw .validationError, g') ∧ g'.world = w₃ := by
  have h1 := absOption_rejected env.ndebug d (given d items) hgiven val hval (st₁, w₂) w₃ hrej
  have huni' : absOption env.ndebug d (shortValues d items) (longValues d items) = absOption env.ndebug d (given d items) [] := by
    cases hl' : d.isList with
    | true => exact absOption_uniform _ _ _ (huni d (by rw [hsplit]; simp) hl')
    | false =>
      apply absOption_single
      rw [hl'] at hval
      obtain ⟨t, e, h, _⟩ := hval
      rw [h]; simp
  rw [← huni'] at h1
  obtain ⟨g', h, _, h5⟩ := parse_option_error env g hg items tail hl w₁ hv huni front back d hsplit st₁ w₂ hm _ _ h1
  exact ⟨g', h, h5⟩

/-! ## C27: positional options -/

/-- Everything in front of the positional options is fine and these end in an exception. -/
theorem parse_positional_error (env : Env W) (g : Prog W) (hg : Reachable env g) (items : List Item)
    (tail : Option (List Str)) (hl : LineGiven g items tail) (hok : LineOk (decls g) items tail) (w₁ : W)
    (hv : CheckPasses env g w₁) (st₁ : Store) (w₂ : W)
    (hm : OptionsMean items (decls g).options g.store w₁ st₁ w₂) (e : Exn) (c : Core W)
    (he : absPositionals env.ndebug (decls g).positionals (words items tail)
      (setFlags items (decls g).flags st₁, w₂) = .err e c) :
    ∃ g', parse env g = (.threw e, g') ∧ g'.store = c.1 ∧ g'.world = c.2 := by
  obtain ⟨exe, _, hp⟩ := parse_line hg hl hok.itemsOk hv
  have hD := idsOk_reachable hg
  have h1 := absOptions_mean hD items (fun it h => (hok.itemsOk it h).loose hD) hok.listsUniform env.ndebug
    (decls g).options [] [] g.store w₁ st₁ w₂ (by simp) hm
  rw [line_core hD items tail hok] at hp
  unfold M.bind at hp
  rw [h1] at hp
  dsimp only at hp
  rw [he] at hp
  exact ⟨_, hp, rfl, rfl⟩

/-- C27: with fewer words than positional options, the existing words being fine, `too_few_arguments` is thrown. -/
theorem C27_too_few_words_reported (env : Env W) (g : Prog W) (hg : Reachable env g) (items : List Item)
    (tail : Option (List Str)) (hl : LineGiven g items tail) (hok : LineOk (decls g) items tail) (w₁ : W)
    (hv : CheckPasses env g w₁) (st₁ : Store) (w₂ : W) (hm : OptionsMean items (decls g).options g.store w₁ st₁ w₂)
    (ps qs : List (PosDecl W)) (p : PosDecl W) (hsplit : (decls g).positionals = ps ++ p :: qs) (st₃ : Store) (w₃ : W)
    (hps : PositionalsMean ps (words items tail) (setFlags items (decls g).flags st₁) w₂ st₃ w₃) :
    ∃ g', parse env g = (.threw .tooFewArguments, g') := by
  have hsc : ∀ q ∈ ps, q.isList = false := by
    intro q hq
    refine positional_lists_last (inv_reachable hg) q ?_
    show q ∈ (decls g).positionals.dropLast
    rw [hsplit, List.dropLast_append_of_ne_nil (by simp)]
    exact List.mem_append_left _ hq
  have h1 := absPositionals_append env.ndebug ps hsc (p :: qs) [] _ _ _ _ _ hps
  rw [List.append_nil, absPositionals_too_few, ← hsplit] at h1
  obtain ⟨g', h, _⟩ := parse_positional_error env g hg items tail hl hok w₁ hv st₁ w₂ hm _ _ h1
  exact ⟨g', h⟩

/-- C27: with more words than positional options, none of which is a list, the first ones being fine,
`too_many_arguments` is thrown. -/
theorem C27_too_many_words_reported (env : Env W) (g : Prog W) (hg : Reachable env g) (items : List Item)
    (tail : Option (List Str)) (hl : LineGiven g items tail) (hok : LineOk (decls g) items tail) (w₁ : W)
    (hv : CheckPasses env g w₁) (st₁ : Store) (w₂ : W) (hm : OptionsMean items (decls g).options g.store w₁ st₁ w₂)
    (hsc : ∀ p ∈ (decls g).positionals, p.isList = false) (ws : List Str) (x : Str) (xs : List Str)
    (hws : words items tail = ws ++ x :: xs) (st₃ : Store) (w₃ : W)
    (hps : PositionalsMean (decls g).positionals ws (setFlags items (decls g).flags st₁) w₂ st₃ w₃) :
    ∃ g', parse env g = (.threw .tooManyArguments, g') := by
  have h1 := absPositionals_append env.ndebug (decls g).positionals hsc [] (x :: xs) _ _ _ _ _ hps
  rw [List.append_nil, absPositionals_too_many, ← hws] at h1
  obtain ⟨g', h, _⟩ := parse_positional_error env g hg items tail hl hok w₁ hv st₁ w₂ hm _ _ h1
  exact ⟨g', h⟩

/-- C29, C30, C33 for positional options: an unreadable word gives `user_input_error` ... -/
theorem C29_C30_unreadable_word_reported (env : Env W) (g : Prog W) (hg : Reachable env g) (items : List Item)
    (tail : Option (List Str)) (hl : LineGiven g items tail) (hok : LineOk (decls g) items tail) (w₁ : W)
    (hv : CheckPasses env g w₁) (st₁ : Store) (w₂ : W) (hm : OptionsMean items (decls g).options g.store w₁ st₁ w₂)
    (ps qs : List (PosDecl W)) (p : PosDecl W) (hsplit : (decls g).positionals = ps ++ p :: qs) (hp : p.isList = false)
    (ws : List Str) (t : Str) (xs : List Str) (hws : words items tail = ws ++ t :: xs) (st₃ : Store) (w₃ : W)
    (hps : PositionalsMean ps ws (setFlags items (decls g).flags st₁) w₂ st₃ w₃) (hbad : BadText p.ty t) :
    ∃ g', parse env g = (.threw .userInputError, g') ∧ ∀ y, y ≠ p.var → g'.store y = st₃ y := by
  have hsc : ∀ q ∈ ps, q.isList = false := by
    intro q hq
    refine positional_lists_last (inv_reachable hg) q ?_
    show q ∈ (decls g).positionals.dropLast
    rw [hsplit, List.dropLast_append_of_ne_nil (by simp)]
    exact List.mem_append_left _ hq
  have h1 := absPositionals_append env.ndebug ps hsc (p :: qs) (t :: xs) _ _ _ _ _ hps
  obtain ⟨c, h2, _, h3⟩ := absPositionals_bad env.ndebug p hp qs t xs hbad (st₃, w₃)
  rw [h2, ← hsplit, ← hws] at h1
  obtain ⟨g', h, h4, _⟩ := parse_positional_error env g hg items tail hl hok w₁ hv st₁ w₂ hm _ _ h1
  exact ⟨g', h, fun y hy => by rw [h4]; exact h3 y hy⟩

/-- ... and a rejected one `validation_error`. -/
theorem C33_rejected_word_reported (env : Env W) (g : Prog W) (hg : Reachable env g) (items : List Item)
    (tail : Option (List Str)) (hl : LineGiven g items tail) (hok : LineOk (decls g) items tail) (w₁ : W)
    (hv : CheckPasses env g w₁) (st₁ : Store) (w₂ : W) (hm : OptionsMean items (decls g).options g.store w₁ st₁ w₂)
    (ps qs : List (PosDecl W)) (p : PosDecl W) (hsplit : (decls g).positionals = ps ++ p :: qs) (hp : p.isList = false)
    (ws : List Str) (t : Str) (xs : List Str) (hws : words items tail = ws ++ t :: xs) (st₃ : Store) (w₃ : W)
    (hps : PositionalsMean ps ws (setFlags items (decls g).flags st₁) w₂ st₃ w₃) (val : Val)
    (hval : ValueOf false p.ty [t] val) (w₄ : W) (hrej : p.validator val w₃ = (false, w₄)) :
    ∃ g', parse env g = (.threw .validationError, g') ∧ g'.world = w₄ := by
  have hsc : ∀ q ∈ ps, q.isList = false := by
    intro q hq
    refine positional_lists_last (inv_reachable hg) q ?_
    show q ∈ (decls g).positionals.dropLast
    rw [hsplit, List.dropLast_append_of_ne_nil (by simp)]
    exact List.mem_append_left _ hq
  have h1 := absPositionals_append env.ndebug ps hsc (p :: qs) (t :: xs) _ _ _ _ _ hps
  rw [absPositionals_rejected env.ndebug p hp qs t xs val hval (st₃, w₃) w₄ hrej, ← hsplit, ← hws] at h1
  obtain ⟨g', h, _, h5⟩ := parse_positional_error env g hg items tail hl hok w₁ hv st₁ w₂ hm _ _ h1
  exact ⟨g', h, h5⟩

/-! ## C25 -/

/-- C25: a flag mentioned more than once, in groups or with the long identifier, gives `unknown_option`, if the options
are fine. -/
theorem C25_repeated_flag_reported (env : Env W) (g : Prog W) (hg : Reachable env g) (items : List Item)
    (tail : Option (List Str)) (hl : LineGiven g items tail) (hit : ∀ it ∈ items, it.Ok (decls g)) (w₁ : W)
    (hv : CheckPasses env g w₁) (huni : ∀ d ∈ (decls g).options, d.isList = true → Uniform d items) (st₁ : Store) (w₂ : W)
    (hm : OptionsMean items (decls g).options g.store w₁ st₁ w₂) (f : FlagDecl) (hf : f ∈ (decls g).flags)
    (htwo : 2 ≤ mentions f items) :
    ∃ g', parse env g = (.threw .unknownOption, g') := by
  obtain ⟨exe, _, hp⟩ := parse_line hg hl hit hv
  have hD := idsOk_reachable hg
  have hloose : ∀ it ∈ items, it.Loose (decls g) := fun it h => (hit it h).loose hD
  have h1 := absOptions_mean hD items hloose huni env.ndebug
    (decls g).options [] [] g.store w₁ st₁ w₂ (by simp) hm
  obtain ⟨c, h2⟩ := absRest_repeated hD hf items hit htwo env.ndebug (tailCells tail) st₁ w₂
  rw [formatParse_core hD items hloose tail] at hp
  unfold M.bind at hp
  rw [h1] at hp
  dsimp only at hp
  rw [h2] at hp
  exact ⟨_, hp⟩

/-! ## The hypotheses of the theorems above are met by concrete programs -/

theorem exRun_decls (cs : List (Call Unit)) (args : List Str)
    (h : (accepted exEnv (cs.map .call) (start { exInit with arguments := "app".toList :: args } exStore ())).length = cs.length) :
    decls (exRun cs args) = declsOf (cs.filterMap Call.entry?) := by
  unfold decls exRun
  rw [operations_of_length exEnv cs _ h]
  rfl

/-- A line with all kinds of items for `exProg`: `-n 3 file -vq --list=a - --loud --list b -- -x`. -/
def exItems : List Item :=
  [.short 'n' .separate "3".toList, .word "file".toList, .flags ['v', 'q'], .long "list".toList false "a".toList,
   .word "-".toList, .longFlag "loud".toList, .long "list".toList true "b".toList]

def exTail : Option (List Str) := some ["-x".toList]

def exLine : Prog Unit := exRun exCalls (renderLine exItems exTail)

theorem exLine_given : LineGiven exLine exItems exTail := by decide +kernel

theorem exLine_ok : LineOk (decls exLine) exItems exTail := by decide +kernel

theorem exLine_decls : decls exLine = declsOf (exCalls.filterMap Call.entry?) := exRun_decls _ _ (by decide +kernel)

theorem exLine_accepted : Accepted (decls exLine) exItems exTail := by
  rw [exLine_decls]
  refine ⟨by decide, ?_, ?_⟩
  · intro d hd
    have hd : d ∈ [⟨'n', "num".toList, 0, false, .integer (-128) 127, false, fun _ w => (true, w)⟩,
      ⟨'s', "str".toList, 1, false, .string, false, fun _ w => (true, w)⟩,
      ⟨'l', "list".toList, 2, true, .string, false, fun _ w => (true, w)⟩] := hd
    simp only [List.mem_cons, List.not_mem_nil, or_false] at hd
    rcases hd with rfl | rfl | rfl
    · exact fun _ => ⟨.one (.int 3), ⟨"3".toList, .int 3, by decide, rfl, 3, rfl, by decide, by decide, Or.inl (by decide)⟩,
        fun _ => rfl⟩
    · exact fun h => absurd (by decide) h
    · exact fun _ => ⟨.many [.str "a".toList, .str "b".toList], ⟨_, rfl, rfl, rfl, trivial⟩, fun _ => rfl⟩
  · exact ⟨rfl, by decide, .many [.str "file".toList, .str "-".toList, .str "-x".toList], ⟨_, rfl, rfl, rfl, rfl, trivial⟩, fun _ => rfl⟩

example : ∃ g', parse exEnv exLine = (.returned, g') ∧ Delivered (decls exLine) exItems exTail exLine.store g'.store :=
  C17_well_formed_line_delivers exEnv exLine (exRun_reachable _ _) exItems exTail exLine_given exLine_ok () rfl
    (by decide +kernel) exLine_accepted

/-- A program with a required option, validators and a scalar positional option. -/
def exCalls₂ : List (Call Unit) :=
  [.addOption { short := 'n', long := "num".toList, required := true } 0 false (.integer (-128) 127) fun _ w => (true, w),
   .addOption { short := 's', long := "str".toList } 1 false .string fun v w => (v != .one (.str "bad".toList), w),
   .addFlag { short := 'v', long := "verbose".toList } 3 false,
   .addPositionalOption {} 6 false (.integer 0 255) fun v w => (v != .one (.int 7), w)]

def exLine₂ (items : List Item) : Prog Unit := exRun exCalls₂ (renderLine items none)

theorem exLine₂_decls (items : List Item) (h : (accepted exEnv (exCalls₂.map .call)
      (start { exInit with arguments := "app".toList :: renderLine items none } exStore ())).length = exCalls₂.length) :
    decls (exLine₂ items) = declsOf (exCalls₂.filterMap Call.entry?) := exRun_decls _ _ h

def exNum : OptDecl Unit := ⟨'n', "num".toList, 0, false, .integer (-128) 127, true, fun _ w => (true, w)⟩
def exStr : OptDecl Unit := ⟨'s', "str".toList, 1, false, .string, false, fun v w => (v != .one (.str "bad".toList), w)⟩
def exPos : PosDecl Unit := ⟨6, false, .integer 0 255, fun v w => (v != .one (.int 7), w)⟩

theorem badText_of {ty : ElemTy} {t : Str} (h : readElem ty t = none) (hne : ∀ names, ty = .enumeration names → names ≠ []) :
    BadText ty t := ⟨fun e he => (by rw [(readElem_iff ty t e).2 he] at h; cases h), hne⟩

/-- `-n 3` is fine. -/
theorem exNum_mean (items : List Item) (hg : given exNum items = ["3".toList]) (st : Store) :
    OptionsMean items [exNum] st () (st.set 0 (.one (.int 3))) () :=
  Or.inr ⟨by rw [hg]; simp, .one (.int 3), (), by
    rw [hg]; exact ⟨"3".toList, .int 3, rfl, rfl, 3, rfl, by decide, by decide, Or.inl (by decide)⟩, rfl, rfl, rfl⟩

theorem exBoth_mean (items : List Item) (hg : given exNum items = ["3".toList]) (hs : given exStr items = []) (st : Store) :
    OptionsMean items [exNum, exStr] st () (st.set 0 (.one (.int 3))) () :=
  Or.inr ⟨by rw [hg]; simp, .one (.int 3), (), by
    rw [hg]; exact ⟨"3".toList, .int 3, rfl, rfl, 3, rfl, by decide, by decide, Or.inl (by decide)⟩, rfl,
    Or.inl ⟨hs, rfl, rfl, rfl⟩⟩

/-- `-s x 5`: the required option is missing. -/
example : let items := [.short 's' .separate "x".toList, .word "5".toList]
    ∃ g', parse exEnv (exLine₂ items) = (.threw .requiredOptionMissing, g') := by
  intro items
  have hd := exLine₂_decls items (by decide +kernel)
  exact C21_missing_required_option_reported exEnv (exLine₂ items) (exRun_reachable _ _) items none (by decide +kernel) () rfl
    (by decide +kernel) [] [exStr] exNum (by rw [hd]; rfl) _ _ ⟨rfl, rfl⟩ rfl (by decide)

/-- `-n 3 --num=4 5`: given twice. -/
example : let items := [.short 'n' .separate "3".toList, .long "num".toList false "4".toList, .word "5".toList]
    ∃ g', parse exEnv (exLine₂ items) = (.threw .optionDeclaredMultipleTimes, g') := by
  intro items
  have hd := exLine₂_decls items (by decide +kernel)
  refine C22_second_occurrence_reported exEnv (exLine₂ items) (exRun_reachable _ _) items none (by decide +kernel) () rfl
    (by decide +kernel) [] [exStr] exNum (by rw [hd]; rfl) _ _ ⟨rfl, rfl⟩ rfl (by decide) ?_
  intro t ht
  have ht : t ∈ ["3".toList, "4".toList] := ht
  simp only [List.mem_cons, List.not_mem_nil, or_false] at ht
  rcases ht with rfl | rfl
  · exact ⟨_, 3, rfl, by decide, by decide, Or.inl (by decide)⟩
  · exact ⟨_, 4, rfl, by decide, by decide, Or.inl (by decide)⟩

/-- `-n 200 5`: out of range. -/
example : let items := [.short 'n' .separate "200".toList, .word "5".toList]
    ∃ g', parse exEnv (exLine₂ items) = (.threw .userInputError, g') ∧ ∀ y, y ≠ 0 → g'.store y = (exLine₂ items).store y := by
  intro items
  have hd := exLine₂_decls items (by decide +kernel)
  exact C29_C30_unreadable_text_reported exEnv (exLine₂ items) (exRun_reachable _ _) items none (by decide +kernel) () rfl
    (by decide +kernel) [] [exStr] exNum (by rw [hd]; rfl) _ _ ⟨rfl, rfl⟩ rfl "200".toList (by decide)
    (badText_of (by decide) (by intro n h; cases h))

/-- `-n 3 -s bad 5`: the validator rejects. -/
example : let items := [.short 'n' .separate "3".toList, .short 's' .separate "bad".toList, .word "5".toList]
    ∃ g', parse exEnv (exLine₂ items) = (.threw .validationError, g') ∧ g'.world = () := by
  intro items
  have hd := exLine₂_decls items (by decide +kernel)
  exact C33_rejected_value_reported exEnv (exLine₂ items) (exRun_reachable _ _) items none (by decide +kernel) () rfl
    (by decide +kernel) [exNum] [] exStr (by rw [hd]; rfl) _ _ (exNum_mean items (by decide) _) (by decide)
    (.one (.str "bad".toList)) ⟨"bad".toList, _, by decide, rfl, rfl⟩ () rfl

/-- `-n 3 -v`: a word is missing. -/
example : let items := [.short 'n' .separate "3".toList, .flags ['v']]
    ∃ g', parse exEnv (exLine₂ items) = (.threw .tooFewArguments, g') := by
  intro items
  have hd := exLine₂_decls items (by decide +kernel)
  exact C27_too_few_words_reported exEnv (exLine₂ items) (exRun_reachable _ _) items none (by decide +kernel)
    (by decide +kernel) () rfl _ _ (by rw [hd]; exact exBoth_mean items (by decide) (by decide) _) [] [] exPos
    (by rw [hd]; rfl) _ _ ⟨by decide, rfl, rfl⟩

/-- `-n 3 5 6`: a word too many. -/
example : let items := [.short 'n' .separate "3".toList, .word "5".toList, .word "6".toList]
    ∃ g', parse exEnv (exLine₂ items) = (.threw .tooManyArguments, g') := by
  intro items
  have hd := exLine₂_decls items (by decide +kernel)
  refine C27_too_many_words_reported exEnv (exLine₂ items) (exRun_reachable _ _) items none (by decide +kernel)
    (by decide +kernel) () rfl _ _ (by rw [hd]; exact exBoth_mean items (by decide) (by decide) _) (by rw [hd]; decide)
    ["5".toList] "6".toList [] (by decide) ?_ () ?_
  · exact (setFlags items (decls (exLine₂ items)).flags ((exLine₂ items).store.set 0 (.one (.int 3)))).set 6 (.one (.int 5))
  · rw [hd]
    exact ⟨"5".toList, [], .one (.int 5), (), rfl,
      ⟨_, .int 5, rfl, rfl, 5, rfl, by decide, by decide, Or.inl (by decide)⟩, rfl, rfl, rfl, rfl⟩

/-- `-n 3 x`: the word is no number. -/
example : let items := [.short 'n' .separate "3".toList, .word "x".toList]
    ∃ g', parse exEnv (exLine₂ items) = (.threw .userInputError, g') := by
  intro items
  have hd := exLine₂_decls items (by decide +kernel)
  obtain ⟨g', h, _⟩ := C29_C30_unreadable_word_reported exEnv (exLine₂ items) (exRun_reachable _ _) items none (by decide +kernel)
    (by decide +kernel) () rfl _ _ (by rw [hd]; exact exBoth_mean items (by decide) (by decide) _) [] [] exPos
    (by rw [hd]; rfl) rfl [] "x".toList [] (by decide) _ _ ⟨rfl, rfl, rfl⟩ (badText_of (by decide) (by intro n h; cases h))
  exact ⟨g', h⟩

/-- `-n 3 7`: the validator rejects the word. -/
example : let items := [.short 'n' .separate "3".toList, .word "7".toList]
    ∃ g', parse exEnv (exLine₂ items) = (.threw .validationError, g') ∧ g'.world = () := by
  intro items
  have hd := exLine₂_decls items (by decide +kernel)
  exact C33_rejected_word_reported exEnv (exLine₂ items) (exRun_reachable _ _) items none (by decide +kernel)
    (by decide +kernel) () rfl _ _ (by rw [hd]; exact exBoth_mean items (by decide) (by decide) _) [] [] exPos
    (by rw [hd]; rfl) rfl [] "7".toList [] (by decide) _ _ ⟨rfl, rfl, rfl⟩ (.one (.int 7))
    ⟨_, .int 7, rfl, rfl, 7, rfl, by decide, by decide, Or.inl (by decide)⟩ () rfl

/-- `-n 3 -v --verbose 5`: a repeated flag. -/
example : let items := [.short 'n' .separate "3".toList, .flags ['v'], .longFlag "verbose".toList, .word "5".toList]
    ∃ g', parse exEnv (exLine₂ items) = (.threw .unknownOption, g') := by
  intro items
  have hd := exLine₂_decls items (by decide +kernel)
  exact C25_repeated_flag_reported exEnv (exLine₂ items) (exRun_reachable _ _) items none (by decide +kernel)
    (by decide +kernel) () rfl (by decide +kernel) _ _ (by rw [hd]; exact exBoth_mean items (by decide) (by decide) _)
    ⟨'v', "verbose".toList, 3⟩ (by rw [hd]; exact List.mem_singleton.2 rfl) (by decide)

end Sharg
