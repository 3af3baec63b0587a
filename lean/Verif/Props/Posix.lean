import Verif.Spec.Posix
import Verif.Props.Order
import Verif.Props.Success
import Verif.Props.ErrorTexts

/-!
# Property C89: the POSIX conventions
-/

namespace Sharg

open Spec

variable {W : Type}

theorem reformed_values {l₁ l₂ : List Item} (h : Pointwise Reformed l₁ l₂) (id : Id) :
    l₁.filterMap id.valueIn = l₂.filterMap id.valueIn := by
  induction h with
  | nil => rfl
  | cons h1 _ ih =>
    rw [List.filterMap_cons, List.filterMap_cons, ih]
    cases h1 with
    | same it => rfl
    | short c form form' v => rfl
    | long s sep sep' v => rfl

theorem reformed_others {l₁ l₂ : List Item} (h : Pointwise Reformed l₁ l₂) : others l₁ = others l₂ := by
  unfold others
  induction h with
  | nil => rfl
  | cons h1 _ ih =>
    rw [List.flatMap_cons, List.flatMap_cons, ih]
    cases h1 with
    | same it => rfl
    | short c form form' v => rfl
    | long s sep sep' v => rfl

/-- **C89**, second convention: whether a value is attached to its identifier or an argument of its own is irrelevant for the
way `parse()` ends and for its effect. Any number of options of the line may be changed, and the line may contain anything
else, correct or not, provided that no value and no other argument looks like an option. Unlike in C19 the line may use both
identifiers of an option. -/
theorem C89_blank_in_front_of_value_optional_partial (env : Env W) (g₁ g₂ : Prog W) (hg₁ : Reachable env g₁)
    (hg₂ : Reachable env g₂) (hsame : SameSetup g₁ g₂) (items₁ items₂ : List Item) (tail : Option (List Str))
    (hl₁ : LooseGiven g₁ items₁ tail) (hl₂ : LooseGiven g₂ items₂ tail) (hr : Pointwise Reformed items₁ items₂) :
    SameOutcome env g₁ g₂ := by
  have hD := idsOk_reachable hg₁
  have hops : decls g₁ = decls g₂ := by unfold decls; rw [hsame.operations]
  refine parse_same (ready_of hl₁.notParsed hl₁.cleanName hl₁.noSubcommands)
    (ready_of hl₂.notParsed hl₂.cleanName hl₂.noSubcommands) hl₁.arguments hl₂.arguments hl₁.noSubcommands
    hl₂.noSubcommands hl₁.notEmpty hl₂.notEmpty
    (unrequested_loose (inv_reachable hg₁) items₁ hl₁.itemsLoose hl₁.others tail hl₁.tailPlain)
    (unrequested_loose (inv_reachable hg₂) items₂ hl₂.itemsLoose hl₂.others tail hl₂.tailPlain) hsame ?_
  intro w
  have hloose₂ : ∀ it ∈ items₂, it.Loose (decls g₁) := by rw [hops]; exact hl₂.itemsLoose
  show (formatParse env.ndebug (decls g₁) _ _ _).core = (formatParse env.ndebug (decls g₂) _ _ _).core
  rw [← hops, formatParse_core hD items₁ hl₁.itemsLoose tail, formatParse_core hD items₂ hloose₂ tail, hsame.store,
    absOptions_values env.ndebug (decls g₁).options (reformed_values hr), reformed_others hr]

/-- C89: a single hyphen in front of `--` that does not follow a bare option identifier is an ordinary word: if `parse()`
returns, it is among the words that the positional options hold. The documentation says the opposite. -/
theorem C89_hyphen_is_a_word (env : Env W) (g g' : Prog W) (hg : Reachable env g) (h : parse env g = (.returned, g'))
    (hv : VarsDistinct (decls g)) (hfree : ['-'] ∈ free (decls g) false (before g'.parser.formatArguments))
    (hnd : env.ndebug = false ∨ ∀ p ∈ (decls g).positionals, p.isList = true → ∀ t, ¬ OutOfRange p.ty t) :
    ∃ ws, ['-'] ∈ ws ∧ PositionalValues (decls g).positionals ws g'.store := by
  obtain ⟨hi, hD, w1, s, hf, hs, _⟩ := reachable_returned hg h
  obtain ⟨ph⟩ := phases env.ndebug hD _ g.store w1 s () hf
  have hset := settled_of_becomes ph.flgPre ph.noIds
  obtain ⟨h1, _⟩ := positionals_final hv env.ndebug ph (fun p hp hl t ht => hnd.imp id (fun h => h p hp hl t))
  refine ⟨_, ?_, by rw [hs]; exact h1⟩
  have hm : ['-'] ∈ ph.opt.pre := free_mem ph.optDone.uses hfree (fun d hd hn => by
    rcases hn with ⟨_, hp⟩ | ⟨_, hp | hp⟩
    · have := hp.length_le; simp at this
    · cases hp
    · have := hp.length_le; simp at this)
  have key : ∀ {l m : List Str}, Pointwise (Settled (decls g)) l m → ['-'] ∈ l → ['-'] ∈ m := by
    intro l m hp
    induction hp with
    | nil => simp
    | cons h1 _ ih =>
      intro ha
      rcases List.mem_cons.1 ha with rfl | ha
      · cases h1 <;> simp_all [FlagArgument]
      · exact List.mem_cons_of_mem _ (ih ha)
  simp only [remaining, List.mem_filter, List.mem_append]
  exact ⟨Or.inl (key hset hm), by simp⟩

/-- C89: POSIX also allows the last character of a group to be an option with its value behind it (`-vo file`). The parser does
not: a group that starts with no option's character and contains a character that is no flag is always rejected, whatever
follows. -/
theorem C89_group_with_option_rejected (env : Env W) (g g' : Prog W) (hg : Reachable env g) (c o : Char) (t : Str)
    (hc : c ≠ '-') (ht : '-' ∉ t) (hno : ∀ d ∈ (decls g).options, d.short ≠ c) (ho : o ∈ c :: t)
    (hf : ∀ f ∈ (decls g).flags, f.short ≠ o)
    (hfree : '-' :: c :: t ∈ free (decls g) false (before g'.parser.formatArguments)) :
    parse env g ≠ (.returned, g') := by
  intro h
  rcases C26_unknown_identifiers_rejected env g g' hg h _ c t rfl hfree with ⟨d, hd, ha | ha⟩ | ha
  · obtain ⟨v, _, ⟨_, e | ⟨_, e⟩⟩ | ⟨_, e⟩⟩ := ha
    · injection e with _ e; injection e with e _; exact hno d hd e.symm
    · injection e with _ e; injection e with e _; exact hno d hd e.symm
    · injection e with _ e; injection e with e _; exact hc e
  · rcases ha with ⟨_, e⟩ | ⟨_, e⟩
    · injection e with _ e; injection e with e _; exact hno d hd e.symm
    · injection e with _ e; injection e with e _; exact hc e
  · rcases ha with ⟨f, _, e⟩ | ⟨u, rest, e, _, _, ⟨xs, hxs, hperm, hsub⟩, hrest⟩
    · injection e with _ e; injection e with e _; exact hc e
    · injection e with _ e
      subst e
      rcases hrest with rfl | ⟨f, _, rfl⟩
      · have : o ∈ xs := by simpa using hperm.mem_iff.1 ho
        obtain ⟨f, hff, e⟩ := hxs o this
        exact hf f hff e
      · have : '-' ∈ c :: t := hsub.subset (by simp)
        rcases List.mem_cons.1 this with e | e
        · exact hc e.symm
        · exact ht e

/-- C89: ... and if the other characters are flags, the message calls an option unknown that is registered: `-vn 3` with the
flag `-v` and the option `-n`. -/
theorem C89_registered_option_called_unknown :
    exSaid exCalls ["-vn", "3"] = some (.unknownOption, ("Unknown option -n. In case this is meant to be a " ++
      "non-option/argument/parameter, please specify the start of non-options with '--'. See -h/--help for program " ++
      "information.").toList) ∧
    exReturns ["-v", "-n", "3", "x"] [(0, .one (.int 3)), (3, .one (.bool true))] = true ∧
    exReturns ["-v", "-n3", "x"] [(0, .one (.int 3)), (3, .one (.bool true))] = true := by
  refine ⟨by decide +kernel, by decide +kernel, by decide +kernel⟩

/-- C89: the remark in the documentation that a single hyphen is not an ordinary argument is wrong: `app -` puts it into the
list of the positional option, and `app -s - -` also gives it to the option `-s`. -/
theorem C89_hyphen_delivered :
    exReturns ["-"] [(6, .many [.str "-".toList])] = true ∧
    exReturns ["-s", "-", "-"] [(1, .one (.str "-".toList)), (6, .many [.str "-".toList])] = true := by
  refine ⟨by decide +kernel, by decide +kernel⟩

/-! ### The hypotheses can be met -/

def exHyphen : Prog Unit := exProg ["-n", "3", "-", "--", "y"]

def exMixed : Prog Unit := exProg ["-vn", "3"]

/-- A single hyphen among options. -/
example : ['-'] ∈ free (decls exHyphen) false
      (before (parse exEnv exHyphen).2.parser.formatArguments) ∧
    parse exEnv exHyphen = (.returned, (parse exEnv exHyphen).2) ∧
    VarsDistinct (decls exHyphen) ∧ exEnv.ndebug = false :=
  ⟨by decide +kernel, returned_pair (by decide +kernel), by decide +kernel, rfl⟩

/-- A group of the flag `-v` and the option `-n`. -/
example : ('v' ≠ '-' ∧ '-' ∉ ['n'] ∧ (∀ d ∈ (decls exMixed).options, d.short ≠ 'v') ∧ 'n' ∈ ['v', 'n'] ∧
    ∀ f ∈ (decls exMixed).flags, f.short ≠ 'n') ∧
    "-vn".toList ∈ free (decls exMixed) false
      (before (parse exEnv exMixed).2.parser.formatArguments) :=
  ⟨by decide +kernel, by decide +kernel⟩

/-- Both identifiers of an option in one line, with values attached and separate. -/
example : LooseGiven (exProg ["-l", "a", "--list=b", "-v", "x"])
      [.short 'l' .separate "a".toList, .long "list".toList false "b".toList, .flags ['v'], .word "x".toList] none ∧
    LooseGiven (exProg ["-la", "--list", "b", "-v", "x"])
      [.short 'l' .attached "a".toList, .long "list".toList true "b".toList, .flags ['v'], .word "x".toList] none ∧
    Pointwise Reformed
      [.short 'l' .separate "a".toList, .long "list".toList false "b".toList, .flags ['v'], .word "x".toList]
      [.short 'l' .attached "a".toList, .long "list".toList true "b".toList, .flags ['v'], .word "x".toList] :=
  ⟨by decide +kernel, by decide +kernel, .cons (.short ..) (.cons (.long ..) (.cons (.same _) (.cons (.same _) .nil)))⟩

end Sharg
