import Verif.Spec.Order
import Verif.Props.Equivalence

/-!
# Property C74: the order of options on the command line
-/

namespace Sharg

open Spec

variable {W : Type}

theorem rearranged_mem {R : Item → Item → Prop} {l₁ l₂ : List Item} (h : Rearranged R l₁ l₂) : l₁.Perm l₂ := by
  induction h with
  | refl l => exact .refl l
  | swap front a b back l _ _ ih => exact ((List.Perm.swap b a back).append_left front).trans ih

/-- What is collected from the items is the same if it is so for exchanged neighbours. -/
theorem rearranged_collect {α : Type} {R : Item → Item → Prop} (f : Item → List α) (hf : ∀ a b, R a b → f a ++ f b = f b ++ f a)
    {l₁ l₂ : List Item} (h : Rearranged R l₁ l₂) : l₁.flatMap f = l₂.flatMap f := by
  induction h with
  | refl l => rfl
  | swap front a b back l hr _ ih =>
    rw [← ih]
    simp only [List.flatMap_append, List.flatMap_cons]
    rw [← List.append_assoc (f a), hf a b hr, List.append_assoc]

theorem filterMap_flatMap {α β : Type} (f : α → Option β) (l : List α) : l.filterMap f = l.flatMap fun a => (f a).toList := by
  induction l with
  | nil => rfl
  | cons a l ih =>
    rw [List.filterMap_cons, List.flatMap_cons, ← ih]
    cases f a <;> rfl

theorem valueIn_identifier (id : Id) (it : Item) (v : Str) (h : id.valueIn it = some v) : it.identifier = some id := by
  cases it with
  | short c form w =>
    simp only [Id.valueIn] at h
    split at h
    · rename_i e; rw [e]; rfl
    · cases h
  | long s sep w =>
    simp only [Id.valueIn] at h
    split at h
    · rename_i e; rw [e]; rfl
    · cases h
  | flags cs => cases h
  | longFlag s => cases h
  | word w => cases h

/-- Values of an identifier keep their order if items with the same identifier are not exchanged. -/
theorem rearranged_values {R : Item → Item → Prop} (hR : ∀ a b, R a b → a.identifier = none ∨ a.identifier ≠ b.identifier)
    {l₁ l₂ : List Item} (h : Rearranged R l₁ l₂) (id : Id) : l₁.filterMap id.valueIn = l₂.filterMap id.valueIn := by
  rw [filterMap_flatMap, filterMap_flatMap]
  refine rearranged_collect _ (fun a b hr => ?_) h
  cases ha : id.valueIn a with
  | none => simp
  | some v =>
    cases hb : id.valueIn b with
    | none => simp
    | some w =>
      have h1 := valueIn_identifier id a v ha
      have h2 := valueIn_identifier id b w hb
      rcases hR a b hr with h | h
      · rw [h] at h1; cases h1
      · exact absurd (h1.trans h2.symm) h

theorem absOptions_values (nd : Bool) {items₁ items₂ : List Item} (ds : List (OptDecl W))
    (h : ∀ id : Id, items₁.filterMap id.valueIn = items₂.filterMap id.valueIn) : absOptions nd items₁ ds = absOptions nd items₂ ds := by
  unfold absOptions shortValues longValues
  congr 1
  funext d
  rw [h, h]

theorem other_of_option (it : Item) (h : it.identifier ≠ none) : it.other = [] := by
  cases it <;> first | rfl | exact absurd rfl h

/-- **C74**. An option may stand anywhere: moving items of the line past options with other identifiers changes neither the way `parse()` ends
nor its effect. The line may contain anything else, correct or not (repeated or unknown flags, too many words, required options that are missing
...), provided that no value and no other argument looks like an option. -/
theorem C74_options_can_stand_anywhere_partial (env : Env W) (g₁ g₂ : Prog W) (hg₁ : Reachable env g₁) (hg₂ : Reachable env g₂)
    (hsame : SameSetup g₁ g₂) (items₁ items₂ : List Item) (tail : Option (List Str)) (hl₁ : LooseGiven g₁ items₁ tail)
    (hl₂ : LooseGiven g₂ items₂ tail) (hr : Rearranged Apart items₁ items₂) : SameOutcome env g₁ g₂ := by
  have hD := idsOk_reachable hg₁
  have hops : decls g₁ = decls g₂ := by unfold decls; rw [hsame.operations]
  refine parse_same (ready_of hl₁.notParsed hl₁.cleanName hl₁.noSubcommands)
    (ready_of hl₂.notParsed hl₂.cleanName hl₂.noSubcommands) hl₁.arguments hl₂.arguments hl₁.noSubcommands
    hl₂.noSubcommands hl₁.notEmpty hl₂.notEmpty
    (unrequested_loose (inv_reachable hg₁) items₁ hl₁.itemsLoose hl₁.others tail hl₁.tailPlain)
    (unrequested_loose (inv_reachable hg₂) items₂ hl₂.itemsLoose hl₂.others tail hl₂.tailPlain) hsame ?_
  intro w
  have hloose₂ : ∀ it ∈ items₂, it.Loose (decls g₁) := by rw [hops]; exact hl₂.itemsLoose
  have hothers : others items₁ = others items₂ := by
    unfold others
    refine rearranged_collect _ (fun a b h => ?_) hr
    by_cases ha : a.identifier = none
    · have hb : b.identifier ≠ none := fun hb => h (ha.trans hb.symm)
      rw [other_of_option b hb]; simp
    · rw [other_of_option a ha]; simp
  show (formatParse env.ndebug (decls g₁) _ _ _).core = (formatParse env.ndebug (decls g₂) _ _ _).core
  rw [← hops, formatParse_core hD items₁ hl₁.itemsLoose tail, formatParse_core hD items₂ hloose₂ tail, hsame.store,
    absOptions_values env.ndebug (decls g₁).options (rearranged_values (fun _ _ h => Or.inr h) hr), hothers]

theorem mentions_perm (f : FlagDecl) {l₁ l₂ : List Item} (h : l₁.Perm l₂) : mentions f l₁ = mentions f l₂ :=
  (h.map _).sum_nat

/-- A rearranged well-formed line is well-formed. -/
theorem lineOk_perm {D : Decls W} {items₁ items₂ : List Item} {tail : Option (List Str)} (h : items₁.Perm items₂)
    (hok : LineOk D items₁ tail) : LineOk D items₂ tail where
  itemsOk := fun it hit => hok.itemsOk it (h.mem_iff.2 hit)
  flagsOnce := fun f hf => by rw [← mentions_perm f h]; exact hok.flagsOnce f hf
  listsUniform := fun d hd hl ⟨⟨form, v, hs⟩, ⟨sep, v', hlg⟩⟩ =>
    hok.listsUniform d hd hl ⟨⟨form, v, h.mem_iff.2 hs⟩, ⟨sep, v', h.mem_iff.2 hlg⟩⟩
  tailOk := hok.tailOk

/-- **C74** on well-formed lines: everything may stand anywhere, as long as the words stay in order and the values given with the same identifier
stay in order. -/
theorem C74_only_words_and_lists_have_an_order (env : Env W) (g₁ g₂ : Prog W) (hg₁ : Reachable env g₁) (hg₂ : Reachable env g₂)
    (hsame : SameSetup g₁ g₂) (items₁ items₂ : List Item) (tail : Option (List Str)) (hl₁ : LineGiven g₁ items₁ tail)
    (hl₂ : LineGiven g₂ items₂ tail) (hok : LineOk (decls g₁) items₁ tail) (hr : Rearranged Unrelated items₁ items₂) :
    SameOutcome env g₁ g₂ := by
  have hD := idsOk_reachable hg₁
  have hops : decls g₁ = decls g₂ := by unfold decls; rw [hsame.operations]
  have hperm := rearranged_mem hr
  have hok₂ := lineOk_perm hperm hok
  have hok₂' : LineOk (decls g₂) items₂ tail := by rw [← hops]; exact hok₂
  refine parse_same (ready_of hl₁.notParsed hl₁.cleanName hl₁.noSubcommands)
    (ready_of hl₂.notParsed hl₂.cleanName hl₂.noSubcommands) hl₁.arguments hl₂.arguments hl₁.noSubcommands
    hl₂.noSubcommands hl₁.notEmpty hl₂.notEmpty
    (unrequested_line (inv_reachable hg₁) items₁ hok.itemsOk tail hl₁.notRequest)
    (unrequested_line (inv_reachable hg₂) items₂ hok₂'.itemsOk tail hl₂.notRequest) hsame ?_
  intro w
  have hwords : words items₁ tail = words items₂ tail := by
    unfold words
    congr 1
    rw [filterMap_flatMap, filterMap_flatMap]
    refine rearranged_collect _ (fun a b h => ?_) hr
    cases a <;> cases b <;> first | rfl | (simp [Item.word?]; done) | exact absurd ⟨⟨_, rfl⟩, _, rfl⟩ h.2
  have hflags : ∀ (fs : List FlagDecl) (st : Store), setFlags items₁ fs st = setFlags items₂ fs st := by
    intro fs
    induction fs with
    | nil => intro st; rfl
    | cons f fs ih =>
      intro st
      simp only [setFlags]
      rw [mentions_perm f hperm, ih]
  show (formatParse env.ndebug (decls g₁) _ _ _).core = (formatParse env.ndebug (decls g₂) _ _ _).core
  rw [← hops, line_core hD items₁ tail hok, line_core hD items₂ tail hok₂, hsame.store,
    absOptions_values env.ndebug (decls g₁).options (rearranged_values (fun _ _ h => h.1) hr), hwords]
  unfold M.bind
  cases absOptions env.ndebug items₂ (decls g₁).options (g₂.store, w) with
  | err e c => rfl
  | ok u c =>
    dsimp only
    rw [hflags]

/-- **C74** (negation). If a value looks like an option, then it matters where the option stands: `-s -n 5 x` is accepted (with `-n` taken
for an option, whose value is 5), but not the same with `-s -n` at the end. -/
theorem C74_value_like_an_option :
    exReturns ["-s", "-n", "5", "x"] [(0, .one (.int 5)), (1, .one (.str [])), (6, .many [.str "x".toList])] = true ∧
    exThrows ["5", "x", "-s", "-n"] .tooFewArguments = true := by decide +kernel

/-- `-n 3 file -vq --list=a - --loud --list b -- -x` and the same with `-n 3` behind `file`. -/
example : let items : List Item := [.word "file".toList, .short 'n' .separate "3".toList, .flags ['v', 'q'],
      .long "list".toList false "a".toList, .word "-".toList, .longFlag "loud".toList, .long "list".toList true "b".toList]
    SameOutcome exEnv exLine (exRun exCalls (renderLine items exTail)) := by
  intro items
  refine C74_options_can_stand_anywhere_partial exEnv exLine _ (exRun_reachable _ _) (exRun_reachable _ _)
    (exRun_same _ _ _ (by decide +kernel) (by decide +kernel) (by decide +kernel) (by decide +kernel)) exItems items exTail
    (by decide +kernel) (by decide +kernel) ?_
  exact .swap [] _ _ _ _ (fun h => nomatch h) (.refl _)

/-- Flags may be moved as well. -/
example : let items : List Item := [.short 'n' .separate "3".toList, .flags ['v', 'q'], .word "file".toList,
      .long "list".toList false "a".toList, .word "-".toList, .longFlag "loud".toList, .long "list".toList true "b".toList]
    SameOutcome exEnv exLine (exRun exCalls (renderLine items exTail)) := by
  intro items
  refine C74_only_words_and_lists_have_an_order exEnv exLine _ (exRun_reachable _ _) (exRun_reachable _ _)
    (exRun_same _ _ _ (by decide +kernel) (by decide +kernel) (by decide +kernel) (by decide +kernel)) exItems items exTail
    exLine_given (by decide +kernel) exLine_ok ?_
  refine .swap [.short 'n' .separate "3".toList] _ _ _ _ ⟨Or.inl rfl, ?_⟩ (.refl _)
  rintro ⟨_, w, h⟩
  cases h

end Sharg
