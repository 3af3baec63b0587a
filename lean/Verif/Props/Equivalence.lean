import Verif.Lemmas.Equivalence
import Verif.Props.Lines

/-!
# Lines and programs with the same effect: C19, C24, C34
-/

set_option linter.unusedSimpArgs false

namespace Sharg

open Spec

variable {W : Type}

/-! ## C19 -/

/-- C19 for lines that use, for each option, always the same identifier: replacing any number of option occurrences by
other spellings changes neither the way `parse()` ends nor its effect. The lines may contain any other arguments,
correct or not. -/
theorem C19_spellings_equivalent_partial (env : Env W) (g₁ g₂ : Prog W) (hg₁ : Reachable env g₁) (hg₂ : Reachable env g₂)
    (hsame : SameSetup g₁ g₂) (items₁ items₂ : List Item) (tail : Option (List Str)) (hl₁ : LooseGiven g₁ items₁ tail)
    (hl₂ : LooseGiven g₂ items₂ tail) (hr : Pointwise (Respelled (decls g₁)) items₁ items₂)
    (huni : ∀ d ∈ (decls g₁).options, Uniform d items₁ ∧ Uniform d items₂) : SameOutcome env g₁ g₂ := by
  have hD := idsOk_reachable hg₁
  have hops : decls g₁ = decls g₂ := by unfold decls; rw [hsame.operations]
  refine parse_same (ready_of hl₁.notParsed hl₁.cleanName hl₁.noSubcommands)
    (ready_of hl₂.notParsed hl₂.cleanName hl₂.noSubcommands) hl₁.arguments hl₂.arguments hl₁.noSubcommands
    hl₂.noSubcommands hl₁.notEmpty hl₂.notEmpty
    (unrequested_loose (inv_reachable hg₁) items₁ hl₁.itemsLoose hl₁.others tail hl₁.tailPlain)
    (unrequested_loose (inv_reachable hg₂) items₂ hl₂.itemsLoose hl₂.others tail hl₂.tailPlain) hsame ?_
  intro w
  have hloose₂ : ∀ it ∈ items₂, it.Loose (decls g₁) := by rw [hops]; exact hl₂.itemsLoose
  show (formatParse env.ndebug (decls g₁) _ _ _).core = (formatParse env.ndebug (decls g₂) _ _ _).core
  rw [← hops, formatParse_core hD items₁ hl₁.itemsLoose tail, formatParse_core hD items₂ hloose₂ tail, hsame.store,
    absOptions_congr env.ndebug items₁ items₂ (decls g₁).options
      (fun d hd => ⟨(huni d hd).1, (huni d hd).2, given_respell hD hr d hd⟩), others_respell hr]

/-! ## C24 -/

/-- C24 (and more): the outcome on a well-formed line depends only on the values of each option, on which flags are
mentioned, and on the words. Hence grouping, spelling and order of flags, and the order of different options and of
options and words, are irrelevant. -/
theorem C24_only_values_flags_and_words_matter (env : Env W) (g₁ g₂ : Prog W) (hg₁ : Reachable env g₁)
    (hg₂ : Reachable env g₂) (hsame : SameSetup g₁ g₂) (items₁ items₂ : List Item) (tail₁ tail₂ : Option (List Str))
    (hl₁ : LineGiven g₁ items₁ tail₁) (hl₂ : LineGiven g₂ items₂ tail₂) (hok₁ : LineOk (decls g₁) items₁ tail₁)
    (hok₂ : LineOk (decls g₂) items₂ tail₂)
    (hopt : ∀ d ∈ (decls g₁).options, Uniform d items₁ ∧ Uniform d items₂ ∧ given d items₁ = given d items₂)
    (hflag : ∀ f ∈ (decls g₁).flags, mentions f items₁ = mentions f items₂)
    (hwords : words items₁ tail₁ = words items₂ tail₂) : SameOutcome env g₁ g₂ := by
  have hD := idsOk_reachable hg₁
  have hops : decls g₁ = decls g₂ := by unfold decls; rw [hsame.operations]
  refine parse_same (ready_of hl₁.notParsed hl₁.cleanName hl₁.noSubcommands)
    (ready_of hl₂.notParsed hl₂.cleanName hl₂.noSubcommands) hl₁.arguments hl₂.arguments hl₁.noSubcommands
    hl₂.noSubcommands hl₁.notEmpty hl₂.notEmpty
    (unrequested_line (inv_reachable hg₁) items₁ hok₁.itemsOk tail₁ hl₁.notRequest)
    (unrequested_line (inv_reachable hg₂) items₂ hok₂.itemsOk tail₂ hl₂.notRequest) hsame ?_
  intro w
  have hok₂' : LineOk (decls g₁) items₂ tail₂ := by rw [hops]; exact hok₂
  have hflags : ∀ fs : List FlagDecl, (∀ f ∈ fs, f ∈ (decls g₁).flags) → ∀ st, setFlags items₁ fs st = setFlags items₂ fs st := by
    intro fs
    induction fs with
    | nil => intro _ st; rfl
    | cons f fs ih =>
      intro h st
      simp only [setFlags]
      rw [hflag f (h f (by simp)), ih (fun f hf => h f (by simp [hf]))]
  show (formatParse env.ndebug (decls g₁) _ _ _).core = (formatParse env.ndebug (decls g₂) _ _ _).core
  rw [← hops, line_core hD items₁ tail₁ hok₁, line_core hD items₂ tail₂ hok₂', hsame.store,
    absOptions_congr env.ndebug items₁ items₂ (decls g₁).options hopt, hwords]
  unfold M.bind
  cases absOptions env.ndebug items₂ (decls g₁).options (g₂.store, w) with
  | err e c => rfl
  | ok u c =>
    dsimp only
    rw [hflags _ (fun _ h => h)]

/-- C24: regrouping short flags. In any well-formed line a group may be split at any place (hence all groupings are
equivalent), without effect on the outcome. -/
theorem C24_flag_groups_can_be_split (env : Env W) (g₁ g₂ : Prog W) (hg₁ : Reachable env g₁)
    (hg₂ : Reachable env g₂) (hsame : SameSetup g₁ g₂) (front back : List Item) (cs ds : List Char) (tail : Option (List Str))
    (hc : cs ≠ []) (hd : ds ≠ [])
    (hl₁ : LineGiven g₁ (front ++ .flags (cs ++ ds) :: back) tail)
    (hl₂ : LineGiven g₂ (front ++ .flags cs :: .flags ds :: back) tail)
    (hok : LineOk (decls g₁) (front ++ .flags (cs ++ ds) :: back) tail)
    (huni : ∀ d ∈ (decls g₁).options, Uniform d (front ++ .flags (cs ++ ds) :: back)) : SameOutcome env g₁ g₂ := by
  have hops : decls g₁ = decls g₂ := by unfold decls; rw [hsame.operations]
  have hmem : ∀ it : Item, it.isOption = true →
      (it ∈ front ++ .flags cs :: .flags ds :: back ↔ it ∈ front ++ .flags (cs ++ ds) :: back) := by
    intro it hit
    cases it <;> simp [Item.isOption] at hit ⊢
  have hment : ∀ f, mentions f (front ++ .flags (cs ++ ds) :: back) = mentions f (front ++ .flags cs :: .flags ds :: back) := by
    intro f
    simp [mentions, Item.mentions, List.count_append, Nat.add_assoc]
  have hgiven : ∀ d : OptDecl W, given d (front ++ .flags (cs ++ ds) :: back) = given d (front ++ .flags cs :: .flags ds :: back) := by
    intro d
    unfold given
    rw [List.filterMap_append, List.filterMap_append]
    rfl
  have huni₂ : ∀ d : OptDecl W, Uniform d (front ++ .flags (cs ++ ds) :: back) → Uniform d (front ++ .flags cs :: .flags ds :: back) := by
    rintro d h ⟨⟨form, v, hs⟩, ⟨sep, v', hl⟩⟩
    exact h ⟨⟨form, v, (hmem _ rfl).1 hs⟩, ⟨sep, v', (hmem _ rfl).1 hl⟩⟩
  have hwords : words (front ++ .flags (cs ++ ds) :: back) tail = words (front ++ .flags cs :: .flags ds :: back) tail := by
    unfold words
    rw [List.filterMap_append, List.filterMap_append]
    rfl
  refine C24_only_values_flags_and_words_matter env g₁ g₂ hg₁ hg₂ hsame _ _ tail tail hl₁ hl₂ hok ?_
    (fun d hd => ⟨huni d hd, huni₂ d (huni d hd), hgiven d⟩) (fun f _ => hment f) hwords
  rw [← hops]
  refine ⟨?_, fun f hf => by rw [← hment f]; exact hok.flagsOnce f hf,
    fun d hd hl => huni₂ d (hok.listsUniform d hd hl), hok.tailOk⟩
  intro it hit
  have hbig := hok.itemsOk (.flags (cs ++ ds)) (by simp)
  have h1 : Item.Ok (decls g₁) (.flags cs) := ⟨hc, fun c hcm => hbig.2 c (List.mem_append_left _ hcm)⟩
  have h2 : Item.Ok (decls g₁) (.flags ds) := ⟨hd, fun c hcm => hbig.2 c (List.mem_append_right _ hcm)⟩
  simp only [List.mem_append, List.mem_cons] at hit
  rcases hit with hit | rfl | rfl | hit
  · exact hok.itemsOk it (by simp [hit])
  · exact h1
  · exact h2
  · exact hok.itemsOk it (by simp [hit])

/-! ## C34 -/

theorem Spec.SameUpToOrder.symm {g₁ g₂ : Prog W} (h : SameUpToOrder g₁ g₂) : SameUpToOrder g₂ g₁ :=
  ⟨h.options.symm, h.flags.symm, h.positionals.symm, h.appName.symm, h.notify.symm, h.store.symm, h.world.symm⟩

theorem lineOk_order {g₁ g₂ : Prog W} (hsame : SameUpToOrder g₁ g₂) {items : List Item} {tail : Option (List Str)}
    (hok : LineOk (decls g₁) items tail) : LineOk (decls g₂) items tail := by
  have hitem : ∀ it : Item, it.Ok (decls g₁) → it.Ok (decls g₂) := by
    intro it hit
    have hsep : ∀ v, SeparateOk (decls g₁) v → SeparateOk (decls g₂) v := by
      rintro v ⟨a, b⟩
      exact ⟨fun ⟨d, hd, h⟩ => a ⟨d, hsame.options.mem_iff.2 hd, h⟩, b⟩
    cases it with
    | short c form v =>
      obtain ⟨a, ⟨d, hd, e⟩, b⟩ := hit
      refine ⟨a, ⟨d, hsame.options.mem_iff.1 hd, e⟩, ?_⟩
      cases form with
      | separate => exact hsep v b
      | attached => exact b
      | equals => exact b
    | long s sep v =>
      obtain ⟨a, ⟨d, hd, e⟩, b⟩ := hit
      refine ⟨a, ⟨d, hsame.options.mem_iff.1 hd, e⟩, ?_⟩
      cases sep with
      | true => exact hsep v b
      | false => exact b
    | flags cs =>
      refine ⟨hit.1, fun c hc => ?_⟩
      obtain ⟨a, f, hf, e⟩ := hit.2 c hc
      exact ⟨a, f, hsame.flags.mem_iff.1 hf, e⟩
    | longFlag s =>
      obtain ⟨a, f, hf, e⟩ := hit
      exact ⟨a, f, hsame.flags.mem_iff.1 hf, e⟩
    | word w => exact hit
  exact ⟨fun it hit => hitem it (hok.itemsOk it hit), fun f hf => hok.flagsOnce f (hsame.flags.mem_iff.2 hf),
      fun d hd => hok.listsUniform d (hsame.options.mem_iff.2 hd),
      fun ws hws w hw => ⟨(hok.tailOk ws hws w hw).1, fun f hf => (hok.tailOk ws hws w hw).2 f (hsame.flags.mem_iff.2 hf)⟩⟩

/-- C34 for validators that do not change the world: on a well-formed line if a program
succeeds, so does any other one that differs only in the order of registration of options and flags, and the variables
are the same. -/
theorem C34_success_in_any_order (env : Env W) (g₁ g₂ : Prog W) (hg₁ : Reachable env g₁)
    (hg₂ : Reachable env g₂) (hsame : SameUpToOrder g₁ g₂) (items : List Item) (tail : Option (List Str))
    (hl₁ : LineGiven g₁ items tail) (hl₂ : LineGiven g₂ items tail) (hok : LineOk (decls g₁) items tail)
    (hvars : VarsDistinct (decls g₁)) (hpure : ∀ d ∈ (decls g₁).options, ∀ v w, (d.validator v w).2 = w)
    (g₁' : Prog W) (h : parse env g₁ = (.returned, g₁')) :
    ∃ g₂', parse env g₂ = (.returned, g₂') ∧ g₂'.store = g₁'.store ∧ g₂'.world = g₁'.world := by
  have hD₁ := idsOk_reachable hg₁
  have hD₂ := idsOk_reachable hg₂
  have hok₂ := lineOk_order hsame hok
  obtain ⟨e₁, ha₁⟩ := hl₁.arguments
  obtain ⟨e₂, ha₂⟩ := hl₂.arguments
  have hch : ∃ w₁, CheckPasses env g₁ w₁ := by
    rw [parse_unrequested env g₁ (ready_of hl₁.notParsed hl₁.cleanName hl₁.noSubcommands) e₁ _ ha₁ hl₁.noSubcommands
      hl₁.notEmpty (unrequested_line (inv_reachable hg₁) items hok.itemsOk tail hl₁.notRequest)] at h
    unfold CheckPasses
    cases hc : env.versionCheck g₁.parser.appName g₁.parser.notify none g₁.world with
    | mk o w =>
      cases o with
      | none => exact ⟨w, rfl⟩
      | some e => rw [hc] at h; simp at h
  obtain ⟨w₁, hv₁⟩ := hch
  have hv₂ : CheckPasses env g₂ w₁ := by
    unfold CheckPasses at hv₁ ⊢; rw [← hsame.appName, ← hsame.notify, ← hsame.world]; exact hv₁
  obtain ⟨_, _, hp₁⟩ := parse_line hg₁ hl₁ hok.itemsOk hv₁
  obtain ⟨_, _, hp₂⟩ := parse_line hg₂ hl₂ hok₂.itemsOk hv₂
  rw [line_core hD₁ items tail hok] at hp₁
  rw [line_core hD₂ items tail hok₂] at hp₂
  unfold M.bind at hp₁ hp₂
  rw [h] at hp₁
  cases ho : absOptions env.ndebug items (decls g₁).options (g₁.store, w₁) with
  | err e c => rw [ho] at hp₁; simp [outcomeOf] at hp₁
  | ok u c =>
    obtain ⟨st', w'⟩ := c
    rw [ho] at hp₁
    have hc₁ := (absOptions_chain hD₁ items (fun it h => (hok.itemsOk it h).loose hD₁) hok.listsUniform env.ndebug
      (decls g₁).options [] [] g₁.store w₁ st' w' u (by simp)).1 ho
    have hn : ((decls g₁).options.map (·.var)).Nodup := by
      unfold VarsDistinct at hvars
      rw [List.nodup_append, List.nodup_append] at hvars
      exact hvars.1.1
    have hc₂ := chain_perm env.ndebug items hsame.options hn hpure _ _ _ _ hc₁
    have ho₂ := (absOptions_chain hD₂ items (fun it h => (hok₂.itemsOk it h).loose hD₂) hok₂.listsUniform env.ndebug
      (decls g₂).options [] [] g₁.store w₁ st' w' () (by simp)).2 hc₂
    rw [hsame.store] at ho₂
    rw [ho₂] at hp₂
    dsimp only at hp₁ hp₂
    have hpos : (decls g₂).positionals = (decls g₁).positionals := hsame.positionals.symm
    rw [hpos, ← setFlags_perm items hsame.flags] at hp₂
    cases hr : absPositionals env.ndebug (decls g₁).positionals (words items tail)
        (setFlags items (decls g₁).flags st', w') with
    | err e c => rw [hr] at hp₁; simp [outcomeOf] at hp₁
    | ok u c =>
      rw [hr] at hp₁ hp₂
      simp only [outcomeOf, Prod.mk.injEq, true_and] at hp₁
      subst hp₁
      exact ⟨_, hp₂, rfl, rfl⟩

/-- C34: two such programs both return, with the same variables, or both throw. -/
theorem C34_registration_order_irrelevant (env : Env W) (g₁ g₂ : Prog W) (hg₁ : Reachable env g₁)
    (hg₂ : Reachable env g₂) (hsame : SameUpToOrder g₁ g₂) (items : List Item) (tail : Option (List Str))
    (hl₁ : LineGiven g₁ items tail) (hl₂ : LineGiven g₂ items tail) (hok : LineOk (decls g₁) items tail)
    (hvars : VarsDistinct (decls g₁)) (hpure : ∀ d ∈ (decls g₁).options, ∀ v w, (d.validator v w).2 = w) :
    (∃ g₁' g₂', parse env g₁ = (.returned, g₁') ∧ parse env g₂ = (.returned, g₂') ∧ g₁'.store = g₂'.store) ∨
    (∃ e₁ g₁' e₂ g₂', parse env g₁ = (.threw e₁, g₁') ∧ parse env g₂ = (.threw e₂, g₂')) := by
  have hok₂ := lineOk_order hsame hok
  have hvars₂ : VarsDistinct (decls g₂) := by
    unfold VarsDistinct at hvars ⊢
    have hpos : (decls g₂).positionals = (decls g₁).positionals := hsame.positionals.symm
    rw [hpos]
    exact ((((hsame.options.map _).append (hsame.flags.map _)).append_right _).nodup_iff).1 hvars
  have hpure₂ : ∀ d ∈ (decls g₂).options, ∀ v w, (d.validator v w).2 = w :=
    fun d hd => hpure d (hsame.options.mem_iff.2 hd)
  have hend : ∀ g : Prog W, Reachable env g → LineGiven g items tail → LineOk (decls g) items tail →
      (∃ g', parse env g = (.returned, g')) ∨ ∃ e g', parse env g = (.threw e, g') := by
    intro g hg hl hok
    obtain ⟨exe, ha⟩ := hl.arguments
    rw [parse_unrequested env g (ready_of hl.notParsed hl.cleanName hl.noSubcommands) exe _ ha hl.noSubcommands
      hl.notEmpty (unrequested_line (inv_reachable hg) items hok.itemsOk tail hl.notRequest)]
    split
    · exact Or.inr ⟨_, _, rfl⟩
    · split
      · exact Or.inl ⟨_, rfl⟩
      · exact Or.inr ⟨_, _, rfl⟩
  rcases hend g₁ hg₁ hl₁ hok with ⟨g₁', h₁⟩ | ⟨e₁, g₁', h₁⟩
  · obtain ⟨g₂', h₂, h₃, _⟩ := C34_success_in_any_order env g₁ g₂ hg₁ hg₂ hsame items tail hl₁ hl₂ hok hvars hpure g₁' h₁
    exact Or.inl ⟨g₁', g₂', h₁, h₂, h₃.symm⟩
  · rcases hend g₂ hg₂ hl₂ hok₂ with ⟨g₂', h₂⟩ | ⟨e₂, g₂', h₂⟩
    · obtain ⟨g', h₃, _⟩ := C34_success_in_any_order env g₂ g₁ hg₂ hg₁ hsame.symm items tail hl₂ hl₁ hok₂ hvars₂ hpure₂ g₂' h₂
      rw [h₁] at h₃
      simp at h₃
    · exact Or.inr ⟨e₁, g₁', e₂, g₂', h₁, h₂⟩

/-! ## The hypotheses of the theorems above are met by concrete programs -/

theorem runActions_calls (env : Env W) (cs : List (Call W)) (g : Prog W) :
    (runActions env (cs.map .call) g).store = g.store ∧ (runActions env (cs.map .call) g).world = g.world := by
  induction cs generalizing g with
  | nil => exact ⟨rfl, rfl⟩
  | cons c cs ih =>
    obtain ⟨h1, h2⟩ := ih ((Action.call c).run env g).2
    have : ((Action.call c).run env g).2.store = g.store ∧ ((Action.call c).run env g).2.world = g.world := by
      simp only [Action.run]
      split <;> exact ⟨rfl, rfl⟩
    exact ⟨h1.trans this.1, h2.trans this.2⟩

theorem exRun_same (cs : List (Call Unit)) (a b : List Str)
    (ha : (accepted exEnv (cs.map .call) (start { exInit with arguments := "app".toList :: a } exStore ())).length = cs.length)
    (hb : (accepted exEnv (cs.map .call) (start { exInit with arguments := "app".toList :: b } exStore ())).length = cs.length)
    (hn : (exRun cs a).parser.appName = (exRun cs b).parser.appName)
    (hu : (exRun cs a).parser.notify = (exRun cs b).parser.notify) : SameSetup (exRun cs a) (exRun cs b) where
  operations := by
    unfold exRun
    rw [operations_of_length exEnv cs _ ha, operations_of_length exEnv cs _ hb]
    rfl
  appName := hn
  notify := hu
  store := by unfold exRun; rw [(runActions_calls ..).1, (runActions_calls ..).1]; rfl
  world := rfl

/-- `-n 3 file -vq --list=a - --loud --list b -- -x`, respelled with `--num=3`, `--list a`, `--list=b`. -/
def exItems' : List Item :=
  [.long "num".toList false "3".toList, .word "file".toList, .flags ['v', 'q'], .long "list".toList true "a".toList,
   .word "-".toList, .longFlag "loud".toList, .long "list".toList false "b".toList]

example : SameOutcome exEnv exLine (exRun exCalls (renderLine exItems' exTail)) := by
  refine C19_spellings_equivalent_partial exEnv exLine _ (exRun_reachable _ _) (exRun_reachable _ _)
    (exRun_same _ _ _ (by decide +kernel) (by decide +kernel) (by decide +kernel) (by decide +kernel)) exItems exItems' exTail
    (by decide +kernel) (by decide +kernel) ?_ (by decide +kernel)
  rw [exLine_decls]
  refine .cons (.respell ⟨'n', "num".toList, 0, false, .integer (-128) 127, false, fun _ w => (true, w)⟩ (.head _) _ _ _
      (.short (by decide) _) (.long (by decide) _)) (.cons (.same _) (.cons (.same _) (.cons ?_ (.cons (.same _)
      (.cons (.same _) (.cons ?_ .nil))))))
  · exact .respell ⟨'l', "list".toList, 2, true, .string, false, fun _ w => (true, w)⟩ (.tail _ (.tail _ (.head _))) _ _ _
      (.long (by decide) _) (.long (by decide) _)
  · exact .respell ⟨'l', "list".toList, 2, true, .string, false, fun _ w => (true, w)⟩ (.tail _ (.tail _ (.head _))) _ _ _
      (.long (by decide) _) (.long (by decide) _)

/-- `file -qv --list a -n3 - --list=b --loud -x`: another order and another grouping of the same things. -/
example : let items : List Item := [.word "file".toList, .flags ['q'], .long "list".toList true "a".toList,
      .short 'n' .attached "3".toList, .flags ['v'], .word "-".toList, .long "list".toList false "b".toList,
      .longFlag "loud".toList]
    SameOutcome exEnv exLine (exRun exCalls (renderLine items exTail)) := by
  intro items
  exact C24_only_values_flags_and_words_matter exEnv exLine _ (exRun_reachable _ _) (exRun_reachable _ _)
    (exRun_same _ _ _ (by decide +kernel) (by decide +kernel) (by decide +kernel) (by decide +kernel)) exItems items exTail exTail
    exLine_given (by decide +kernel) exLine_ok (by decide +kernel) (by decide +kernel) (by decide +kernel) (by decide +kernel)

example : let rest : List Item := [.long "list".toList false "a".toList, .word "-".toList]
    SameOutcome exEnv (exRun exCalls (renderLine ([.word "file".toList] ++ .flags (['v'] ++ ['q']) :: rest) exTail))
      (exRun exCalls (renderLine ([.word "file".toList] ++ .flags ['v'] :: .flags ['q'] :: rest) exTail)) := by
  intro rest
  exact C24_flag_groups_can_be_split exEnv _ _ (exRun_reachable _ _) (exRun_reachable _ _)
    (exRun_same _ _ _ (by decide +kernel) (by decide +kernel) (by decide +kernel) (by decide +kernel)) [.word "file".toList] rest
    ['v'] ['q'] exTail (by decide) (by decide) (by decide +kernel) (by decide +kernel) (by decide +kernel) (by decide +kernel)

/-- The calls of the example in another order. -/
def exCalls' : List (Call Unit) :=
  [.addOption { short := 'l', long := "list".toList } 2 true .string fun _ w => (true, w),
   .addFlag { short := '\x00', long := "loud".toList } 5 false,
   .addOption { short := 's', long := "str".toList } 1 false .string fun _ w => (true, w),
   .addPositionalOption {} 6 true .string fun _ w => (true, w),
   .addFlag { short := 'v', long := "verbose".toList } 3 false,
   .addOption { short := 'n', long := "num".toList } 0 false (.integer (-128) 127) fun _ w => (true, w),
   .addFlag { short := 'q', long := [] } 4 false]

example : let g := exRun exCalls' (renderLine exItems exTail)
    (∃ g₁' g₂', parse exEnv exLine = (.returned, g₁') ∧ parse exEnv g = (.returned, g₂') ∧ g₁'.store = g₂'.store) ∨
    (∃ e₁ g₁' e₂ g₂', parse exEnv exLine = (.threw e₁, g₁') ∧ parse exEnv g = (.threw e₂, g₂')) := by
  intro g
  have hd : decls g = declsOf (exCalls'.filterMap Call.entry?) := exRun_decls _ _ (by decide +kernel)
  refine C34_registration_order_irrelevant exEnv exLine g (exRun_reachable _ _) (exRun_reachable _ _) ?_ exItems exTail
    exLine_given (by decide +kernel) exLine_ok (by decide +kernel) ?_
  · refine ⟨?_, ?_, ?_, by decide +kernel, by decide +kernel, ?_, rfl⟩
    · rw [show declsOf exLine.parser.operations = _ from exLine_decls, show declsOf g.parser.operations = _ from hd]
      exact ((List.reverse_perm _).symm : List.Perm [_, _, _] [_, _, _])
    · rw [show declsOf exLine.parser.operations = _ from exLine_decls, show declsOf g.parser.operations = _ from hd]
      exact (List.perm_append_comm (l₁ := [_, _]) (l₂ := [_]) : List.Perm [_, _, _] [_, _, _])
    · rw [show declsOf exLine.parser.operations = _ from exLine_decls, show declsOf g.parser.operations = _ from hd]
      rfl
    · unfold exLine exRun; rw [(runActions_calls ..).1]; unfold g exRun; rw [(runActions_calls ..).1]
  · rw [exLine_decls]
    intro d hd v w
    rfl

end Sharg
