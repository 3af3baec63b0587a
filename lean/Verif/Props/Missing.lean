import Verif.Lemmas.Missing
import Verif.Props.Ends

/-!
# An option without value: C28
-/

set_option linter.unusedSimpArgs false

namespace Sharg

open Spec

variable {W : Type}

theorem unrequested_items {p : Parser W} (h : Inv p) (items : List Item) (hit : ∀ it ∈ items, it.Loose (declsOf p.operations))
    (hplain : ∀ it ∈ items, it.isOption = false → ∀ a ∈ it.render, ¬ Reserved a ∧ a ∉ p.options) {rest : List Str}
    (hr : Unrequested p.options rest) : Unrequested p.options (items.flatMap Item.render ++ rest) := by
  induction items with
  | nil => exact hr
  | cons it items ih =>
    rw [List.flatMap_cons, List.append_assoc]
    have ih := ih (fun i hi => hit i (by simp [hi])) (fun i hi => hplain i (by simp [hi]))
    have h1 := hit it (by simp)
    have h2 := hplain it (by simp)
    cases it with
    | short c form v => exact unrequested_item h (it := .short c form v) h1 (by simp) ih
    | long s sep v => exact unrequested_item h (it := .long s sep v) h1 (by simp) ih
    | flags cs =>
      have h2 := h2 rfl ('-' :: cs) (by simp [Item.render])
      exact .plain h2.2 h2.1 ih
    | longFlag s =>
      have h2 := h2 rfl ('-' :: '-' :: s) (by simp [Item.render])
      exact .plain h2.2 h2.1 ih
    | word w =>
      have h2 := h2 rfl w (by simp [Item.render])
      exact .plain h2.2 h2.1 ih

/-- `-k=` and `--key=` are no requests. -/
theorem wanting_not_reserved {p : Parser W} (h : Inv p) {d : OptDecl W} (hd : d ∈ (declsOf p.operations).options) {short : Bool}
    (hne : if short then d.short ≠ '\x00' else d.long ≠ []) : ¬ Reserved (wanting d short true) := by
  have hD := idsOk_of_inv h
  cases short with
  | true =>
    have hdash := (hD.shortChars _ (mem_shortIds_option hd hne)).2
    obtain ⟨-, hp⟩ := option_short h hd hne
    intro hres
    have := reserved_short (c := d.short) (t := ['=']) hdash hres
    exact hp (by rw [this]; decide)
  | false =>
    obtain ⟨-, hp, hl⟩ := option_long h hd hne
    intro hres
    have hres : Reserved ('-' :: '-' :: (d.long ++ '=' :: [])) := by simpa [wanting] using hres
    exact hp (by rw [reserved_long_eq (longId_no_eq hl) hres]; decide)

theorem unrequested_missing {p : Parser W} (h : Inv p) {d : OptDecl W} (hd : d ∈ (declsOf p.operations).options) {short eq : Bool}
    (hne : if short then d.short ≠ '\x00' else d.long ≠ []) {items₁ items₂ : List Item} {tail : Option (List Str)} (hlast : eq = false → items₂ = [])
    (hit : ∀ it ∈ items₁ ++ items₂, it.Loose (declsOf p.operations))
    (hplain : ∀ it ∈ items₁ ++ items₂, it.isOption = false → ∀ a ∈ it.render, ¬ Reserved a ∧ a ∉ p.options)
    (htail : ∀ ws, tail = some ws → ∀ w ∈ ws, ¬ Reserved w) :
    Unrequested p.options (items₁.flatMap Item.render ++ wanting d short eq :: renderLine items₂ tail) := by
  refine unrequested_items h items₁ (fun it hi => hit it (by simp [hi])) (fun it hi => hplain it (by simp [hi])) ?_
  cases eq with
  | true =>
    refine .plain ?_ (wanting_not_reserved h hd hne) (unrequested_loose h items₂ (fun it hi => hit it (by simp [hi])) (fun it hi => hplain it (by simp [hi])) tail htail)
    intro ho
    rcases opt_shape h ho with ⟨c, h1, -⟩ | ⟨s, h1, h2⟩
    · cases short with
      | true => simp [wanting] at h1
      | false => simp [wanting] at h1
    · have heq : '=' ∈ wanting d short true := by simp [wanting]
      rw [h1] at heq
      exact longId_no_eq h2 (by simpa using heq)
  | false =>
    rw [hlast rfl]
    have ho : wanting d short false ∈ p.options := by
      cases short with
      | true => simpa [wanting] using (option_short h hd hne).1
      | false => simpa [wanting] using (option_long h hd hne).1
    cases tail with
    | none => exact ⟨[], .lastOption _, ⟨rfl, by simp, ho⟩, rfl, rfl, rfl, rfl, rfl⟩
    | some ws => exact .option _ ho (Unrequested.of_not_reserved _ _ ws (Nat.le_refl _) (htail ws rfl))

/-- **C28**, for lines whose other options are written unambiguously: exactly how `parse()` ends when an option has no value. It always throws; the
exception and the variables are those of `MissingEnds`. -/
theorem C28_missing_value_ending_partial (env : Env W) (g : Prog W) (hg : Reachable env g) (d : OptDecl W) (short eq : Bool) (items₁ items₂ : List Item)
    (tail : Option (List Str)) (hl : MissingGiven g d short eq items₁ items₂ tail) (w₁ : W) (hv : CheckPasses env g w₁) (o : Outcome) (st' : Store)
    (w' : W) :
    (∃ p, parse env g = (o, ⟨p, st', w'⟩)) ↔ ∃ e, o = .threw e ∧ MissingEnds env.ndebug (decls g) d short items₁ items₂ g.store w₁ st' w' e := by
  have hi := inv_reachable hg
  obtain ⟨exe, -, hp⟩ := parse_unrequested_core (ready_of hl.notParsed hl.cleanName hl.noSubcommands) hl.arguments hl.noSubcommands (by simp)
    (unrequested_missing hi hl.declared hl.identifier hl.last hl.itemsLoose hl.others hl.tailPlain) hv
  have hrun : ∀ {st' w' e}, MissingEnds env.ndebug (decls g) d short items₁ items₂ g.store w₁ st' w' e →
      parse env g = (.threw e, ⟨plainScanned g.parser exe _, st', w'⟩) := fun h =>
    hp.trans (by
      rw [missingEnds_run (idsOk_reachable hg) items₁ items₂ (fun it hi => hl.itemsLoose it (by simp [hi])) (fun it hi => hl.itemsLoose it (by simp [hi]))
        tail env.ndebug eq hl.identifier hl.last h]
      rfl)
  constructor
  · rintro ⟨p, h⟩
    obtain ⟨st₂, w₂, e, h2⟩ := missingEnds_exists env.ndebug (decls g) hl.declared short items₁ items₂ g.store w₁
    rw [hrun h2] at h
    cases h
    exact ⟨e, rfl, h2⟩
  · rintro ⟨e, rfl, h⟩
    exact ⟨_, hrun h⟩

/-- **C28**: if the options in front of it (in the order of registration) end well and it has not been given before, the option is reported with
`too_few_arguments`; its variable is untouched, or empty if it is a list. -/
theorem C28_reported_partial (env : Env W) (g : Prog W) (hg : Reachable env g) (d : OptDecl W) (short eq : Bool) (items₁ items₂ : List Item)
    (tail : Option (List Str)) (hl : MissingGiven g d short eq items₁ items₂ tail) (w₁ : W) (hv : CheckPasses env g w₁)
    (front back : List (OptDecl W)) (hsplit : (decls g).options = front ++ d :: back) (st₁ : Store) (w' : W)
    (hfront : OptionsEnd env.ndebug (items₁ ++ items₂) front g.store w₁ st₁ w' none) (h₁ : shortTexts d (items₁ ++ items₂) = [])
    (h₂ : longTexts d items₁ = []) :
    ∃ p, parse env g = (.threw .tooFewArguments, ⟨p, if d.isList then st₁.set d.var (.many []) else st₁, w'⟩) := by
  refine (C28_missing_value_ending_partial env g hg d short eq items₁ items₂ tail hl w₁ hv _ _ w').2
    ⟨.tooFewArguments, rfl, front, back, st₁, none, hsplit, hfront, ?_⟩
  have h₃ : shortTexts d items₁ = [] := by
    unfold shortTexts at h₁ ⊢
    rw [List.filterMap_append] at h₁
    exact (List.append_eq_nil_iff.1 h₁).1
  have key : WantingEnds env.ndebug d [] st₁ (if d.isList then st₁.set d.var (.many []) else st₁) .tooFewArguments := by
    unfold WantingEnds
    split
    · exact ⟨[], none, .nil, rfl, rfl⟩
    · rw [if_pos rfl]; exact ⟨rfl, rfl⟩
  show MissingOptionEnds env.ndebug d short items₁ items₂ st₁ _ _
  unfold MissingOptionEnds
  cases short with
  | true => rw [if_pos rfl, h₃]; exact key
  | false =>
    rw [if_neg (by simp), h₂]
    exact ⟨st₁, none, by unfold ShortEnds; rw [if_pos h₁]; exact ⟨rfl, rfl⟩, key⟩

/-! ## Examples -/

/-- The program of `exCalls₂` with `args`. -/
def exNoValue (args : List String) : Prog Unit := exRun exCalls₂ (args.map String.toList)

theorem exNoValue_decls (args : List String) (h : (accepted exEnv (exCalls₂.map .call)
      (start { exInit with arguments := "app".toList :: args.map String.toList } exStore ())).length = exCalls₂.length) :
    decls (exNoValue args) = declsOf (exCalls₂.filterMap Call.entry?) := exRun_decls _ _ h

/-- `-n 12 3 --str`: the value of `--str` is missing, `-n` has got its value. -/
def exNoValueStr : Prog Unit := exNoValue ["-n", "12", "3", "--str"]

def exNoValueItems : List Item := [.short 'n' .separate "12".toList, .word "3".toList]

theorem exNoValueStr_given : MissingGiven exNoValueStr exStr false false exNoValueItems [] none where
  notParsed := by decide +kernel
  cleanName := by decide +kernel
  noSubcommands := by decide +kernel
  arguments := ⟨"app".toList, by decide +kernel⟩
  declared := by
    show exStr ∈ (decls exNoValueStr).options
    unfold exNoValueStr
    rw [exNoValue_decls _ (by decide +kernel)]
    show exStr ∈ [exNum, exStr]
    simp
  identifier := by decide
  last := fun _ => rfl
  itemsLoose := by decide +kernel
  others := by decide +kernel
  tailPlain := nofun

example : ∃ p, parse exEnv exNoValueStr = (.threw .tooFewArguments, ⟨p, exStore.set 0 (.one (.int 12)), ()⟩) := by
  have hd : decls exNoValueStr = declsOf (exCalls₂.filterMap Call.entry?) := exNoValue_decls _ (by decide +kernel)
  refine C28_reported_partial exEnv exNoValueStr (exRun_reachable _ _) exStr false false exNoValueItems [] none exNoValueStr_given () rfl [exNum] []
    (by rw [hd]; rfl) (exStore.set 0 (.one (.int 12))) () ?_ (by decide +kernel) (by decide +kernel)
  have h0 : Denotes (.integer (-128) 127) "12".toList (.int 12) := (readElem_iff _ _ _).1 (by decide +kernel)
  have hs : shortTexts exNum (exNoValueItems ++ []) = ["12".toList] := by decide +kernel
  have hg : longTexts exNum (exNoValueItems ++ []) = [] := by decide +kernel
  refine ⟨exStore.set 0 (.one (.int 12)), (), none, ?_, rfl, rfl, rfl⟩
  show OptionEnds false _ exNum exStore () _ () _
  unfold OptionEnds
  rw [hs, hg, if_neg (by simp)]
  exact ⟨_, _, ⟨none, .next h0 .nil, rfl⟩, rfl, true, rfl, rfl⟩

/-- The same by running the program; `-n 12 -n` is a repeated option instead, and the `12` has been stored; `-s=` in front of a value that cannot be
read: the value comes first because `-n` is registered first; `-s --` as well. -/
example : (parse exEnv exNoValueStr).1 = .threw .tooFewArguments ∧ (parse exEnv (exNoValue ["-n", "12", "-n"])).1 = .threw .optionDeclaredMultipleTimes ∧
    (parse exEnv (exNoValue ["-n", "12", "-n"])).2.store 0 = .one (.int 12) ∧
    (parse exEnv (exNoValue ["-s=", "-n", "x"])).1 = .threw .userInputError ∧ (parse exEnv (exNoValue ["-s=", "-n", "1"])).1 = .threw .tooFewArguments ∧
    (parse exEnv (exNoValue ["-n", "1", "-s", "--", "3"])).1 = .threw .tooFewArguments := by decide +kernel

end Sharg
