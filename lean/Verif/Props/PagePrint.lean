import Verif.Lemmas.PagePrint
import Verif.Props.Texts

/-!
# Property C46: which pages can be printed
-/

namespace Sharg

open Spec

/-- An environment for examples: a release build without `tdl`, no terminal. -/
def exPages (m : Meta) : PageEnv where
  build := { ndebug := true, hasTdl := false, shargVersion := "1.1.1".toList, seqanVersion := none }
  types := exTypes
  info := m
  license := []
  tty := false
  terminalWidth := 80
  printTool _ _ := []

/-- A parser for examples. -/
def exPageParser (ops : List (Entry Unit)) : Parser Unit where
  appName := "app".toList
  parseWasCalled := true
  hasPositionalListOption := false
  notify := false
  userDecision := none
  subParser := none
  subcommands := []
  usedIds := []
  formatArguments := []
  arguments := []
  executableName := ["app".toList]
  options := []
  operations := ops

/-- Variables for examples. -/
def exPageStore : Store := fun _ => .one (.int 7)

/-- C46 (negation). Printing a page is undefined behaviour in a release build (in a debug build an assertion fails) if a
text ends in a backslash; the help page also if a backslash stands before a blank; the HTML page also if a font is
switched off that is not on. The exception `std::out_of_range` escapes if a line of the synopsis has no blank. A default
value suffices: an option of type `char` with the default `\`. -/
theorem C46_pages_may_fail :
    (pageOf (exPages {}) (.help false) (exPageParser [.line "C:\\".toList false false]) exPageStore).1
      = some .undefinedBehaviour ∧
    (pageOf (exPages {}) .html (exPageParser [.line "C:\\".toList false false]) exPageStore).1 = some .undefinedBehaviour ∧
    (pageOf (exPages {}) (.help false) (exPageParser [.line "a \\ b".toList false false]) exPageStore).1
      = some .undefinedBehaviour ∧
    (pageOf (exPages {}) .html (exPageParser [.line "x\\fP".toList false false]) exPageStore).1 = some .undefinedBehaviour ∧
    (pageOf (exPages { synopsis := ["app".toList] }) (.help false) (exPageParser []) exPageStore).1 = some .outOfRange ∧
    (pageOf (exPages { synopsis := ["app".toList] }) .shortHelp (exPageParser []) exPageStore).1 = some .outOfRange ∧
    (pageOf (exPages { synopsis := ["app".toList] }) .html (exPageParser []) exPageStore).1 = some .outOfRange ∧
    (pageOf (exPages { synopsis := ["app".toList] }) .man (exPageParser []) exPageStore).1 = some .outOfRange := by
  refine ⟨?_, ?_, ?_, ?_, ?_, ?_, ?_, ?_⟩ <;> decide +kernel

/-- C46 (negation), a default value: an option of type `char` with the default `\`. -/
theorem C46_default_value_may_fail :
    (pageOf { exPages {} with types := { exTypes with kind := fun _ => .character } } (.help false)
      (exPageParser [.option { short := 's', description := "Separator.".toList } 0 false (.integer (-128) 127)
        (fun _ w => (true, w))]) (fun _ => .one (.int 92))).1 = some .undefinedBehaviour := by
  decide +kernel

/-- C46, which texts: a text is interpreted without failure on the console exactly if no backslash sequence is cut off in
any of its words, and in HTML exactly if moreover no font is switched off that is not on. -/
theorem C46_printable_texts (nd : Bool) (c : Console) (text : Str) (tab : Nat) :
    (Total (printText c text tab) ↔ ∀ w ∈ words text, Complete w) ∧
    ((∃ o, toHtml nd text = .ok o) ↔ FontsOk 0 text) := by
  refine ⟨⟨fun h => ?_, printText_total c tab⟩, toHtmlFrom_ok_iff nd text []⟩
  refine Classical.byContradiction fun hn => ?_
  have : ∃ w ∈ words text, ¬ Complete w := by
    refine Classical.byContradiction fun he => hn fun w hw => ?_
    exact Classical.byContradiction fun hc => he ⟨w, hw, hc⟩
  exact fails_not_total (printText_fails c tab this) ⟨[], false⟩ h

theorem runHelp_total {m : HelpM} (h : Total m) : (runHelp m).1 = none := by
  obtain ⟨h', hh⟩ := h { out := [], prevWasParagraph := false }
  simp [runHelp, hh, Res.exn?]

theorem runHtml_total {m : HtmlM} (h : Total m) : (runHtml m).1 = none := by
  obtain ⟨h', hh⟩ := h { out := [], isDl := false, isP := false }
  simp [runHtml, hh, Res.exn?]

theorem runMan_total {m : ManM} (h : Total m) : (runMan m).1 = none := by
  obtain ⟨h', hh⟩ := h { out := [], isFirst := true }
  simp [runMan, hh, Res.exn?]

theorem uncut_helpOk {b : Block} (h : ∀ t ∈ b.texts, Uncut t) : HelpOk b := by
  cases b with
  | sec t => trivial
  | subsec t => trivial
  | line t p => exact uncut_words (h t (by simp [Block.texts]))
  | item k d => exact ⟨uncut_complete (h k (by simp [Block.texts])), uncut_words (h d (by simp [Block.texts]))⟩

theorem synopsisSteps_class {P Q : Str → Prop} {bold : Str → Str} (C : TextClass P Q bold) {m : Meta}
    (hs : SynopsisOk m) (hm : ∀ t ∈ metaTexts m, P t) :
    ∀ x ∈ synopsisSteps m, ∃ b, x = .ok b ∧ ∀ t ∈ b.texts, P t := by
  intro x hx
  simp only [synopsisSteps, List.mem_map] at hx
  obtain ⟨s, hs', rfl⟩ := hx
  rw [synopsisText_eq (hs s hs')]
  refine ⟨_, rfl, ?_⟩
  intro t ht
  simp only [Block.texts, List.mem_singleton] at ht
  subst ht
  have hsyn : ∀ t ∈ [s.takeWhile (fun c => !isGap c), s.dropWhile (fun c => !isGap c)], P t := fun t ht =>
    hm t (by simp only [metaTexts, List.mem_append, List.mem_flatMap]; exact Or.inr ⟨s, hs', ht⟩)
  exact C.append (C.boldFont (hsyn _ (by simp))) (hsyn _ (by simp))

/-- C46 (partial; missing: texts with cut off or unmatched backslash sequences and synopsis lines without blank, see
above). If every synopsis line has a blank or tabulator: the console pages are printed if no backslash sequence in a
supplied text is cut off by a blank or the end; the HTML page is printed if no supplied text switches off a font that is
not on; the man page is always printed. Defaults that are shown in quotes may be any text. -/
theorem C46_pages_are_printed_partial {W : Type} (pe : PageEnv) (p : Parser W) (st : Store) (hs : SynopsisOk pe.info) :
    ((∀ t ∈ suppliedTexts pe p st, Uncut t) → ∀ f ∈ [.help false, .help true, .shortHelp, .version],
      (pageOf pe f p st).1 = none) ∧
    ((∀ t ∈ suppliedTexts pe p st, FontsOk 0 t) → (pageOf pe .html p st).1 = none) ∧
    (pageOf pe .man p st).1 = none := by
  refine ⟨fun h => ?_, fun h => ?_, ?_⟩
  · have C := uncutClass pe.console
    have hm : ∀ t ∈ metaTexts pe.info, Uncut t := fun t ht => h t (by simp [suppliedTexts, ht])
    have full : ∀ a, (pageOf pe (.help a) p st).1 = none := by
      intro a
      refine runHelp_total (fullPage_total _ _ (total_modify _) ?_ total_pure)
      intro x hx
      obtain ⟨b, rfl, hb⟩ := pageSteps_class C pe a p st hs h (fun _ _ => trivial) x hx
      exact ⟨b, rfl, helpBlock_total _ (uncut_helpOk hb)⟩
    intro f hf
    simp only [List.mem_cons, List.not_mem_nil, or_false] at hf
    rcases hf with rfl | rfl | rfl | rfl
    · exact full false
    · exact full true
    · refine runHelp_total (total_bind (total_modify _) (total_bind (steps_total _ ?_) ?_))
      · intro x hx
        obtain ⟨b, rfl, hb⟩ := synopsisSteps_class C hs hm x hx
        exact ⟨b, rfl, helpBlock_total _ (uncut_helpOk hb)⟩
      · exact helpBlock_total pe.console (b := .line _ true) (uncut_helpOk (C.const (by decide)))
    · refine runHelp_total (total_bind (total_modify _) (steps_total _ ?_))
      intro x hx
      obtain ⟨b, hb, rfl⟩ := List.mem_map.1 hx
      refine ⟨b, rfl, helpBlock_total _ (uncut_helpOk ?_)⟩
      refine C.versionBlocks_class _ _ _ (h _ (by simp [suppliedTexts])) (h _ (by simp [suppliedTexts])) ?_ hm b hb
      intro s hs'
      refine h s ?_
      simp only [suppliedTexts, List.mem_append]
      exact Or.inl (Or.inl (Or.inl (Or.inr (by simpa using hs'))))
  · have hm : ∀ t ∈ metaTexts pe.info, FontsOk 0 t := fun t ht => h t (by simp [suppliedTexts, ht])
    refine runHtml_total (fullPage_total _ _ ?_ ?_ ?_)
    · exact htmlHeader_total _ _ _ (h _ (by simp [suppliedTexts])) (hm _ (by simp [metaTexts]))
    · intro x hx
      obtain ⟨b, rfl, hb⟩ := pageSteps_class fontsClass pe false p st hs h (fun _ _ => trivial) x hx
      exact ⟨b, rfl, htmlBlock_total _ hb⟩
    · show Total htmlFooter
      unfold htmlFooter
      exact total_bind (total_modify _) (total_modify _)
  · refine runMan_total (fullPage_total _ _ (total_modify _) ?_ total_pure)
    intro x hx
    have C : TextClass (fun _ => True) (fun _ => True) (manPrinter p.appName pe.info).bold :=
      ⟨trivial, fun _ _ => trivial, fun _ _ => trivial, fun _ _ => trivial, fun _ => trivial, fun _ => trivial⟩
    obtain ⟨b, rfl, _⟩ := pageSteps_class C pe false p st hs (fun _ _ => trivial) (fun _ _ => trivial) x hx
    exact ⟨b, rfl, manBlock_total b⟩

/-- C46 (partial): the condition on the synopsis is needed for all these pages. -/
theorem C46_synopsis_partial {W : Type} (pe : PageEnv) (p : Parser W) (st : Store) :
    (pageOf pe .man p st).1 = none ↔ SynopsisOk pe.info := by
  refine ⟨fun h => Classical.byContradiction fun hn => ?_, fun hs => (C46_pages_are_printed_partial pe p st hs).2.2⟩
  have hbad : ∃ s ∈ pe.info.synopsis, ¬ ∃ c ∈ s, isGap c = true := by
    refine Classical.byContradiction fun he => hn fun s hs => ?_
    exact Classical.byContradiction fun hc => he ⟨s, hs, hc⟩
  obtain ⟨s, hs, hc⟩ := hbad
  have hall : ∀ x ∈ pageSteps (pe.input false p st) (manPrinter p.appName pe.info).bold,
      Total ((manPrinter p.appName pe.info).step x) ∨
        ∃ e, True ∧ Fails e ((manPrinter p.appName pe.info).step x) := by
    intro x _
    cases x with
    | ok b => exact Or.inl (manBlock_total b)
    | error e => exact Or.inr ⟨e, trivial, fails_throw e⟩
  have hmem : (.error .outOfRange : Step) ∈ pageSteps (pe.input false p st) (manPrinter p.appName pe.info).bold := by
    simp only [pageSteps, pageStart, List.mem_append]
    left; left; left
    have : pe.info.synopsis ≠ [] := by intro h0; rw [h0] at hs; simp at hs
    have hi : (pe.input false p st).info = pe.info := rfl
    rw [hi, if_pos this]
    refine List.mem_cons_of_mem _ ?_
    simp only [synopsisSteps, List.mem_map]
    exact ⟨s, hs, by rw [synopsisText_none hc]⟩
  obtain ⟨e, _, hf⟩ := forEach_fails hall ⟨_, hmem, fun ht => by
    obtain ⟨h', hh⟩ := ht ⟨[], true⟩
    simp [Printer.step, M.throw] at hh⟩
  have hpage : Fails e (printFullPage (manPrinter p.appName pe.info) (pe.input false p st)) :=
    fails_bind_right (total_modify _) (fails_bind_left hf)
  obtain ⟨h', hh⟩ := hpage { out := [], isFirst := true }
  simp [pageOf, runMan, hh, Res.exn?] at h

/-- C46: whatever the texts are, no other exception comes from the pages than the failures above; the tool description
export either works or throws a parser exception. -/
theorem C46_no_other_failures {W : Type} (pe : PageEnv) (f : Format) (p : Parser W) (st : Store) :
    (pageOf pe f p st).1 ∈ [none, some (endReached pe.build.ndebug), some .outOfRange, some .validationError] := by
  have hhelp : ∀ l : List Step, (∀ e, (.error e) ∈ l → e = .outOfRange) →
      Total ((helpPrinter pe.console p.appName pe.info).steps l) ∨
        ∃ e, (e = endReached pe.build.ndebug ∨ e = .outOfRange) ∧
          Fails e ((helpPrinter pe.console p.appName pe.info).steps l) := by
    intro l hl
    by_cases ht : ∀ x ∈ l, Total ((helpPrinter pe.console p.appName pe.info).step x)
    · exact Or.inl (forEach_total ht)
    · refine Or.inr (forEach_fails ?_ ?_)
      · intro x hx
        cases x with
        | ok b =>
          by_cases hb : HelpOk b
          · exact Or.inl (helpBlock_total _ hb)
          · exact Or.inr ⟨_, Or.inl rfl, helpBlock_fails pe.console hb⟩
        | error e => exact Or.inr ⟨e, Or.inr (hl e hx), fails_throw e⟩
      · exact Classical.byContradiction fun he => ht fun x hx => Classical.byContradiction fun hc => he ⟨x, hx, hc⟩
  have hsyn : ∀ e, (.error e : Step) ∈ synopsisSteps pe.info → e = .outOfRange := by
    intro e he
    simp only [synopsisSteps, List.mem_map] at he
    obtain ⟨s, _, he⟩ := he
    by_cases hc : ∃ c ∈ s, isGap c = true
    · rw [synopsisText_eq hc] at he; simp at he
    · rw [synopsisText_none hc] at he; simp at he; exact he.symm
  have hsteps : ∀ (a : Bool) (bold : Str → Str) (e : Exn), (.error e : Step) ∈ pageSteps (pe.input a p st) bold →
      e = .outOfRange := by
    intro a bold e he
    simp only [pageSteps, pageStart, List.mem_append, List.mem_map, reduceCtorEq, and_false, exists_false,
      or_false] at he
    split at he
    · rcases List.mem_cons.1 he with he | he
      · simp at he
      · exact hsyn e he
    · simp at he
  have hrun : ∀ {m : HelpM}, (Total m ∨ ∃ e, (e = endReached pe.build.ndebug ∨ e = .outOfRange) ∧ Fails e m) →
      (runHelp m).1 ∈ [none, some (endReached pe.build.ndebug), some .outOfRange, some .validationError] := by
    intro m hm
    rcases hm with ht | ⟨e, he, hf⟩
    · rw [runHelp_total ht]; simp
    · obtain ⟨h', hh⟩ := hf { out := [], prevWasParagraph := false }
      simp only [runHelp, hh, Res.exn?]
      rcases he with rfl | rfl <;> simp
  cases f with
  | parse => simp [pageOf]
  | help a =>
    refine hrun ?_
    rcases hhelp _ (hsteps a _) with ht | ⟨e, he, hf⟩
    · exact Or.inl (total_bind (total_modify _) (total_bind ht total_pure))
    · exact Or.inr ⟨e, he, fails_bind_right (total_modify _) (fails_bind_left hf)⟩
  | shortHelp =>
    refine hrun ?_
    rcases hhelp _ hsyn with ht | ⟨e, he, hf⟩
    · refine Or.inl (total_bind (total_modify _) (total_bind ht ?_))
      exact helpBlock_total pe.console (b := .line _ true) (uncut_helpOk ((uncutClass pe.console).const (by decide)))
    · exact Or.inr ⟨e, he, fails_bind_right (total_modify _) (fails_bind_left hf)⟩
  | version =>
    refine hrun ?_
    rcases hhelp ((versionBlocks pe.build (inBold pe.console) p.appName pe.info).map .ok) (by simp) with
      ht | ⟨e, he, hf⟩
    · exact Or.inl (total_bind (total_modify _) ht)
    · exact Or.inr ⟨e, he, fails_bind_right (total_modify _) hf⟩
  | copyright => exact hrun (Or.inl (total_modify _))
  | html =>
    have key : Total (printFullPage (htmlPrinter pe.build.ndebug p.appName pe.info) (pe.input false p st)) ∨
        ∃ e, (e = endReached pe.build.ndebug ∨ e = .outOfRange) ∧
          Fails e (printFullPage (htmlPrinter pe.build.ndebug p.appName pe.info) (pe.input false p st)) := by
      by_cases hh : FontsOk 0 p.appName ∧ FontsOk 0 pe.info.shortDescription
      · have hH := htmlHeader_total pe.build.ndebug p.appName pe.info hh.1 hh.2
        by_cases ht : ∀ x ∈ pageSteps (pe.input false p st) (htmlPrinter pe.build.ndebug p.appName pe.info).bold,
            Total ((htmlPrinter pe.build.ndebug p.appName pe.info).step x)
        · refine Or.inl (total_bind hH (total_bind (forEach_total ht) ?_))
          show Total htmlFooter
          unfold htmlFooter
          exact total_bind (total_modify _) (total_modify _)
        · have := forEach_fails (f := (htmlPrinter pe.build.ndebug p.appName pe.info).step)
            (E := fun e => e = endReached pe.build.ndebug ∨ e = .outOfRange)
            (l := pageSteps (pe.input false p st) (htmlPrinter pe.build.ndebug p.appName pe.info).bold) ?_ ?_
          · obtain ⟨e, he, hf⟩ := this
            exact Or.inr ⟨e, he, fails_bind_right hH (fails_bind_left hf)⟩
          · intro x hx
            cases x with
            | ok b =>
              by_cases hb : ∀ t ∈ b.texts, FontsOk 0 t
              · exact Or.inl (htmlBlock_total _ hb)
              · exact Or.inr ⟨_, Or.inl rfl, htmlBlock_fails _ hb⟩
            | error e => exact Or.inr ⟨e, Or.inr (hsteps _ _ e hx), fails_throw e⟩
          · exact Classical.byContradiction fun he => ht fun x hx => Classical.byContradiction fun hc => he ⟨x, hx, hc⟩
      · exact Or.inr ⟨_, Or.inl rfl, fails_bind_left (htmlHeader_fails _ _ _ hh)⟩
    rcases key with ht | ⟨e, he, hf⟩
    · rw [pageOf, runHtml_total ht]; simp
    · obtain ⟨h', hh⟩ := hf { out := [], isDl := false, isP := false }
      simp only [pageOf, runHtml, hh, Res.exn?]
      rcases he with rfl | rfl <;> simp
  | man =>
    have key : Total (printFullPage (manPrinter p.appName pe.info) (pe.input false p st)) ∨
        ∃ e, e = .outOfRange ∧ Fails e (printFullPage (manPrinter p.appName pe.info) (pe.input false p st)) := by
      by_cases ht : ∀ x ∈ pageSteps (pe.input false p st) (manPrinter p.appName pe.info).bold,
          Total ((manPrinter p.appName pe.info).step x)
      · exact Or.inl (total_bind (total_modify _) (total_bind (forEach_total ht) total_pure))
      · have := forEach_fails (f := (manPrinter p.appName pe.info).step) (E := fun e => e = .outOfRange)
          (l := pageSteps (pe.input false p st) (manPrinter p.appName pe.info).bold) ?_ ?_
        · obtain ⟨e, he, hf⟩ := this
          exact Or.inr ⟨e, he, fails_bind_right (total_modify _) (fails_bind_left hf)⟩
        · intro x hx
          cases x with
          | ok b => exact Or.inl (manBlock_total b)
          | error e => exact Or.inr ⟨e, hsteps _ _ e hx, fails_throw e⟩
        · exact Classical.byContradiction fun he => ht fun x hx => Classical.byContradiction fun hc => he ⟨x, hx, hc⟩
    rcases key with ht | ⟨e, rfl, hf⟩
    · rw [pageOf, runMan_total ht]; simp
    · obtain ⟨h', hh⟩ := hf { out := [], isFirst := true }
      simp [pageOf, runMan, hh, Res.exn?]
  | tdl cwl => simp only [pageOf]; split <;> simp

/-- A set-up for examples: all kinds of entries, markup, a synopsis. -/
def exPageMeta : Meta :=
  { version := "1.0.0".toList, shortDescription := "An app".toList, date := "today".toList, url := "http://x.y".toList,
    author := "A & B".toList, shortCopyright := "BSD".toList, synopsis := ["app [OPTIONS]".toList],
    description := ["Reads and writes.".toList], examples := ["app -a".toList] }

/-- The entries of the example. -/
def exPageEntries : List (Entry Unit) :=
  [ .option { short := 'i', long := "int".toList, description := "An integer.".toList } 0 false (.integer (-128) 127)
      (fun _ w => (true, w)),
    .sec "More options".toList false,
    .flag { short := 'a', long := "all".toList, description := "Use all.".toList, advanced := true } 1,
    .flag { short := 'x', description := "Secret.".toList, hidden := true } 2,
    .line "Some text.".toList true false,
    .positional { description := "The file.".toList } 3 false .string (fun _ w => (true, w)) ]

/-- The hypotheses of C46 hold for the example, in its plain form and with markup. -/
example : SynopsisOk exPageMeta ∧
    (∀ t ∈ suppliedTexts (exPages exPageMeta) (exPageParser exPageEntries) exPageStore, Uncut t) ∧
    (∀ t ∈ suppliedTexts (exPages exPageMeta) (exPageParser exPageEntries) exPageStore, FontsOk 0 t) := by
  have h : ∀ t ∈ suppliedTexts (exPages exPageMeta) (exPageParser exPageEntries) exPageStore, '\\' ∉ t := by
    decide +kernel
  exact ⟨by unfold SynopsisOk; decide +kernel, fun t ht => uncut_plain (h t ht), fun t ht => fontsOk_plain (h t ht)⟩

example : FontsOk 0 ['\\', 'f', 'B', 'x', '\\', 'f', 'P', '\\', '-'] :=
  .on (by decide) (.char (by decide) (.off (.escape (by decide) .nil)))

end Sharg
