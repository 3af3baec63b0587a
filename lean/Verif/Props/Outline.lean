import Verif.Lemmas.Outline
import Verif.Props.Shown
import Verif.Props.RealSystem

/-!
# C68: the outline of the pages
-/

namespace Sharg

open Spec

variable {W : Type}

/-! ### Whole pages -/

theorem startBlocks_eq (pe : PageEnv) (p : Parser W) (st : Store) (adv : Bool) :
    startBlocks (pe.input adv p st) = elements (nonEmptyParts
      [⟨"Description".toList, pe.info.description.map (.line · true)⟩,
       ⟨"Subcommands".toList, subcommandLines p.appName p.subcommands⟩,
       ⟨"Positional Arguments".toList,
         ((p.operations.filter isArgument).zipIdx 1).map fun x => argumentCall pe.types st x.2 x.1⟩])
      ++ [.sec "Options".toList] := by
  rw [elements_nonEmpty_cons, elements_nonEmpty_cons, elements_nonEmpty_cons, elements_nil]
  unfold startBlocks PageEnv.input
  dsimp only
  rw [paragraphSection_eq, subcommandBlocks_eq, positionalCalls_arguments]
  generalize ((p.operations.filter isArgument).zipIdx (0 + 1)).map (fun x => argumentCall pe.types st x.2 x.1) = l
  cases l with
  | nil =>
    rw [if_neg (not_not_intro rfl), if_pos rfl]
    simp only [List.append_assoc, List.append_nil]
  | cons b l =>
    rw [if_pos (List.cons_ne_nil _ _), if_neg (List.cons_ne_nil _ _)]
    simp only [List.append_assoc, List.append_nil, List.nil_append, List.cons_append]

theorem endBlocks_eq (pe : PageEnv) (f : Format) (p : Parser W) (st : Store) (adv : Bool) :
    endBlocks (pe.input adv p st) (boldText pe f) =
      .subsec "Common options".toList :: (predefinedOptions pe.build.hasTdl p.notify).map predefinedItem
      ++ elements (nonEmptyParts
        [⟨"Examples".toList, pe.info.examples.map (.line · true)⟩, versionPart pe f p.appName, urlPart pe,
         legalPart pe f p.appName]) := by
  have h1 : ∀ a b c : Part, elements (nonEmptyParts [a, b, c]) = elements (nonEmptyParts [a, b]) ++ elements (nonEmptyParts [c]) := by
    intro a b c
    unfold nonEmptyParts elements
    rw [← List.flatMap_append, ← List.filter_append]
    rfl
  rw [elements_nonEmpty_cons, h1, ← versionBlocks_eq, ← legalBlocks_eq, ← paragraphSection_eq]
  unfold endBlocks PageEnv.input
  dsimp only
  rw [commonOptions_eq]
  simp only [List.append_assoc]

/-- The print calls of a page, if the synopsis can be printed. -/
theorem pageSteps_outline (pe : PageEnv) (f : Format) (p : Parser W) (st : Store) (bs : List Block)
    (h : pageSteps (pe.input (advancedShown f) p st) (boldText pe f) = bs.map .ok) : bs = elements (outline pe f p st) := by
  have hinj : ∀ a b : List Block, a.map (Except.ok (ε := Exn)) = b.map .ok → a = b := by
    intro a
    induction a with
    | nil => intro b h; cases b with | nil => rfl | cons => cases h
    | cons x a ih =>
      intro b h
      cases b with
      | nil => cases h
      | cons y b =>
        rw [List.map_cons, List.map_cons] at h
        injection h with h1 h2
        injection h1 with h1
        rw [h1, ih b h2]
  unfold pageSteps pageStart at h
  rw [startBlocks_eq pe, endBlocks_eq, entryBlocks_visible] at h
  have hsyn : ∃ ss : List Block, (if (pe.input (advancedShown f) p st).info.synopsis ≠ [] then
      .ok (Block.sec "Synopsis".toList) :: synopsisSteps (pe.input (advancedShown f) p st).info else []) = ss.map (Except.ok (ε := Exn)) := by
    rw [List.append_assoc, List.append_assoc] at h
    obtain ⟨l1, l2, h1, h2, -⟩ := List.append_eq_map_iff.1 h
    exact ⟨l1, h2.symm⟩
  obtain ⟨ss, hss⟩ := hsyn
  rw [hss, ← List.map_append, ← List.map_append, ← List.map_append] at h
  have h := hinj _ _ h
  rw [← h]
  have hs : ss = if pe.info.synopsis.map synopsisLine = [] then [] else
      .sec "Synopsis".toList :: pe.info.synopsis.map synopsisLine := by
    have hi : (pe.input (advancedShown f) p st).info = pe.info := rfl
    rw [hi] at hss
    by_cases h0 : pe.info.synopsis = []
    · rw [if_neg (not_not_intro h0)] at hss
      rw [h0]
      cases ss with
      | nil => rfl
      | cons => cases hss
    · rw [if_pos h0] at hss
      rw [if_neg (by simpa using h0)]
      cases ss with
      | nil => cases hss
      | cons b ss =>
        rw [List.map_cons] at hss
        injection hss with h1 h2
        injection h1 with h1
        rw [← h1, synopsis_blocks _ _ h2]
  unfold outline
  have split : ∀ (a b c d o : Part) (l : List Part), o.body ≠ [] → elements (nonEmptyParts (a :: b :: c :: d :: o :: l)) =
      elements (nonEmptyParts [a]) ++ elements (nonEmptyParts [b, c, d]) ++ (.sec o.title :: o.body) ++ elements (nonEmptyParts l) := by
    intro a b c d o l ho
    have : nonEmptyParts (a :: b :: c :: d :: o :: l) =
        nonEmptyParts [a] ++ nonEmptyParts [b, c, d] ++ nonEmptyParts [o] ++ nonEmptyParts l := by
      unfold nonEmptyParts
      rw [← List.filter_append, ← List.filter_append, ← List.filter_append]
      rfl
    have h2 : nonEmptyParts [o] = [o] := by
      unfold nonEmptyParts
      rw [List.filter_cons_of_pos]
      · rfl
      · cases hb : o.body with
        | nil => exact absurd hb ho
        | cons => rfl
    rw [this, h2]
    unfold elements
    simp only [List.flatMap_append, List.flatMap_cons, List.flatMap_nil, List.append_nil]
  rw [split _ _ _ _ _ _ (by simp), elements_nonEmpty_cons _ _ [], elements_nil, hs]
  simp only [List.append_nil, List.append_assoc, List.cons_append, List.nil_append]
  rfl

theorem prints_fullPage {σ : Type} {out : σ → Str} (pr : Printer σ) {R : Block → Str → Prop} {S E : Str → Prop}
    (hs : Prints out S pr.header) (hb : ∀ b, Prints out (R b) (pr.block b)) (he : Prints out E pr.footer) (i : PageInput W)
    (es : List Block) (hes : ∀ bs : List Block, pageSteps i pr.bold = bs.map .ok → bs = es) :
    Prints out (fun x => ∃ start os fin, S start ∧ List.Forall₂ R es os ∧ E fin ∧ x = start ++ os.flatten ++ fin)
      (printFullPage pr i) := by
  refine hs.bind (Prints.bind (R := fun x => ∃ os fin, List.Forall₂ R es os ∧ E fin ∧ x = os.flatten ++ fin)
    (R₁ := fun x => ∃ os, List.Forall₂ R es os ∧ x = os.flatten) ?_ he ?_) ?_
  · intro a b e
    obtain ⟨bs, hbs⟩ := steps_ok pr e
    rw [hbs] at e
    rw [← hes bs hbs]
    exact prints_steps pr hb bs a b e
  · rintro a b ⟨os, h1, rfl⟩ h2
    exact ⟨os, b, h1, h2, rfl⟩
  · rintro a b h1 ⟨os, fin, h2, h3, rfl⟩
    exact ⟨a, os, fin, h1, h2, h3, by rw [List.append_assoc]⟩

/-- C68: a help page, HTML page or man page that is printed without failure consists of its beginning, the elements of the
outline in their order, and its end; nothing else. The outline has a section for each kind of information the developer
supplied and no section without content. -/
theorem C68_outline (pe : PageEnv) (f : Format) (p : Parser W) (st : Store) (hf : (∃ a, f = .help a) ∨ f = .html ∨ f = .man)
    (h : (pageOf pe f p st).1 = none) : PageMadeOf pe f p.appName (elements (outline pe f p st)) (pageOf pe f p st).2 := by
  rcases hf with ⟨a, rfl⟩ | rfl | rfl
  · refine (prints_fullPage (out := HelpState.out) (helpPrinter pe.console p.appName pe.info) (prints_helpHeader _ _)
      (prints_helpBlock pe) prints_pure (pe.input a p st) _ fun bs hbs => pageSteps_outline pe (.help a) p st bs ?_).run
        ⟨[], false⟩ rfl h
    have : boldText pe (.help a) = inBold pe.console := funext fun s => boldText_eq pe _ s (by simp) (by simp)
    rw [this]
    exact hbs
  · exact (prints_fullPage (out := HtmlState.out) (htmlPrinter pe.build.ndebug p.appName pe.info) (prints_htmlHeader _ _ _)
      (prints_htmlBlock _) prints_htmlFooter (pe.input false p st) _ fun bs hbs => pageSteps_outline pe .html p st bs hbs).run
        ⟨[], false, false⟩ rfl h
  · exact (prints_fullPage (out := ManState.out) (manPrinter p.appName pe.info) (prints_manHeader _ _)
      prints_manBlock prints_pure (pe.input false p st) _ fun bs hbs => pageSteps_outline pe .man p st bs hbs).run
        ⟨[], true⟩ rfl h

/-- C68, the version page: the title and the sections with versions and address. -/
theorem C68_version_page (pe : PageEnv) (p : Parser W) (st : Store) (h : (pageOf pe .version p st).1 = none) :
    PageMadeOf pe .version p.appName (elements (nonEmptyParts [versionPart pe .version p.appName, urlPart pe]))
      (pageOf pe .version p st).2 := by
  have hb : boldText pe .version = inBold pe.console := funext fun s => boldText_eq pe _ s (by simp) (by simp)
  have hp : Prints HelpState.out (fun x => ∃ start os, ConsoleStart p.appName pe.info.shortDescription start ∧
      List.Forall₂ (ConsoleElement pe) (elements (nonEmptyParts [versionPart pe .version p.appName, urlPart pe])) os ∧
      x = start ++ os.flatten) (versionPage pe.console pe.build p.appName pe.info) := by
    unfold versionPage
    rw [← hb, versionBlocks_eq]
    refine (prints_helpHeader _ _).bind (prints_steps _ (prints_helpBlock pe) _) ?_
    rintro a b h1 ⟨os, h2, rfl⟩
    exact ⟨a, os, h1, h2, rfl⟩
  obtain ⟨start, os, h1, h2, h3⟩ := hp.run ⟨[], false⟩ rfl h
  exact ⟨start, os, [], h1, h2, rfl, by rw [List.append_nil]; exact h3⟩

/-- C68, the short help page: the title, the synopsis, and a hint. -/
theorem C68_short_help_page (pe : PageEnv) (p : Parser W) (st : Store) (h : (pageOf pe .shortHelp p st).1 = none) :
    PageMadeOf pe .shortHelp p.appName
      (pe.info.synopsis.map synopsisLine ++ [.line "Try -h or --help for more information.\n".toList true])
      (pageOf pe .shortHelp p st).2 := by
  have hp : Prints HelpState.out (fun x => ∃ start os, ConsoleStart p.appName pe.info.shortDescription start ∧
      List.Forall₂ (ConsoleElement pe)
        (pe.info.synopsis.map synopsisLine ++ [.line "Try -h or --help for more information.\n".toList true]) os ∧
      x = start ++ os.flatten) (shortHelpPage pe.console p.appName pe.info) := by
    unfold shortHelpPage
    refine (prints_helpHeader _ _).bind (Prints.bind (R := fun x => ∃ os, List.Forall₂ (ConsoleElement pe)
        (pe.info.synopsis.map synopsisLine ++ [.line "Try -h or --help for more information.\n".toList true]) os ∧ x = os.flatten)
      (R₁ := fun x => ∃ os, List.Forall₂ (ConsoleElement pe) (pe.info.synopsis.map synopsisLine) os ∧ x = os.flatten)
      ?_ (prints_helpBlock pe (.line _ true)) ?_) ?_
    · intro a b e
      obtain ⟨bs, hbs⟩ := steps_ok _ e
      rw [hbs] at e
      rw [← synopsis_blocks _ _ hbs]
      exact prints_steps _ (prints_helpBlock pe) bs a b e
    · rintro a b ⟨os, h2, rfl⟩ h3
      refine ⟨os ++ [b], ?_, by simp⟩
      have app : ∀ {l : List Block} {o : List Str}, List.Forall₂ (ConsoleElement pe) l o →
          List.Forall₂ (ConsoleElement pe) (l ++ [.line "Try -h or --help for more information.\n".toList true]) (o ++ [b]) := by
        intro l o h
        induction h with
        | nil => exact .cons h3 .nil
        | cons g _ ih => exact .cons g ih
      exact app h2
    · rintro a b h1 ⟨os, h2, rfl⟩
      exact ⟨a, os, h1, h2, rfl⟩
  obtain ⟨start, os, h1, h2, h3⟩ := hp.run ⟨[], false⟩ rfl h
  exact ⟨start, os, [], h1, h2, rfl, by rw [List.append_nil]; exact h3⟩

/-- C68, the copyright page, word for word. It can always be printed. -/
theorem C68_copyright_page (pe : PageEnv) (p : Parser W) (st : Store) :
    pageOf pe .copyright p st = (none, copyrightText pe p.appName) := by
  have hb : boldText pe .copyright = inBold pe.console := funext fun s => boldText_eq pe _ s (by simp) (by simp)
  have h0 : ansi pe.console.tty '0' = if pe.tty then "\x1b[0m".toList else [] := rfl
  have h1 : " copyright information not available.\n".toList = " copyright information not available.".toList ++ ['\n'] := by
    decide +kernel
  have h2 : (" full copyright information not available. Displaying short copyright " ++ "information instead:\n").toList =
      " full copyright information not available. ".toList ++ "Displaying short copyright information instead:\n".toList := by
    decide +kernel
  have h3 : pageOf pe .copyright p st = (none, (copyrightPage pe.console pe.license p.appName pe.info ⟨[], false⟩).state.out) := rfl
  rw [h3]
  congr 1
  unfold copyrightPage copyrightText emit M.modify
  dsimp only [Res.state]
  rw [hb, h0, h1, h2]
  by_cases a1 : pe.info.longCopyright = []
  · by_cases a2 : pe.info.shortCopyright = []
    · simp only [a1, a2, ne_eq, not_true_eq_false, if_false, List.append_assoc, List.nil_append]
    · simp only [a1, a2, ne_eq, not_true_eq_false, not_false_eq_true, if_true, if_false, List.append_assoc, List.nil_append]
  · simp only [a1, ne_eq, not_false_eq_true, if_true, List.append_assoc, List.nil_append]

/-- C68 on a real system: if `parse()` ends the program, the page was printed without failure, and all of it, and nothing
else, was added to the standard output after the version check. -/
theorem C68_printed_to_standard_output (r : Surroundings) (g g' : Prog System) (f : Format) (h : parse r.env g = (.exited f, g')) :
    f ≠ .parse ∧ g.parser.SameSetup g'.parser ∧ g'.store = g.store ∧ (pageOf r.pages f g'.parser g.store).1 = none ∧
    ∃ w, runVersionCheck (r.check g'.parser.appName) g'.parser.notify g'.parser.userDecision g.world = .ok () w ∧
      g'.world = { w with stdout := w.stdout ++ (pageOf r.pages f g'.parser g.store).2 } := by
  have hs := parse_parser r.env g
  rw [h] at hs
  unfold parse at h
  split at h
  · cases h
  · split at h
    · cases h
    · rename_i p hv
      split at h
      · cases h
      · rename_i f' p' hd
        unfold checkAndParse at h
        split at h
        · cases h
        · rename_i w hw
          have hw : ((runVersionCheck (r.check p'.appName) p'.notify p'.userDecision g.world).exn?,
            (runVersionCheck (r.check p'.appName) p'.notify p'.userDecision g.world).state) = (none, w) := hw
          unfold parseFormat at h
          split at h
          · split at h <;> cases h
          · rename_i hf
            split at h
            · cases h
            · rename_i w' hp
              injection h with h1 h2
              injection h1 with h1
              subst h1 h2
              injection hp with hp1 hp2
              refine ⟨hf, hs.1, rfl, hp1, w, ?_, hp2.symm⟩
              injection hw with hw1 hw2
              cases hr : runVersionCheck (r.check p'.appName) p'.notify p'.userDecision g.world with
              | ok u s => rw [hr] at hw2; rw [← hw2]; rfl
              | err e s => rw [hr] at hw1; cases hw1

/-! ### Examples -/

/-- Meta data for examples. -/
def exDescribed : Meta :=
  { synopsis := ["app [OPTIONS] FILE".toList], description := ["Counts \\fBwords\\fP.".toList], version := "1.0".toList,
    shortDescription := "a counter".toList, author := "A. N. Other".toList }

/-- The sections of a page, for examples. -/
example : (outline (exPages exDescribed) .man (exPageParser [exSecret false false]) exPageStore).map Part.title =
    ["Synopsis", "Description", "Options", "Version", "Legal"].map String.toList := by
  decide +kernel

/-- The pages of an app with meta data can be printed. -/
example : ∀ f ∈ [Format.help true, .html, .man, .version, .shortHelp],
    (pageOf (exPages exDescribed) f (exPageParser [exSecret false false]) exPageStore).1 = none := by
  decide +kernel

/-- The version page in full. -/
example : (pageOf (exPages exDescribed) .version (exPageParser []) exPageStore).2 =
    ("app - a counter\n===============\n\nVERSION\n    Last update:\n    app version: 1.0\n"
      ++ "    Sharg version: 1.1.1\n").toList := by
  decide +kernel

/-- A request on a real system. -/
example : (parse (exSurroundings {}).env (exProgram (exSystem [] 0 "") ["app", "--version"])).1 = .exited .version ∧
    (parse (exSurroundings {}).env (exProgram (exSystem [] 0 "") ["app", "--version"])).2.world.stdout ≠ [] := by
  decide +kernel

end Sharg
