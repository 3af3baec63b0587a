import Verif.Spec.Shown
import Verif.Lemmas.Basic
import Verif.Lemmas.Html

/-!
# Which pieces of output a page is made of
-/

namespace Sharg

open Spec

variable {W σ : Type}

theorem inOrder_append_right {ps : List Str} {s : Str} (h : InOrder ps s) (t : Str) : InOrder ps (s ++ t) := by
  induction h with
  | nil s => exact .nil _
  | @cons gap p ps s h ih =>
    have : gap ++ p ++ s ++ t = gap ++ p ++ (s ++ t) := by simp
    rw [this]
    exact .cons gap ih

theorem inOrder_append {ps qs : List Str} {s t : Str} (h1 : InOrder ps s) (h2 : InOrder qs t) :
    InOrder (ps ++ qs) (s ++ t) := by
  induction h1 with
  | nil s =>
    cases h2 with
    | nil => exact .nil _
    | @cons gap p ps u h =>
      have : s ++ (gap ++ p ++ u) = (s ++ gap) ++ p ++ u := by simp
      rw [this]
      exact .cons _ h
  | @cons gap p ps s h ih =>
    have : gap ++ p ++ s ++ t = gap ++ p ++ (s ++ t) := by simp
    rw [this]
    exact .cons gap ih

theorem inOrder_single (a p b : Str) : InOrder [p] (a ++ p ++ b) := .cons a (.nil b)

/-- If the action succeeds, then it appends output that contains pieces as described, in order. -/
def Writes (out : σ → Str) (R : List Str → Prop) (m : M σ Unit) : Prop :=
  ∀ h h', m h = .ok () h' → ∃ x ps, out h' = out h ++ x ∧ R ps ∧ InOrder ps x

variable {out : σ → Str}

theorem Writes.bind {R R₁ R₂ : List Str → Prop} {m n : M σ Unit} (h1 : Writes out R₁ m) (h2 : Writes out R₂ n)
    (hR : ∀ a b, R₁ a → R₂ b → R (a ++ b)) : Writes out R (M.bind m fun _ => n) := by
  intro h h' hh
  rw [M.bind_eq_ok] at hh
  obtain ⟨u, h₁, e1, e2⟩ := hh
  obtain ⟨x, ps, a1, a2, a3⟩ := h1 _ _ e1
  obtain ⟨y, qs, b1, b2, b3⟩ := h2 _ _ e2
  exact ⟨x ++ y, ps ++ qs, by rw [b1, a1, List.append_assoc], hR _ _ a2 b2, inOrder_append a3 b3⟩

/-- Nothing of interest, then pieces. -/
theorem Writes.after {R : List Str → Prop} {m n : M σ Unit} (h1 : Writes out (· = []) m) (h2 : Writes out R n) :
    Writes out R (M.bind m fun _ => n) :=
  h1.bind h2 fun a b ha hb => by subst ha; exact hb

/-- Pieces, then nothing of interest. -/
theorem Writes.before {R : List Str → Prop} {m n : M σ Unit} (h1 : Writes out R m) (h2 : Writes out (· = []) n) :
    Writes out R (M.bind m fun _ => n) :=
  h1.bind h2 fun a b ha hb => by subst hb; rw [List.append_nil]; exact ha

theorem Writes.some {m : M σ Unit} {R : List Str → Prop} (h : Writes out R m) : Writes out (· = []) m := by
  intro a b e
  obtain ⟨x, ps, h1, -, -⟩ := h a b e
  exact ⟨x, [], h1, rfl, .nil _⟩

theorem writes_modify {f : σ → σ} {g : σ → Str} (h : ∀ s, out (f s) = out s ++ g s) : Writes out (· = []) (M.modify f) := by
  intro a b e
  cases e
  exact ⟨g a, [], h a, rfl, .nil _⟩

theorem writes_piece {f : σ → σ} {p : Str} {g k : σ → Str} (h : ∀ s, out (f s) = out s ++ (g s ++ p ++ k s)) :
    Writes out (· = [p]) (M.modify f) := by
  intro a b e
  cases e
  exact ⟨_, [p], h a, rfl, inOrder_single _ _ _⟩

theorem writes_pure : Writes out (· = []) (M.pure ()) := by
  intro a b e
  cases e
  exact ⟨[], [], by simp, rfl, .nil _⟩

theorem writes_throw (R : List Str → Prop) (e : Exn) : Writes out R (M.throw e) := by
  intro a b h
  cases h

/-- A list of print calls. -/
theorem writes_steps (pr : Printer σ) {R : Block → List Str → Prop} (h : ∀ b, Writes out (R b) (pr.block b)) (bs : List Block) :
    Writes out (fun ps => ∃ pss, List.Forall₂ R bs pss ∧ ps = pss.flatten) (pr.steps (bs.map .ok)) := by
  induction bs with
  | nil => exact fun a b e => by cases e; exact ⟨[], [], by simp, ⟨[], .nil, rfl⟩, .nil _⟩
  | cons b bs ih =>
    refine (h b).bind ih ?_
    rintro x y hx ⟨pss, h1, rfl⟩
    exact ⟨x :: pss, .cons hx h1, rfl⟩

/-- Print calls some of which may throw. -/
theorem writes_any_steps (pr : Printer σ) {R : Block → List Str → Prop} (h : ∀ b, Writes out (R b) (pr.block b))
    (l : List Step) : Writes out (· = []) (pr.steps l) := by
  induction l with
  | nil => exact writes_pure
  | cons x l ih =>
    refine Writes.after ?_ ih
    cases x with
    | ok b => exact (h b).some
    | error e => exact writes_throw _ e

theorem Writes.congr {R : List Str → Prop} {m n : M σ Unit} (h : Writes out R m) (e : ∀ s, n s = m s) : Writes out R n := by
  intro a b hh
  rw [e] at hh
  exact h a b hh

/-! ### The three printers -/

theorem writes_emit_piece (a p b : Str) : Writes HelpState.out (· = [p]) (emit (a ++ p ++ b)) :=
  writes_piece (g := fun _ => a) (k := fun _ => b) fun _ => rfl

theorem writes_emit (s : Str) : Writes HelpState.out (· = []) (emit s) := writes_modify (g := fun _ => s) fun _ => rfl

theorem writes_setParagraph (b : Bool) : Writes HelpState.out (· = []) (setParagraph b) :=
  writes_modify (g := fun _ => []) fun s => (List.append_nil s.out).symm

theorem writes_paragraphBreak : Writes HelpState.out (· = []) paragraphBreak :=
  writes_modify (g := fun h => if h.prevWasParagraph then ['\n'] else []) fun _ => rfl

theorem writes_emitText (c : Console) (s : Str) :
    Writes HelpState.out (fun ps => ∃ t, ps = [t] ∧ toText c.ndebug c.tty s = .ok t) (emitText c s) := by
  unfold emitText
  cases h : toText c.ndebug c.tty s with
  | ok t =>
    intro a b e
    obtain ⟨x, ps, h1, h2, h3⟩ := writes_emit_piece [] t [] a b (by simpa using e)
    exact ⟨x, ps, h1, ⟨t, h2, rfl⟩, h3⟩
  | error e => exact writes_throw _ e

/-- Texts printed on the console. -/
def TextPieces (c : Console) (ws ps : List Str) : Prop := List.Forall₂ (fun w t => toText c.ndebug c.tty w = .ok t) ws ps

theorem textPieces_cons (c : Console) {w : Str} {ws : List Str} (a b : List Str)
    (h1 : ∃ t, a = [t] ∧ toText c.ndebug c.tty w = .ok t) (h2 : TextPieces c ws b) : TextPieces c (w :: ws) (a ++ b) := by
  obtain ⟨t, rfl, ht⟩ := h1
  exact .cons ht h2

theorem writes_printWords (c : Console) (tab pos : Nat) (ws : List Str) :
    Writes HelpState.out (TextPieces c ws) (printWords c tab pos ws) := by
  induction ws generalizing pos with
  | nil => exact fun a b e => by cases e; exact ⟨[], [], by simp, .nil, .nil _⟩
  | cons w ws ih =>
    unfold printWords
    split
    · exact (writes_emit _).after ((writes_emitText c w).bind (ih _) fun a b => textPieces_cons c a b)
    · exact (writes_emit _).after ((writes_emitText c w).bind (ih _) fun a b => textPieces_cons c a b)

theorem writes_printText (c : Console) (text : Str) (tab : Nat) :
    Writes HelpState.out (TextPieces c (words text)) (printText c text tab) := by
  unfold printText
  cases words text with
  | nil => exact fun a b e => by cases e; exact ⟨[], [], by simp, .nil, .nil _⟩
  | cons w ws =>
    refine (writes_emitText c w).bind (Writes.before (R := TextPieces c ws) ?_ (writes_emit _)) fun a b => textPieces_cons c a b
    split
    · exact (writes_emit _).after (writes_printWords c _ _ ws)
    · exact writes_printWords c _ _ ws

theorem writes_helpBlock (pe : PageEnv) (adv : Bool) (b : Block) :
    Writes HelpState.out (Pieces pe (.help adv) b) (helpBlock pe.console b) := by
  cases b with
  | sec t =>
    show Writes HelpState.out (fun ps => ps = [t.map upperChar]) (helpSection pe.console t)
    refine Writes.before ?_ (writes_setParagraph _)
    have := writes_emit_piece (['\n'] ++ ansi pe.console.tty '1') (t.map upperChar) (ansi pe.console.tty '0' ++ ['\n'])
    simpa using this
  | subsec t =>
    show Writes HelpState.out (fun ps => ps = [t]) (helpSubsection pe.console t)
    refine Writes.before ?_ (writes_setParagraph _)
    have := writes_emit_piece (['\n'] ++ blanks (pe.console.layout.leftPadding / 2) ++ ansi pe.console.tty '1') t
      (ansi pe.console.tty '0' ++ ['\n'])
    simpa [inBold] using this
  | line t p =>
    exact writes_paragraphBreak.after ((writes_emit _).after (Writes.before (writes_printText pe.console t _)
      (writes_setParagraph _)))
  | item k d =>
    refine writes_paragraphBreak.after ((writes_emit _).after ((writes_emitText pe.console k).bind
      ((writes_emit _).after (Writes.before (writes_printText pe.console d _) (writes_setParagraph _))) ?_))
    rintro a b ⟨t, rfl, ht⟩ hb
    exact ⟨t, b, rfl, ht, hb⟩

theorem writes_manBlock (pe : PageEnv) (b : Block) : Writes ManState.out (Pieces pe .man b) (manBlock b) := by
  cases b with
  | sec t => exact writes_piece (g := fun _ => ".SH ".toList) (k := fun _ => "\n".toList) fun s => by simp
  | subsec t => exact writes_piece (g := fun _ => ".SS ".toList) (k := fun _ => "\n".toList) fun s => by simp
  | line t p =>
    exact writes_piece (g := fun h => if h.isFirst then [] else if p then ".sp\n".toList else ".br\n".toList)
      (k := fun _ => "\n".toList) fun s => by simp
  | item k d =>
    intro a b e
    cases e
    refine ⟨".TP\n".toList ++ k ++ ("\n".toList ++ d ++ "\n".toList), [k, d], by simp, rfl, ?_⟩
    exact .cons _ (.cons _ (.nil _))

theorem writes_htmlEmit (s : Str) : Writes HtmlState.out (· = []) (htmlEmit s) := writes_modify (g := fun _ => s) fun _ => rfl

theorem writes_htmlText (nd : Bool) (s : Str) :
    Writes HtmlState.out (fun ps => ∃ t, ps = [t] ∧ toHtml nd s = .ok t) (htmlText nd s) := by
  unfold htmlText
  cases h : toHtml nd s with
  | ok t =>
    intro a b e
    obtain ⟨x, ps, h1, h2, h3⟩ := writes_piece (out := HtmlState.out) (f := fun h => { h with out := h.out ++ t })
      (p := t) (g := fun _ => []) (k := fun _ => []) (fun s => by simp) a b (by simpa [htmlEmit] using e)
    exact ⟨x, ps, h1, ⟨t, h2, rfl⟩, h3⟩
  | error e => exact writes_throw _ e

theorem writes_closeList : Writes HtmlState.out (· = []) maybeCloseList :=
  writes_modify (g := fun h => if h.isDl then "</dl>\n".toList else []) fun _ => rfl

theorem writes_closeParagraph : Writes HtmlState.out (· = []) maybeCloseParagraph :=
  writes_modify (g := fun h => if h.isP then "</p>\n".toList else []) fun _ => rfl

theorem writes_htmlBlock (pe : PageEnv) (b : Block) : Writes HtmlState.out (Pieces pe .html b) (htmlBlock pe.build.ndebug b) := by
  have heading : ∀ tag t, Writes HtmlState.out (fun ps => ∃ t', ps = [t'] ∧ Appears pe .html t t')
      (htmlHeading pe.build.ndebug tag t) := fun tag t =>
    writes_closeList.after (writes_closeParagraph.after ((writes_htmlEmit _).after ((writes_htmlText _ _).before (writes_htmlEmit _))))
  cases b with
  | sec t => exact heading _ t
  | subsec t => exact heading _ t
  | line t p =>
    show Writes HtmlState.out _ (htmlLine _ t p)
    unfold htmlLine
    refine writes_closeList.after (Writes.after (writes_modify (g := fun h => if h.isP then [] else "<p>\n".toList) fun _ => rfl)
      ((writes_htmlText _ _).before ((writes_htmlEmit _).after ?_)))
    split
    · exact writes_closeParagraph
    · exact writes_htmlEmit _
  | item k d =>
    show Writes HtmlState.out _ (htmlItem _ k d)
    unfold htmlItem
    refine writes_closeParagraph.after (Writes.after (writes_modify (g := fun h => if h.isDl then [] else "<dl>\n".toList)
      fun _ => rfl) ((writes_htmlEmit _).after ((writes_htmlText _ _).bind ((writes_htmlEmit _).after
        ((writes_htmlText _ _).before (writes_htmlEmit _))) ?_)))
    rintro a b ⟨t, rfl, ht⟩ ⟨u, rfl, hu⟩
    exact ⟨t, u, rfl, ht, hu⟩

/-! ### Which calls there are -/

theorem prepId_names (cfg : Config) : prepIdForHelp cfg.short cfg.long = namesTerm cfg := by
  unfold prepIdForHelp namesTerm
  by_cases h1 : cfg.short = '\x00' <;> by_cases h2 : cfg.long = [] <;> simp [h1, h2, joined]

theorem setUpCall_visible (te : TypeEnv) (st : Store) (adv : Bool) (e : Entry W) :
    setUpCall te st adv e = if visible adv e && !isArgument e then [callOf te st e] else [] := by
  cases e with
  | option cfg x l ty v =>
    have : optionItem te st cfg x l ty = callOf te st (.option cfg x l ty v : Entry W) := by
      unfold optionItem callOf validatorPart
      rw [prepId_names]
      by_cases h1 : cfg.defaultMessage = [] <;> by_cases h2 : cfg.validatorMessage = [] <;> simp [h1, h2]
    simp [setUpCall, storeElement, visible, isArgument, isHidden, isAdvanced, this]
  | flag cfg x =>
    have : flagItem cfg = callOf te st (.flag cfg x : Entry W) := by unfold flagItem callOf; rw [prepId_names]
    simp [setUpCall, storeElement, visible, isArgument, isHidden, isAdvanced, this]
  | _ => simp [setUpCall, storeElement, visible, isArgument, isHidden, isAdvanced, callOf]

theorem entryBlocks_visible (i : PageInput W) :
    entryBlocks i = (i.entries.filter fun e => visible i.advanced e && !isArgument e).map (callOf i.types i.store) := by
  unfold entryBlocks
  induction i.entries with
  | nil => rfl
  | cons e es ih =>
    rw [List.flatMap_cons, ih, setUpCall_visible, List.filter_cons]
    split <;> simp_all

theorem positionalCalls_arguments (te : TypeEnv) (st : Store) (n : Nat) (es : List (Entry W)) :
    positionalCalls te st n es = ((es.filter isArgument).zipIdx (n + 1)).map fun x => argumentCall te st x.2 x.1 := by
  induction es generalizing n with
  | nil => rfl
  | cons e es ih =>
    cases e with
    | positional cfg x l ty v =>
      simp only [positionalCalls, isArgument, List.filter_cons, if_true, List.zipIdx_cons, List.map_cons, ih]
      congr 1
      unfold positionalItem argumentCall validatorPart
      by_cases h : cfg.validatorMessage = [] <;> simp [h]
    | _ => simpa [positionalCalls, isArgument, List.filter_cons] using ih n

theorem tdlCall_hidden (te : TypeEnv) (st : Store) (e : Entry W) (h : isHidden e = true) : tdlCall te st e = ([], []) := by
  cases e with
  | option cfg x l ty v => have h : cfg.hidden = true := h; simp [tdlCall, h]
  | flag cfg x => have h : cfg.hidden = true := h; simp [tdlCall, h]
  | _ => cases h

theorem entryBlocks_filter (te : TypeEnv) (st : Store) (adv : Bool) (es : List (Entry W)) (k : Entry W → Bool)
    (hk : ∀ e, visible adv e = true → isArgument e = false → k e = true) :
    (es.filter k).flatMap (setUpCall te st adv) = es.flatMap (setUpCall te st adv) := by
  induction es with
  | nil => rfl
  | cons e es ih =>
    rw [List.filter_cons]
    cases h : k e with
    | true => simp [ih]
    | false =>
      simp only [if_false, Bool.false_eq_true, List.flatMap_cons, ih]
      rw [setUpCall_visible]
      rw [if_neg (by
        intro hv
        rw [Bool.and_eq_true, Bool.not_eq_true'] at hv
        have := hk e hv.1 hv.2
        rw [h] at this
        cases this)]
      rfl

theorem positionalCalls_filter (te : TypeEnv) (st : Store) (n : Nat) (es : List (Entry W)) (k : Entry W → Bool)
    (hk : ∀ e, isArgument e = true → k e = true) :
    positionalCalls te st n (es.filter k) = positionalCalls te st n es := by
  rw [positionalCalls_arguments, positionalCalls_arguments, List.filter_filter]
  congr 2
  refine List.filter_congr fun e _ => ?_
  cases h : isArgument e with
  | true => simp [hk e h]
  | false => simp

theorem pageSteps_filter (i : PageInput W) (bold : Str → Str) (k : Entry W → Bool)
    (h1 : ∀ e, isArgument e = true → k e = true) (h2 : ∀ e, visible i.advanced e = true → isArgument e = false → k e = true) :
    pageSteps { i with entries := i.entries.filter k } bold = pageSteps i bold := by
  unfold pageSteps pageStart startBlocks entryBlocks endBlocks
  dsimp only
  rw [positionalCalls_filter _ _ _ _ _ h1, entryBlocks_filter _ _ _ _ _ h2]

/-! ### Whole pages -/

theorem writes_middle (pr : Printer σ) {R : Block → List Str → Prop} (h : ∀ b, Writes out (R b) (pr.block b)) (a c : List Step)
    (bs : List Block) :
    Writes out (fun ps => ∃ pss, List.Forall₂ R bs pss ∧ ps = pss.flatten) (pr.steps (a ++ (bs.map .ok ++ c))) := by
  unfold Printer.steps
  rw [forEach_append, forEach_append]
  exact (writes_any_steps pr h _).after ((writes_steps pr h _).before (writes_any_steps pr h _))

theorem writes_startBlocks (pr : Printer σ) {R : Block → List Str → Prop} (h : ∀ b, Writes out (R b) (pr.block b)) (i : PageInput W) :
    Writes out (fun ps => ∃ pss, List.Forall₂ R (positionalCalls i.types i.store 0 i.entries) pss ∧ ps = pss.flatten)
      (pr.steps (pageStart i)) := by
  have e : pageStart i = ((if i.info.synopsis ≠ [] then .ok (Block.sec "Synopsis".toList) :: synopsisSteps i.info else [])
      ++ (paragraphSection "Description".toList i.info.description ++ subcommandBlocks i.appName i.commandNames
        ++ (if positionalCalls i.types i.store 0 i.entries ≠ [] then [Block.sec "Positional Arguments".toList] else [])).map .ok)
      ++ ((positionalCalls i.types i.store 0 i.entries).map .ok ++ [.ok (Block.sec "Options".toList)]) := by
    simp only [pageStart, startBlocks, List.map_append, List.append_assoc, List.map_cons, List.map_nil]
  rw [e]
  exact writes_middle pr h _ _ _

theorem writes_page (pr : Printer σ) {R : Block → List Str → Prop} (h : ∀ b, Writes out (R b) (pr.block b))
    (hh : Writes out (· = []) pr.header) (hf : Writes out (· = []) pr.footer) (i : PageInput W) :
    Writes out (fun ps => ∃ as es, List.Forall₂ R (positionalCalls i.types i.store 0 i.entries) as ∧
      List.Forall₂ R (entryBlocks i) es ∧ ps = as.flatten ++ es.flatten) (printFullPage pr i) := by
  refine hh.after (Writes.before ?_ hf)
  unfold pageSteps Printer.steps
  rw [forEach_append, forEach_append]
  refine Writes.before ((writes_startBlocks pr h i).bind (writes_steps pr h _) ?_) (writes_any_steps pr h _)
  rintro a b ⟨as, h1, rfl⟩ ⟨es, h2, rfl⟩
  exact ⟨as, es, h1, h2, rfl⟩

theorem Writes.run {R : List Str → Prop} {m : M σ Unit} (h : Writes out R m) (s : σ) (h0 : out s = []) (hn : (m s).exn? = none) :
    ∃ ps, R ps ∧ InOrder ps (out (m s).state) := by
  cases e : m s with
  | err x s' => rw [e] at hn; cases hn
  | ok u s' =>
    obtain ⟨x, ps, h1, h2, h3⟩ := h s s' e
    rw [h0, List.nil_append] at h1
    exact ⟨ps, h2, by show InOrder ps (out s'); rw [h1]; exact h3⟩

theorem page_pieces (pe : PageEnv) (f : Format) (p : Parser W) (st : Store) (hf : (∃ a, f = .help a) ∨ f = .html ∨ f = .man)
    (h : (pageOf pe f p st).1 = none) :
    ∃ as es, List.Forall₂ (Pieces pe f) (positionalCalls pe.types st 0 p.operations) as ∧
      List.Forall₂ (Pieces pe f) (entryBlocks (pe.input (advancedShown f) p st)) es ∧
      InOrder (as.flatten ++ es.flatten) (pageOf pe f p st).2 := by
  rcases hf with ⟨a, rfl⟩ | rfl | rfl
  · obtain ⟨ps, ⟨as, es, h1, h2, rfl⟩, h4⟩ := (writes_page (out := HelpState.out) (helpPrinter pe.console p.appName pe.info)
      (writes_helpBlock pe a) (writes_emit _) writes_pure (pe.input a p st)).run ⟨[], false⟩ rfl h
    exact ⟨as, es, h1, h2, h4⟩
  · have hh : Writes HtmlState.out (· = []) (htmlHeader pe.build.ndebug p.appName pe.info) :=
      (writes_htmlEmit _).after ((writes_htmlEmit _).after ((writes_htmlText _ _).some.after ((writes_htmlEmit _).after
        ((writes_htmlText _ _).some.after (writes_htmlEmit _)))))
    obtain ⟨ps, ⟨as, es, h1, h2, rfl⟩, h4⟩ := (writes_page (out := HtmlState.out) (htmlPrinter pe.build.ndebug p.appName pe.info)
      (writes_htmlBlock pe) hh (writes_closeParagraph.after (writes_htmlEmit _)) (pe.input false p st)).run ⟨[], false, false⟩ rfl h
    exact ⟨as, es, h1, h2, h4⟩
  · have hh : Writes ManState.out (· = []) (manHeader p.appName pe.info) := by
      intro a b e
      cases e
      exact ⟨_, [], by simp only [List.append_assoc]; rfl, rfl, .nil _⟩
    obtain ⟨ps, ⟨as, es, h1, h2, rfl⟩, h4⟩ := (writes_page (out := ManState.out) (manPrinter p.appName pe.info)
      (writes_manBlock pe) hh writes_pure (pe.input false p st)).run ⟨[], true⟩ rfl h
    exact ⟨as, es, h1, h2, h4⟩

theorem page_filter (pe : PageEnv) (f : Format) (p : Parser W) (st : Store) (k : Entry W → Bool)
    (h1 : ∀ e, isArgument e = true → k e = true) (h2 : ∀ e, visible (advancedShown f) e = true → isArgument e = false → k e = true) :
    pageOf pe f { p with operations := p.operations.filter k } st = pageOf pe f p st := by
  have full : ∀ {σ : Type} (pr : Printer σ) (adv : Bool), (∀ e : Entry W, visible adv e = true → isArgument e = false → k e = true) →
      printFullPage pr (pe.input adv { p with operations := p.operations.filter k } st) = printFullPage pr (pe.input adv p st) := by
    intro σ pr adv h
    have := pageSteps_filter (pe.input adv p st) pr.bold k h1 h
    unfold printFullPage
    rw [← this]
    rfl
  have tdl : ∀ es : List (Entry W), (∀ e : Entry W, visible true e = true → isArgument e = false → k e = true) →
      (es.filter k).flatMap (fun e => (tdlCall pe.types st e).1) = es.flatMap (fun e => (tdlCall pe.types st e).1) ∧
      (es.filter k).flatMap (fun e => (tdlCall pe.types st e).2) = es.flatMap (fun e => (tdlCall pe.types st e).2) ∧
      ∀ n, tdlPositionals pe.types st n (es.filter k) = tdlPositionals pe.types st n es := by
    intro es h
    induction es with
    | nil => exact ⟨rfl, rfl, fun _ => rfl⟩
    | cons e es ih =>
      obtain ⟨i1, i2, i3⟩ := ih
      cases hk : k e with
      | true =>
        rw [List.filter_cons_of_pos hk]
        refine ⟨by rw [List.flatMap_cons, List.flatMap_cons, i1], by rw [List.flatMap_cons, List.flatMap_cons, i2], fun n => ?_⟩
        cases e with
        | positional => unfold tdlPositionals; rw [i3]
        | _ => exact i3 n
      | false =>
        rw [List.filter_cons_of_neg (by simp [hk])]
        have ha : isArgument e = false := by
          cases ha : isArgument e with
          | false => rfl
          | true => rw [h1 e ha] at hk; cases hk
        have hh : isHidden e = true := by
          cases hh : isHidden e with
          | true => rfl
          | false => rw [h e (by simp [visible, hh]) ha] at hk; cases hk
        have hc := tdlCall_hidden pe.types st e hh
        refine ⟨by rw [List.flatMap_cons, hc, i1]; rfl, by rw [List.flatMap_cons, hc, i2]; rfl, fun n => ?_⟩
        cases e with
        | positional => cases ha
        | _ => exact i3 n
  cases f with
  | help a => exact congrArg runHelp (full _ a h2)
  | html => exact congrArg runHtml (full _ false h2)
  | man => exact congrArg runMan (full _ false h2)
  | tdl c =>
    obtain ⟨t1, t2, t3⟩ := tdl p.operations h2
    simp only [pageOf, toolInfo, t1, t2, t3]
  | _ => rfl

end Sharg
