import Verif.Props.Layout
import Verif.Props.Placed
import Verif.Spec.Drawn

/-!
# C47, C49: the exact picture of a help page
-/

namespace Sharg

open Spec

variable {W : Type}

theorem screen_used (n : Nat) : (mkLayout n).screenWidth = usedColumns n := by
  have hm : ∀ g : Nat, 2 ≤ g → g ≤ 120 → usub g 2 = g - 2 := by
    intro g h1 h2
    unfold usub
    omega
  show usub (min (max (if n > 0 then n else 80) 40) 120) 2 = _
  rw [hm _ (by omega) (by omega)]
  unfold usedColumns
  by_cases h0 : n = 0
  · subst h0
    rfl
  · rw [if_neg h0, if_pos (by omega)]
    by_cases h1 : n < 40
    · rw [if_pos h1]; omega
    · rw [if_neg h1]
      by_cases h2 : n > 120
      · rw [if_pos h2]; omega
      · rw [if_neg h2]; omega

/-- Printing a text does not change whether the last element was a paragraph. -/
theorem printText_keeps (c : Console) (t : Str) (tab : Nat) {h h' : HelpState} (e : printText c t tab h = .ok () h') :
    h'.prevWasParagraph = h.prevWasParagraph := by
  have hemit : ∀ s (h h' : HelpState), emit s h = .ok () h' → h'.prevWasParagraph = h.prevWasParagraph := by
    rintro s h h' ⟨⟩
    rfl
  have htext : ∀ s (h h' : HelpState), emitText c s h = .ok () h' → h'.prevWasParagraph = h.prevWasParagraph := by
    intro s h h' e
    unfold emitText at e
    cases ht : toText c.ndebug c.tty s with
    | error x => rw [ht] at e; cases e
    | ok y => rw [ht] at e; exact hemit _ _ _ e
  have hbind : ∀ (m n : HelpM), (∀ h h', m h = .ok () h' → h'.prevWasParagraph = h.prevWasParagraph) →
      (∀ h h', n h = .ok () h' → h'.prevWasParagraph = h.prevWasParagraph) →
      ∀ h h', M.bind m (fun _ => n) h = .ok () h' → h'.prevWasParagraph = h.prevWasParagraph := by
    intro m n hm hn h h' e
    rw [M.bind_eq_ok] at e
    obtain ⟨_, h1, e1, e2⟩ := e
    rw [hn _ _ e2, hm _ _ e1]
  have hwords : ∀ ws pos (h h' : HelpState), printWords c tab pos ws h = .ok () h' →
      h'.prevWasParagraph = h.prevWasParagraph := by
    intro ws
    induction ws with
    | nil => rintro pos h h' ⟨⟩; rfl
    | cons w ws ih =>
      intro pos h h' e
      unfold printWords at e
      split at e
      · exact hbind _ _ (hemit _) (hbind _ _ (htext _) (ih _)) _ _ e
      · exact hbind _ _ (hemit _) (hbind _ _ (htext _) (ih _)) _ _ e
  unfold printText at e
  cases hw : words t with
  | nil => rw [hw] at e; cases e; rfl
  | cons w ws =>
    rw [hw] at e
    refine hbind _ _ (htext _) (hbind _ _ ?_ (hemit _)) _ _ e
    intro h h' e
    by_cases hf : tab + textWidth w > c.layout.screenWidth
    · rw [if_pos hf] at e
      exact hbind _ _ (hemit _) (hwords _ _) _ _ e
    · rw [if_neg hf] at e
      exact hwords _ _ _ _ e

/-- What `print_text` prints is drawn. -/
theorem printText_drawn (c : Console) (htty : c.tty = false) (t : Str) (tab : Nat) {h h' : HelpState}
    (e : printText c t tab h = .ok () h') :
    ∃ x, h' = { h with out := h.out ++ x } ∧ DrawnText tab c.layout.screenWidth t x := by
  obtain ⟨x, hx, -⟩ := ends_printText c t tab [' '] ⟨[], rfl⟩ e
  by_cases hd : '\x00' ∉ t ∧ '\x1b' ∉ t ∧ ∃ ws vs, Words t ws ∧ List.Forall₂ Marked ws vs
  · obtain ⟨h0, h1, ws, vs, hW, hM⟩ := hd
    have huniq : ∀ ws' vs', Words t ws' → List.Forall₂ Marked ws' vs' → ws' = ws ∧ vs' = vs := by
      intro ws' vs' hW' hM'
      have := words_unique hW' hW
      subst this
      exact ⟨rfl, by rw [forall₂_shown hM, forall₂_shown hM']⟩
    cases hM with
    | nil =>
      have : words t = [] := words_unique (words_spec h0) hW
      unfold printText at e
      rw [this] at e
      cases e
      refine ⟨[], by simp, fun _ _ ws' vs' hW' hM' => ?_⟩
      obtain ⟨-, rfl⟩ := huniq ws' vs' hW' hM'
      rfl
    | @cons w v ws vs hm hM =>
      by_cases hfit : tab + v.length ≤ c.layout.screenWidth
      · obtain ⟨ls, o, a1, -, a3, a4⟩ := C47_wrapped_text_partial c hW (.cons hm hM) h0 h1 (List.cons_ne_nil _ _) tab
          (by rintro _ ⟨⟩; exact hfit) h
        rw [e] at a4
        cases a4
        refine ⟨o, rfl, fun _ _ ws' vs' hW' hM' => ?_⟩
        obtain ⟨-, rfl⟩ := huniq ws' vs' hW' hM'
        show ite _ _ _
        rw [if_pos hfit]
        exact ⟨ls, a1, a3 htty⟩
      · obtain ⟨cur, ls, a1, a2, a3, a4⟩ := C47_long_first_word_partial c hW (.cons hm hM) h0 tab htty (by omega) h
        rw [e] at a2
        cases a2
        refine ⟨_, rfl, fun _ _ ws' vs' hW' hM' => ?_⟩
        obtain ⟨-, rfl⟩ := huniq ws' vs' hW' hM'
        show ite _ _ _
        rw [if_neg hfit]
        exact ⟨cur, ls, a1, a3, a4, rfl⟩
  · have hp : h'.prevWasParagraph = h.prevWasParagraph := printText_keeps c t tab e
    refine ⟨x, ?_, fun h0 h1 ws vs hW hM => absurd ⟨h0, h1, ws, vs, hW, hM⟩ hd⟩
    cases h'
    simp only at hx hp
    rw [hx, hp]

/-! ### The elements -/

theorem helpBlock_draws (pe : PageEnv) (htty : pe.tty = false) (b : Block) {h h' : HelpState}
    (e : helpBlock pe.console b h = .ok () h') :
    ∃ o, h' = ⟨h.out ++ o, isParagraph b⟩ ∧ Drawn (usedColumns pe.terminalWidth) h.prevWasParagraph b o := by
  have hl : pe.console.layout.leftPadding = 4 := rfl
  have hc : pe.console.layout.centerPadding = 2 := rfl
  have hr : pe.console.layout.rightColumnTab = 10 := rfl
  have hw : pe.console.layout.screenWidth = usedColumns pe.terminalWidth := screen_used _
  have ht : pe.console.tty = false := htty
  cases b with
  | sec t =>
    cases e
    refine ⟨_, rfl, ?_⟩
    show _ = _
    rw [ht, upper_map]
    simp [ansi]
  | subsec t =>
    cases e
    refine ⟨_, rfl, ?_⟩
    show _ = _
    rw [hl]
    simp [inBold, ht, ansi, blanks]
  | line t p =>
    have e : helpLine pe.console t p h = .ok () h' := e
    unfold helpLine at e
    rw [M.bind_eq_ok] at e
    obtain ⟨_, h1, e1, e⟩ := e
    rw [M.bind_eq_ok] at e
    obtain ⟨_, h2, e2, e⟩ := e
    rw [M.bind_eq_ok] at e
    obtain ⟨_, h3, e3, e⟩ := e
    cases e1
    cases e2
    obtain ⟨x, rfl, g2⟩ := printText_drawn _ ht _ _ e3
    cases e
    rw [hl, hw] at g2
    refine ⟨(if h.prevWasParagraph then ['\n'] else []) ++ blanks 4 ++ x, ?_, x, rfl, g2⟩
    simp only [List.append_assoc, hl]
    rfl
  | item k d =>
    have e : helpItem pe.console k d h = .ok () h' := e
    unfold helpItem at e
    rw [M.bind_eq_ok] at e
    obtain ⟨_, h1, e1, e⟩ := e
    rw [M.bind_eq_ok] at e
    obtain ⟨_, h2, e2, e⟩ := e
    rw [M.bind_eq_ok] at e
    obtain ⟨_, h3, e3, e⟩ := e
    rw [M.bind_eq_ok] at e
    obtain ⟨_, h4, e4, e⟩ := e
    rw [M.bind_eq_ok] at e
    obtain ⟨_, h5, e5, e⟩ := e
    cases e1
    cases e2
    cases e4
    obtain ⟨x, rfl, g2⟩ := printText_drawn _ ht _ _ e5
    cases e
    rw [hr, hw] at g2
    unfold emitText at e3
    cases hk : toText pe.console.ndebug pe.console.tty k with
    | error e => rw [hk] at e3; cases e3
    | ok y =>
      rw [hk] at e3
      cases e3
      have hgap : (if pe.console.layout.leftPadding + k.length + pe.console.layout.centerPadding >
          pe.console.layout.rightColumnTab then '\n' :: blanks (usub pe.console.layout.rightColumnTab 0)
          else blanks (usub pe.console.layout.rightColumnTab (pe.console.layout.leftPadding + k.length))) =
          (if k.length ≤ 4 then List.replicate (6 - k.length) ' ' else '\n' :: List.replicate 10 ' ') := by
        rw [hl, hr, hc]
        by_cases hk : k.length ≤ 4
        · have hu : usub 10 (4 + k.length) = 6 - k.length := by
            unfold usub
            omega
          rw [if_pos hk, if_neg (by omega), hu]
          rfl
        · rw [if_neg hk, if_pos (by omega)]
          rfl
      refine ⟨(if h.prevWasParagraph then ['\n'] else []) ++ blanks 4 ++ y ++
        (if k.length ≤ 4 then List.replicate (6 - k.length) ' ' else '\n' :: List.replicate 10 ' ') ++ x, ?_, ?_⟩
      · simp only [hgap]
        simp only [List.append_assoc, hl]
        rfl
      · intro k' hk'
        rw [ht, marked_toText _ hk'] at hk
        cases hk
        exact ⟨x, g2, rfl⟩

theorem steps_drawing (pe : PageEnv) (htty : pe.tty = false) (pr : Printer HelpState) (hpr : pr.block = helpBlock pe.console)
    (bs : List Block) {h h' : HelpState} (e : pr.steps (bs.map .ok) h = .ok () h') :
    ∃ os, h'.out = h.out ++ os.flatten ∧ Drawing (usedColumns pe.terminalWidth) h.prevWasParagraph bs os := by
  induction bs generalizing h with
  | nil => cases e; exact ⟨[], by simp, .nil⟩
  | cons b bs ih =>
    have e : M.bind (pr.block b) (fun _ => pr.steps (bs.map .ok)) h = .ok () h' := e
    rw [M.bind_eq_ok, hpr] at e
    obtain ⟨_, h1, e1, e2⟩ := e
    obtain ⟨o, rfl, a2⟩ := helpBlock_draws pe htty b e1
    obtain ⟨os, c1, c2⟩ := ih e2
    refine ⟨o :: os, ?_, .cons a2 c2⟩
    rw [c1, List.flatten_cons, List.append_assoc]

/-- C47, C49 (partial; missing: texts of elements with a zero or escape character or with a backslash that starts no markup,
and pages printed in bold): the whole help page is determined. Below the header stand the elements of the outline; lines are
wrapped at column 4 and what is said about the terms of lists at column 10, on the used columns of the terminal. -/
theorem C47_page_is_drawn_partial (pe : PageEnv) (htty : pe.tty = false) (a : Bool) (p : Parser W) (st : Store)
    (h : (pageOf pe (.help a) p st).1 = none) :
    ∃ start os, ConsoleStart p.appName pe.info.shortDescription start ∧
      Drawing (usedColumns pe.terminalWidth) false (elements (outline pe (.help a) p st)) os ∧
      (pageOf pe (.help a) p st).2 = start ++ os.flatten := by
  have h : (printFullPage (helpPrinter pe.console p.appName pe.info) (pe.input a p st) ⟨[], false⟩).exn? = none := h
  have hp : (pageOf pe (.help a) p st).2 =
    (printFullPage (helpPrinter pe.console p.appName pe.info) (pe.input a p st) ⟨[], false⟩).state.out := rfl
  rw [hp]
  cases hr : printFullPage (helpPrinter pe.console p.appName pe.info) (pe.input a p st) ⟨[], false⟩ with
  | err e s => rw [hr] at h; cases h
  | ok u s =>
    unfold printFullPage at hr
    rw [M.bind_eq_ok] at hr
    obtain ⟨_, s1, e1, hr⟩ := hr
    rw [M.bind_eq_ok] at hr
    obtain ⟨_, s2, e2, e3⟩ := hr
    cases e3
    obtain ⟨start, g1, g2⟩ := prints_helpHeader _ _ _ _ e1
    have hs1 : s1.prevWasParagraph = false := by cases e1; rfl
    obtain ⟨bs, hbs⟩ := steps_ok _ e2
    rw [hbs] at e2
    obtain ⟨os, c1, c2⟩ := steps_drawing pe htty _ rfl bs e2
    have hb : boldText pe (.help a) = inBold pe.console := funext fun s => boldText_eq pe _ s (by simp) (by simp)
    have : bs = elements (outline pe (.help a) p st) := pageSteps_outline pe (.help a) p st bs (by rw [hb]; exact hbs)
    rw [hs1, this] at c2
    refine ⟨start, os, g2, c2, ?_⟩
    show s.out = _
    rw [c1, g1]
    rfl

/-- A page with a description that takes two lines. -/
def exWide : Meta := { description := ["Computes all the words of the given file, and prints them in alphabetical order, one per line.".toList] }

/-- The page is printed, and the second line is at column 4. -/
example : (pageOf (exPages exWide) (.help false) (exPageParser []) exPageStore).1 = none ∧
    (exPages exWide).tty = false ∧ usedColumns (exPages exWide).terminalWidth = 78 ∧
    (pageOf (exPages exWide) (.help false) (exPageParser []) exPageStore).2.take 124 =
      ("app\n===\n\nDESCRIPTION\n    Computes all the words of the given file, and prints them in alphabetical\n" ++
        "    order, one per line.\n").toList := by
  decide +kernel

end Sharg
