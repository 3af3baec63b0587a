import Verif.Lemmas.Wrap

/-!
# Properties C47, C49: layout of the console page
-/

namespace Sharg

open Spec

/-! ## C47 -/

/-- C47 (negation): if the first word of a text is wider than the screen, the next line is indented by one column too
much, or is empty if the second word is too wide, too. Screen with 38 columns, indentation 4. -/
theorem C47_wrong_indentation :
    (printText ⟨true, false, mkLayout 40⟩ (List.replicate 40 'a' ++ " b c".toList) 4 ⟨[], false⟩).state.out =
      List.replicate 40 'a' ++ "\n     b c\n".toList ∧
    (printText ⟨true, false, mkLayout 40⟩ (List.replicate 40 'a' ++ " ".toList ++ List.replicate 40 'b') 4
        ⟨[], false⟩).state.out =
      List.replicate 40 'a' ++ "\n    \n    ".toList ++ List.replicate 40 'b' ++ "\n".toList := by
  decide +kernel

/-- C47 (partial; missing: texts whose first word does not fit on the screen, see above and below, and words with a
backslash that starts no markup, see C48): the words are broken into lines greedily; on every terminal the text is shown
as these lines, the lines after the first one indented to the given column. -/
theorem C47_wrapped_text_partial (c : Console) {text : Str} {ws vs : List Str} (hW : Words text ws)
    (hM : List.Forall₂ Marked ws vs) (h0 : '\x00' ∉ text) (h1 : '\x1b' ∉ text) (hne : ws ≠ []) (tab : Nat)
    (hfit : ∀ v, vs.head? = some v → tab + v.length ≤ c.layout.screenWidth) (h : HelpState) :
    ∃ ls o, Wrapped tab c.layout.screenWidth vs ls ∧
      Terminal o (indented tab (ls.map (joined [' '])) ++ ['\n']) ∧
      (c.tty = false → o = indented tab (ls.map (joined [' '])) ++ ['\n']) ∧
      printText c text tab h = .ok () { h with out := h.out ++ o } := by
  obtain rfl := words_unique (words_spec h0) hW
  have hvs := forall₂_shown hM
  have hmarked : ∀ w ∈ words text, Marked w (shownOf w) := by
    clear hvs hne hW hfit
    generalize words text = ws at hM ⊢
    induction hM with
    | nil => simp
    | cons hm _ ih =>
      intro w hw
      rcases List.mem_cons.1 hw with rfl | hw
      · rw [shownOf_marked hm]; exact hm
      · exact ih w hw
  have hprinted : ∀ w ∈ words text, toText c.ndebug c.tty w = .ok (printedOf c w) ∧
      Terminal (printedOf c w) (shownOf w) ∧ (c.tty = false → printedOf c w = shownOf w) := by
    intro w hw
    obtain ⟨o, ho1, ho2⟩ := marked_toText_terminal c.ndebug c.tty (hmarked w hw)
      (fun hc => h1 (words_mem hW w hw _ hc))
    refine ⟨by simp [printedOf, ho1], by simpa [printedOf, ho1] using ho2, ?_⟩
    intro htty
    rw [printedOf, htty, marked_toText c.ndebug (hmarked w hw)]
  unfold printText
  cases hws : words text with
  | nil => exact absurd hws hne
  | cons w ws =>
    rw [hws] at hmarked hprinted hvs
    have hw := hmarked w (by simp)
    have hwd := marked_textWidth hw
    have hf := hfit (shownOf w) (by rw [hvs]; rfl)
    obtain ⟨cur, ls, e1, e2, e3, e4, e5, e6, e7⟩ := printWords_eq c tab shownOf (printedOf c) ws (tab + textWidth w)
      { h with out := h.out ++ printedOf c w }
      (fun v hv => ⟨hmarked v (by simp [hv]), (hprinted v (by simp [hv])).1⟩)
    have hout : ∀ f : Str → Str, indented tab (((w :: cur) :: ls).map (fun l => joined [' '] (l.map f))) ++ ['\n'] =
        f w ++ (cur.flatMap (fun w => ' ' :: f w)
          ++ ls.flatMap (fun l => '\n' :: (blanks tab ++ joined [' '] (l.map f)))) ++ ['\n'] := by
      intro f
      simp [indented, joined_cons, List.flatMap_map, blanks]
    have hmem : ∀ l ∈ (w :: cur) :: ls, ∀ v ∈ l, v ∈ w :: ws := by
      intro l hl v hv
      rw [e1]
      rcases List.mem_cons.1 hl with rfl | hl
      · rcases List.mem_cons.1 hv with rfl | hv <;> simp [*]
      · exact List.mem_cons_of_mem _ (List.mem_append_right _ (List.mem_flatten.2 ⟨l, hl, hv⟩))
    refine ⟨((w :: cur) :: ls).map (List.map shownOf),
      indented tab (((w :: cur) :: ls).map (fun l => joined [' '] (l.map (printedOf c)))) ++ ['\n'], ?_, ?_, ?_, ?_⟩
    · constructor
      · rw [hvs, e1]
        simp [List.map_flatten]
      · intro l hl
        obtain ⟨m, hm, rfl⟩ := List.mem_map.1 hl
        rcases List.mem_cons.1 hm with rfl | hm
        · simp
        · intro hn; exact e2 m hm (List.map_eq_nil_iff.1 hn)
      · intro l hl
        obtain ⟨m, hm, rfl⟩ := List.mem_map.1 hl
        rcases List.mem_cons.1 hm with rfl | hm
        · left
          simp only [lineWidth, List.map_cons, joined_cons, List.length_append, List.flatMap_map, List.cons_append,
            List.nil_append]
          cases cur with
          | nil => simpa using hf
          | cons x cur => have := e4 (by simp); omega
        · rcases e5 m hm with h | ⟨v, rfl⟩
          · exact Or.inl h
          · exact Or.inr ⟨_, rfl⟩
      · intro a l v r b he
        rw [List.map_eq_append_iff] at he
        obtain ⟨a', r1, ha, rfl, hr⟩ := he
        rw [List.map_eq_cons_iff] at hr
        obtain ⟨l', r2, rfl, rfl, hr⟩ := hr
        rw [List.map_eq_cons_iff] at hr
        obtain ⟨l2, r3, rfl, hr, rfl⟩ := hr
        rw [List.map_eq_cons_iff] at hr
        obtain ⟨v', r4, rfl, rfl, rfl⟩ := hr
        cases a' with
        | nil =>
          simp only [List.nil_append, List.cons.injEq] at ha
          obtain ⟨rfl, rfl⟩ := ha
          have := e6 v' r4 r3 rfl
          simp only [lineWidth, List.map_cons, joined_cons, List.length_append, List.flatMap_map, List.cons_append,
            List.nil_append]
          omega
        | cons x a' =>
          simp only [List.cons_append, List.cons.injEq] at ha
          exact e7 a' l' v' r4 r3 ha.2
    · rw [List.map_map]
      have : ((joined [' ']) ∘ List.map shownOf) = (fun l => joined [' '] (l.map shownOf)) := rfl
      rw [this, hout, hout]
      refine terminal_append (terminal_append (hprinted w (by simp)).2.1 (terminal_append ?_ ?_)) (terminal_plain (by decide))
      · apply terminal_flatMap
        intro v hv
        exact .char (by decide) (hprinted v (hmem _ (List.mem_cons_self) v (by simp [hv]))).2.1
      · apply terminal_flatMap
        intro l hl
        refine .char (by decide) (terminal_append (terminal_blanks tab) (terminal_joined _ _ ?_))
        intro v hv
        exact (hprinted v (hmem l (by simp [hl]) v hv)).2.1
    · intro htty
      rw [List.map_map]
      congr 2
      apply List.map_congr_left
      intro l hl
      simp only [Function.comp]
      congr 1
      apply List.map_congr_left
      intro v hv
      exact (hprinted v (hmem l hl v hv)).2.2 htty
    · rw [hout]
      simp only [M.bind, emitText, (hprinted w (by simp)).1, emit, M.modify]
      rw [if_neg (by omega), e3]
      simp

/-- C47 (partial, completes the previous theorem): if the first word does not fit, it stands alone on the first line; the
second line is indented, and continues with the next words each behind a blank, as long as they fit; then come further
lines. All words are there, in order, and no line is too wide except for single words. -/
theorem C47_long_first_word_partial (c : Console) {text : Str} {w : Str} {ws : List Str} {v : Str} {vs : List Str}
    (hW : Words text (w :: ws)) (hM : List.Forall₂ Marked (w :: ws) (v :: vs)) (h0 : '\x00' ∉ text) (tab : Nat)
    (htty : c.tty = false) (hfit : c.layout.screenWidth < tab + v.length) (h : HelpState) :
    ∃ (cur : List Str) (ls : List (List Str)), vs = cur ++ ls.flatten ∧
      printText c text tab h = .ok () { h with out := h.out ++ (v ++ ['\n'] ++ List.replicate tab ' '
        ++ cur.flatMap (fun x => ' ' :: x)
        ++ (ls.flatMap fun l => '\n' :: (List.replicate tab ' ' ++ joined [' '] l)) ++ ['\n']) } ∧
      (cur ≠ [] → tab + 1 + lineWidth cur ≤ c.layout.screenWidth) ∧
      (∀ l ∈ ls, tab + lineWidth l ≤ c.layout.screenWidth ∨ ∃ x, l = [x]) := by
  have hw := words_unique (words_spec h0) hW
  cases hM with
  | cons hm hM =>
    have hmarked : ∀ x ∈ ws, Marked x (shownOf x) := by
      clear hW hw
      induction hM with
      | nil => simp
      | cons hm _ ih =>
        intro x hx
        rcases List.mem_cons.1 hx with rfl | hx
        · rw [shownOf_marked hm]; exact hm
        · exact ih x hx
    obtain ⟨cur, ls, e1, _, e3, e4, e5, _, _⟩ := printWords_eq c tab shownOf shownOf ws tab
      { h with out := h.out ++ v ++ ('\n' :: blanks tab) }
      (fun x hx => ⟨hmarked x hx, by rw [htty]; exact marked_toText c.ndebug (hmarked x hx)⟩)
    have hwd := marked_textWidth hm
    refine ⟨cur.map shownOf, ls.map (List.map shownOf), ?_, ?_, ?_, ?_⟩
    · rw [forall₂_shown hM, e1]; simp [List.map_flatten]
    · unfold printText
      rw [hw]
      simp only [M.bind, emitText, htty, marked_toText c.ndebug hm, emit, M.modify]
      rw [if_pos (by omega)]
      simp only [M.modify, M.bind]
      rw [e3]
      simp [blanks, List.flatMap_map]
    · intro hne
      cases cur with
      | nil => simp at hne
      | cons x cur =>
        have := e4 (by simp)
        simp only [lineWidth, List.map_cons, joined_cons, List.length_append, List.flatMap_map, List.flatMap_cons,
          List.cons_append, List.nil_append, List.length_cons] at this ⊢
        omega
    · intro l hl
      obtain ⟨m, hm, rfl⟩ := List.mem_map.1 hl
      rcases e5 m hm with h | ⟨x, rfl⟩
      · exact Or.inl h
      · exact Or.inr ⟨_, rfl⟩

/-- A text for examples. -/
def exText : Str := "Reads  \\fBall\\fP the lines of the given file.".toList

theorem exText_words : Words exText (words exText) := words_spec (by decide)

/-- The words of the example and what is shown for them. -/
theorem exText_marked : List.Forall₂ Marked (words exText)
    ["Reads".toList, "all".toList, "the".toList, "lines".toList, "of".toList, "the".toList, "given".toList,
      "file.".toList] := by
  have : words exText = ["Reads".toList, "\\fBall\\fP".toList, "the".toList, "lines".toList, "of".toList, "the".toList,
      "given".toList, "file.".toList] := by decide +kernel
  rw [this]
  have plain : ∀ s : Str, '\\' ∉ s → Marked s s := by
    intro s
    induction s with
    | nil => intro _; exact .nil
    | cons c s ih =>
      intro h
      simp only [List.mem_cons, not_or] at h
      exact .char (Ne.symm h.1) (ih h.2)
  refine .cons (plain _ (by decide)) (.cons ?_ (.cons (plain _ (by decide)) (.cons (plain _ (by decide))
    (.cons (plain _ (by decide)) (.cons (plain _ (by decide)) (.cons (plain _ (by decide)) (.cons (plain _ (by decide))
    .nil)))))))
  exact .font (by decide) (.char (by decide) (.char (by decide) (.char (by decide) (.font (by decide) .nil))))

/-- The hypotheses of the theorem hold for the example on the narrowest screen, and this is what is printed. -/
example : (∀ v, ["Reads".toList, "all".toList].head? = some v → 10 + v.length ≤ (mkLayout 1).screenWidth) ∧
    '\x00' ∉ exText ∧ '\x1b' ∉ exText ∧
    (printText ⟨true, false, mkLayout 1⟩ exText 10 ⟨[], false⟩).state.out
      = "Reads all the lines of the\n          given file.\n".toList := by
  decide +kernel

/-! ## C49 -/

/-- C49 (negation): the column is computed from the characters of the term, not from what is shown. The term `\-a` of a
list item is shown with two characters, and its description starts at column 9. -/
theorem C49_description_starts_early :
    (helpItem ⟨true, false, mkLayout 80⟩ "\\-a".toList "text".toList ⟨[], false⟩).state.out
      = "    -a   text\n".toList := by
  decide +kernel

/-- C49, the layout: for every terminal width the columns add up to a screen of 38 to 118 columns, so no subtraction
wraps around; the screen never is wider than the terminal if the terminal has at least 38 columns. -/
theorem C49_layout_never_underflows (terminalWidth : Nat) :
    38 ≤ (mkLayout terminalWidth).screenWidth ∧ (mkLayout terminalWidth).screenWidth ≤ 118 ∧
    (mkLayout terminalWidth).leftPadding + (mkLayout terminalWidth).leftColumnWidth
      + (mkLayout terminalWidth).centerPadding + (mkLayout terminalWidth).rightColumnWidth
      + (mkLayout terminalWidth).rightPadding = (mkLayout terminalWidth).screenWidth ∧
    (mkLayout terminalWidth).rightColumnTab = 10 ∧
    (38 ≤ terminalWidth → (mkLayout terminalWidth).screenWidth ≤ terminalWidth) := by
  have hg : ∀ g : Nat, 40 ≤ min (max g 40) 120 ∧ min (max g 40) 120 ≤ 120 ∧ (40 ≤ g → min (max g 40) 120 ≤ g) := by
    intro g; omega
  obtain ⟨h1, h2, h3⟩ := hg (if terminalWidth > 0 then terminalWidth else 80)
  have h4 : 38 ≤ terminalWidth → min (max (if terminalWidth > 0 then terminalWidth else 80) 40) 120 - 2 ≤ terminalWidth := by
    intro h; rw [if_pos (by omega)]; omega
  unfold mkLayout usub
  dsimp only
  generalize min (max (if terminalWidth > 0 then terminalWidth else 80) 40) 120 = g at h1 h2 h4
  have e : (g + 2 ^ 32 - 2) % 2 ^ 32 = g - 2 := by omega
  rw [e]
  refine ⟨by omega, by omega, by omega, by omega, h4⟩

/-- C49 (partial; missing: terms of at most four characters with markup, see above): in front of the description stand
the term, four columns indented, and blanks up to column 10, on the same line if the term leaves at least two columns
free, else on a new line; then the description follows, wrapped behind column 10. -/
theorem C49_list_item_partial (ndebug : Bool) (terminalWidth : Nat) {term shown : Str} (desc : Str)
    (hm : Marked term shown) (hlen : term.length = shown.length ∨ 4 < term.length) (h : HelpState) :
    helpItem ⟨ndebug, false, mkLayout terminalWidth⟩ term desc h =
      M.bind (M.bind (emit ((if h.prevWasParagraph then ['\n'] else []) ++ List.replicate 4 ' ' ++ shown ++
          (if 4 + term.length + 2 ≤ 10 then List.replicate (10 - (4 + shown.length)) ' '
           else '\n' :: List.replicate 10 ' '))) fun _ =>
        printText ⟨ndebug, false, mkLayout terminalWidth⟩ desc 10) (fun _ => setParagraph false) h := by
  have hl := C49_layout_never_underflows terminalWidth
  have e1 : (mkLayout terminalWidth).leftPadding = 4 := rfl
  have e2 : (mkLayout terminalWidth).centerPadding = 2 := rfl
  have e3 : (mkLayout terminalWidth).rightColumnTab = 10 := rfl
  simp only [helpItem, M.bind, paragraphBreak, emit, M.modify, emitText, marked_toText ndebug hm, e1, e2, e3]
  by_cases hp : 4 + term.length + 2 ≤ 10
  · have hn : ¬ (4 + term.length + 2 > 10) := by omega
    rw [if_neg hn, if_pos hp]
    have : term.length = shown.length := by omega
    have hu : usub 10 (4 + term.length) = 10 - (4 + shown.length) := by
      unfold usub; omega
    simp only [hu, blanks, List.append_assoc]
  · have hn : 4 + term.length + 2 > 10 := by omega
    rw [if_pos hn, if_neg hp]
    have hu : usub 10 0 = 10 := by decide
    simp only [hu, blanks, List.append_assoc]

example : Marked "-a".toList "-a".toList ∧ ("-a".toList.length = "-a".toList.length ∨ 4 < "-a".toList.length) ∧
    (helpItem ⟨true, false, mkLayout 80⟩ "-a".toList "text".toList ⟨[], false⟩).state.out
      = "    -a    text\n".toList :=
  ⟨.char (by decide) (.char (by decide) .nil), by decide, by decide +kernel⟩

/-- The terms of options have more than four characters. -/
example : Marked "\\fB-a\\fP".toList "-a".toList ∧ 4 < "\\fB-a\\fP".toList.length ∧
    (helpItem ⟨true, false, mkLayout 80⟩ "\\fB-a\\fP".toList "text".toList ⟨[], true⟩).state.out
      = "\n    -a\n          text\n".toList :=
  ⟨.font (by decide) (.char (by decide) (.char (by decide) (.font (by decide) .nil))), by decide, by decide +kernel⟩

end Sharg
