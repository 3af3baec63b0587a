import Verif.Props.Outline
import Verif.Spec.Placed

/-!
# C69: elements of a page on lines of their own
-/

namespace Sharg

open Spec

variable {W : Type}

/-! ### Texts with words -/

theorem hasWord_words {t : Str} : HasWord t ↔ words t ≠ [] := by
  have h := words_untilZero t
  unfold HasWord
  generalize untilZero t = s at h
  generalize words t = ws at h
  cases h with
  | none h =>
    refine ⟨fun ⟨c, h1, h2⟩ => absurd (h c h1) h2, fun h => absurd rfl h⟩
  | @word g w s ws h1 h2 h3 h4 h5 =>
    refine ⟨fun _ => List.cons_ne_nil _ _, fun _ => ?_⟩
    obtain ⟨c, w', rfl⟩ := List.exists_cons_of_ne_nil h2
    exact ⟨c, by simp, h3 c (by simp)⟩

theorem endsLine_append {a b : Str} (h : EndsLine b) : EndsLine (a ++ b) := by
  obtain ⟨t, rfl⟩ := h
  exact ⟨a ++ t, by rw [List.append_assoc]⟩

theorem not_endsLine {a : Str} : ¬ EndsLine (a ++ [' ']) := by
  rintro ⟨t, h⟩
  have := (List.append_inj' h rfl).2
  exact absurd this (by decide)

theorem prints_printText_line (c : Console) (text : Str) (tab : Nat) (h : HasWord text) :
    Prints HelpState.out EndsLine (printText c text tab) := by
  unfold printText
  rw [hasWord_words] at h
  cases hw : words text with
  | nil => exact absurd hw h
  | cons w ws =>
    have hT : ∀ m : HelpM, Prints HelpState.out (fun _ => True) m → Prints HelpState.out EndsLine (M.bind m fun _ => emit ['\n']) := by
      intro m hm
      refine hm.bind (prints_emit _) ?_
      rintro a b - rfl
      exact ⟨a, rfl⟩
    refine ((prints_emitText c w).mono (fun _ _ => trivial : ∀ x, _ → True)).bind (hT _ ?_) fun a b _ h => endsLine_append h
    split
    · exact Prints.bind (prints_emit _) (prints_printWords c _ _ ws) fun _ _ _ _ => trivial
    · exact (prints_printWords c _ _ ws).mono fun _ _ => trivial

theorem printText_none (c : Console) (text : Str) (tab : Nat) (h : ¬ HasWord text) : printText c text tab = M.pure () := by
  unfold printText
  rw [hasWord_words] at h
  have : words text = [] := Classical.byContradiction h
  rw [this]

theorem blanks_snoc (n : Nat) (h : 0 < n) : blanks n = blanks (n - 1) ++ [' '] := by
  unfold blanks
  rw [← List.replicate_succ', Nat.sub_add_cancel h]

theorem ends_printText (c : Console) (text : Str) (tab : Nat) (pre : Str) (hpre : ∃ p, pre = p ++ [' ']) {h h' : HelpState}
    (e : printText c text tab h = .ok () h') : ∃ x, h'.out = h.out ++ x ∧ (EndsLine (pre ++ x) ↔ HasWord text) := by
  by_cases hw : HasWord text
  · obtain ⟨x, h1, h2⟩ := prints_printText_line c text tab hw h h' e
    exact ⟨x, h1, fun _ => hw, fun _ => endsLine_append h2⟩
  · rw [printText_none _ _ _ hw] at e
    cases e
    obtain ⟨p, rfl⟩ := hpre
    refine ⟨[], by simp, fun hh => ?_, fun hh => absurd hh hw⟩
    rw [List.append_nil] at hh
    exact absurd hh not_endsLine

/-! ### The elements -/

theorem helpBlock_places (pe : PageEnv) (b : Block) {h h' : HelpState} (e : helpBlock pe.console b h = .ok () h') :
    ∃ o, h'.out = h.out ++ o ∧ lead h.prevWasParagraph b <+: o ∧ (EndsLine o ↔ HasText b) ∧ h'.prevWasParagraph = isParagraph b := by
  have hl : pe.console.layout.leftPadding = 4 := rfl
  cases b with
  | sec t =>
    cases e
    exact ⟨_, rfl, ⟨_, rfl⟩, ⟨fun _ => trivial, fun _ => ⟨_, rfl⟩⟩, rfl⟩
  | subsec t =>
    cases e
    refine ⟨_, rfl, ?_, ⟨fun _ => trivial, fun _ => ⟨_, rfl⟩⟩, rfl⟩
    rw [hl]
    exact ⟨_, by rw [List.append_assoc, List.append_assoc]; rfl⟩
  | line t p =>
    have e : helpLine pe.console t p h = .ok () h' := e
    unfold helpLine at e
    rw [M.bind_eq_ok] at e
    obtain ⟨_, h1, e1, e⟩ := e
    rw [M.bind_eq_ok] at e
    obtain ⟨_, h2, e2, e⟩ := e
    rw [M.bind_eq_ok] at e
    obtain ⟨_, h3, e3, e⟩ := e
    cases e1
    cases e2
    cases e
    obtain ⟨x, g1, g2⟩ := ends_printText _ _ _ ((if h.prevWasParagraph then ['\n'] else []) ++ blanks 4)
      ⟨(if h.prevWasParagraph then ['\n'] else []) ++ blanks 3, by rw [List.append_assoc]; rfl⟩ e3
    refine ⟨(if h.prevWasParagraph then ['\n'] else []) ++ blanks 4 ++ x, ?_, ⟨x, rfl⟩, g2, rfl⟩
    show h3.out = _
    rw [g1]
    simp only [List.append_assoc, hl]
  | item k d =>
    have e : helpItem pe.console k d h = .ok () h' := e
    unfold helpItem at e
    rw [M.bind_eq_ok] at e
    obtain ⟨_, h1, e1, e⟩ := e
    rw [M.bind_eq_ok] at e
    obtain ⟨_, h2, e2, e⟩ := e
    rw [M.bind_eq_ok] at e
    obtain ⟨_, h3, e3, e⟩ := e
    rw [M.bind_eq_ok] at e
    obtain ⟨_, h4, e4, e⟩ := e
    rw [M.bind_eq_ok] at e
    obtain ⟨_, h5, e5, e⟩ := e
    cases e1
    cases e2
    cases e4
    cases e
    obtain ⟨y, k1, k2⟩ := prints_emitText _ _ _ _ e3
    have hr : pe.console.layout.rightColumnTab = 10 := rfl
    have hc : pe.console.layout.centerPadding = 2 := rfl
    have hgap : ∃ p, (if pe.console.layout.leftPadding + k.length + pe.console.layout.centerPadding >
        pe.console.layout.rightColumnTab then '\n' :: blanks (usub pe.console.layout.rightColumnTab 0)
        else blanks (usub pe.console.layout.rightColumnTab (pe.console.layout.leftPadding + k.length))) = p ++ [' '] := by
      rw [hl, hr, hc]
      split
      · exact ⟨'\n' :: blanks 9, rfl⟩
      · rename_i hh
        have hu : usub 10 (4 + k.length) = 10 - (4 + k.length) := by
          unfold usub
          omega
        rw [hu]
        exact ⟨_, blanks_snoc _ (by omega)⟩
    revert e5
    generalize (if pe.console.layout.leftPadding + k.length + pe.console.layout.centerPadding >
        pe.console.layout.rightColumnTab then '\n' :: blanks (usub pe.console.layout.rightColumnTab 0)
        else blanks (usub pe.console.layout.rightColumnTab (pe.console.layout.leftPadding + k.length))) = gap at hgap
    intro e5
    obtain ⟨p, rfl⟩ := hgap
    obtain ⟨x, g1, g2⟩ := ends_printText _ _ _ ((if h.prevWasParagraph then ['\n'] else []) ++ blanks 4 ++ y ++ (p ++ [' ']))
      ⟨(if h.prevWasParagraph then ['\n'] else []) ++ blanks 4 ++ y ++ p, by simp only [List.append_assoc]⟩ e5
    refine ⟨(if h.prevWasParagraph then ['\n'] else []) ++ blanks 4 ++ y ++ (p ++ [' ']) ++ x, ?_, ⟨y ++ (p ++ [' ']) ++ x, ?_⟩, g2, rfl⟩
    · show h5.out = _
      rw [g1]
      show h3.out ++ _ ++ _ = _
      rw [k1]
      simp only [List.append_assoc, hl]
    · show _ ++ _ ++ _ = _
      simp only [List.append_assoc]
      rfl

theorem steps_placed (pe : PageEnv) (pr : Printer HelpState) (hpr : pr.block = helpBlock pe.console) (bs : List Block) {h h' : HelpState}
    (e : pr.steps (bs.map .ok) h = .ok () h') : ∃ os, h'.out = h.out ++ os.flatten ∧ Placed pe h.prevWasParagraph bs os := by
  induction bs generalizing h with
  | nil => cases e; exact ⟨[], by simp, .nil⟩
  | cons b bs ih =>
    have e : M.bind (pr.block b) (fun _ => pr.steps (bs.map .ok)) h = .ok () h' := e
    rw [M.bind_eq_ok, hpr] at e
    obtain ⟨_, h1, e1, e2⟩ := e
    obtain ⟨o, a1, a2, a3, a4⟩ := helpBlock_places pe b e1
    obtain ⟨o', b1, b2⟩ := prints_helpBlock pe b _ _ e1
    have : o' = o := List.append_cancel_left (b1.symm.trans a1)
    subst this
    obtain ⟨os, c1, c2⟩ := ih e2
    refine ⟨o' :: os, ?_, .cons b2 a2 a3 (a4 ▸ c2)⟩
    rw [c1, a1, List.flatten_cons, List.append_assoc]

/-- C69: on the pages for the console each element is preceded by its indentation, after paragraphs also by an empty line,
and its last line is ended if and only if it has a text. -/
theorem C69_elements_are_placed (pe : PageEnv) (a : Bool) (p : Parser W) (st : Store) (h : (pageOf pe (.help a) p st).1 = none) :
    ∃ start os, ConsoleStart p.appName pe.info.shortDescription start ∧ EndsLine start ∧
      Placed pe false (elements (outline pe (.help a) p st)) os ∧ (pageOf pe (.help a) p st).2 = start ++ os.flatten := by
  have h : (printFullPage (helpPrinter pe.console p.appName pe.info) (pe.input a p st) ⟨[], false⟩).exn? = none := h
  have hp : (pageOf pe (.help a) p st).2 =
    (printFullPage (helpPrinter pe.console p.appName pe.info) (pe.input a p st) ⟨[], false⟩).state.out := rfl
  rw [hp]
  cases hr : printFullPage (helpPrinter pe.console p.appName pe.info) (pe.input a p st) ⟨[], false⟩ with
  | err e s => rw [hr] at h; cases h
  | ok u s =>
    unfold printFullPage at hr
    rw [M.bind_eq_ok] at hr
    obtain ⟨_, s1, e1, hr⟩ := hr
    rw [M.bind_eq_ok] at hr
    obtain ⟨_, s2, e2, e3⟩ := hr
    cases e3
    obtain ⟨start, g1, g2⟩ := prints_helpHeader _ _ _ _ e1
    have hs1 : s1.prevWasParagraph = false := by cases e1; rfl
    obtain ⟨bs, hbs⟩ := steps_ok _ e2
    rw [hbs] at e2
    obtain ⟨os, c1, c2⟩ := steps_placed pe _ rfl bs e2
    have hb : boldText pe (.help a) = inBold pe.console := funext fun s => boldText_eq pe _ s (by simp) (by simp)
    have : bs = elements (outline pe (.help a) p st) := pageSteps_outline pe (.help a) p st bs (by rw [hb]; exact hbs)
    rw [hs1, this] at c2
    refine ⟨start, os, g2, ?_, c2, ?_⟩
    · obtain ⟨n, hn, -⟩ := g2
      exact ⟨_, hn⟩
    · show s.out = _
      rw [c1, g1]
      rfl

theorem placed_endsLine {pe : PageEnv} {ap : Bool} {bs : List Block} {os : List Str} (h : Placed pe ap bs os)
    (hb : ∀ b ∈ bs, HasText b) : ∀ o ∈ os, EndsLine o := by
  induction h with
  | nil => intro o ho; cases ho
  | cons _ _ h3 _ ih =>
    intro o ho
    rcases List.mem_cons.1 ho with rfl | ho
    · exact h3.2 (hb _ (List.mem_cons_self ..))
    · exact ih (fun b hh => hb b (List.mem_cons_of_mem _ hh)) o ho

/-! ### Which elements have a text -/

theorem hasWord_left {a : Str} (b : Str) (h : HasWord a) : HasWord (a ++ b) := by
  obtain ⟨c, h1, h2⟩ := h
  refine ⟨c, ?_, h2⟩
  unfold untilZero at *
  rw [List.takeWhile_append]
  split
  · exact List.mem_append.2 (Or.inl (List.takeWhile_sublist _ |>.mem h1))
  · exact h1

theorem hasWord_right {a b : Str} (h0 : '\x00' ∉ a) (h : HasWord b) : HasWord (a ++ b) := by
  obtain ⟨c, h1, h2⟩ := h
  refine ⟨c, ?_, h2⟩
  unfold untilZero at *
  rw [List.takeWhile_append_of_pos]
  · exact List.mem_append.2 (Or.inr h1)
  · intro x hx
    simp only [ne_eq, decide_not, Bool.not_eq_eq_eq_not, Bool.not_true, decide_eq_false_iff_not]
    rintro rfl
    exact h0 hx

theorem hasWord_const {s : Str} (c : Char) (t : Str) (h : s = c :: t) (h1 : c ≠ '\x00') (h2 : c ∉ blank) : HasWord s := by
  subst h
  refine ⟨c, ?_, h2⟩
  unfold untilZero
  rw [List.takeWhile_cons_of_pos (by simpa using h1)]
  exact List.mem_cons_self ..

theorem described_visible (te : TypeEnv) (st : Store) (e : Entry W) (h : Described e) (ha : isArgument e = false) :
    HasText (callOf te st e) := by
  have hdef : ∀ s : Str, HasWord (" Default: ".toList ++ s) := fun s => hasWord_left _ ⟨'D', by decide +kernel, by decide +kernel⟩
  have hval : ∀ s : Str, HasWord (". ".toList ++ s) := fun s => hasWord_left _ ⟨'.', by decide +kernel, by decide +kernel⟩
  cases e with
  | positional => cases ha
  | option cfg x l ty v =>
    show HasWord _
    rcases h with h | ⟨h0, h⟩
    · exact hasWord_left _ (hasWord_left _ h)
    · by_cases h1 : cfg.defaultMessage = []
      · by_cases h2 : cfg.required = true
        · have h3 : cfg.validatorMessage ≠ [] := by
            rcases h with h | h | h
            · exact absurd h1 h
            · rw [h2] at h; cases h
            · exact h
          rw [if_neg (not_not_intro h1), if_pos h2, if_neg h3, List.append_nil]
          exact hasWord_right h0 (hval _)
        · rw [if_neg (not_not_intro h1), if_neg h2]
          exact hasWord_left _ (hasWord_right h0 (hdef _))
      · rw [if_pos h1]
        exact hasWord_left _ (hasWord_right h0 (hdef _))
  | flag cfg x => exact h
  | sec t a => trivial
  | subsec t a => trivial
  | line t p a => exact h
  | listItem k d a => exact h

theorem described_argument (te : TypeEnv) (st : Store) (n : Nat) (e : Entry W) (h : Described e) (ha : isArgument e = true) :
    HasText (argumentCall te st n e) := by
  have hdef : ∀ s : Str, HasWord (" Default: ".toList ++ s) := fun s => hasWord_left _ ⟨'D', by decide +kernel, by decide +kernel⟩
  have hval : ∀ s : Str, HasWord (". ".toList ++ s) := fun s => hasWord_left _ ⟨'.', by decide +kernel, by decide +kernel⟩
  cases e with
  | positional cfg x l ty v =>
    show HasWord _
    rcases h with h | ⟨h0, h⟩
    · exact hasWord_left _ (hasWord_left _ h)
    · by_cases h1 : l = true
      · rw [if_pos h1]
        exact hasWord_left _ (hasWord_right h0 (hdef _))
      · have h3 : cfg.validatorMessage ≠ [] := h.resolve_left h1
        rw [if_neg h1, if_neg h3, List.append_nil]
        exact hasWord_right h0 (hval _)
  | _ => cases ha

theorem hasText_bold (pe : PageEnv) (f : Format) (s t : Str) (hs : HasWord s) (h1 : f ≠ .html) (h2 : f ≠ .man) :
    HasWord (boldText pe f s ++ t) := by
  have : boldText pe f s = if pe.tty then "\x1b[1m".toList ++ s ++ "\x1b[0m".toList else s := by
    cases f <;> first | rfl | exact absurd rfl h1 | exact absurd rfl h2
  rw [this]
  refine hasWord_left _ ?_
  split
  · exact hasWord_left _ (hasWord_right (by decide +kernel) hs)
  · exact hs

/-- Without a zero character the name of an app and a label make a word. -/
theorem hasWord_label (app : Str) (h : '\x00' ∉ app) (l : Str) (hl : HasWord l) : HasWord (app ++ l) := hasWord_right h hl

theorem predefined_hasText (b n : Bool) : ∀ x ∈ predefinedOptions b n, HasWord x.2.2.toList := by
  have h : ∀ b n, ∀ x ∈ predefinedOptions b n, x.2.2.toList.head? = some 'P' ∨ x.2.2.toList.head? = some 'E' ∨
      x.2.2.toList.head? = some 'W' := by
    decide +kernel
  intro x hx
  rcases h b n x hx with h | h | h
  all_goals
    cases hs : x.2.2.toList with
    | nil => rw [hs] at h; cases h
    | cons c s =>
      rw [hs] at h
      injection h with h
      subst h
      exact hasWord_const _ _ rfl (by decide +kernel) (by decide +kernel)

theorem elements_nonEmpty_mem {l : List Part} {b : Block} (h : b ∈ elements (nonEmptyParts l)) :
    (∃ t, b = .sec t) ∨ ∃ part ∈ l, b ∈ part.body := by
  unfold elements at h
  obtain ⟨part, h1, h2⟩ := List.mem_flatMap.1 h
  rcases List.mem_cons.1 h2 with rfl | h2
  · exact Or.inl ⟨_, rfl⟩
  · exact Or.inr ⟨part, (List.mem_filter.1 h1).1, h2⟩

theorem hasWord_subcommands :
    HasWord ("The following options belong to the top-level parser and need to be specified \\fBbefore\\fP the "
      ++ "subcommand key word. Every argument after the subcommand key word is passed on to the "
      ++ "corresponding sub-parser.").toList := by
  rw [String.toList_append, String.toList_append]
  exact hasWord_left _ (hasWord_left _ ⟨'T', by decide +kernel, by decide +kernel⟩)

/-- The texts of the developer have words: then all elements have. -/
theorem outline_hasText (pe : PageEnv) (a : Bool) (p : Parser W) (st : Store) (h0 : '\x00' ∉ p.appName)
    (h1 : ∀ s ∈ pe.info.description ++ pe.info.examples, HasWord s) (h2 : pe.info.url ≠ [] → HasWord pe.info.url)
    (h3 : ∀ e ∈ p.operations, Described e) : ∀ b ∈ elements (outline pe (.help a) p st), HasText b := by
  intro b hb
  rcases elements_nonEmpty_mem hb with ⟨t, rfl⟩ | ⟨part, hp, hb⟩
  · trivial
  have bold : ∀ s t, HasWord s → HasWord (boldText pe (.help a) s ++ t) := fun s t hs => hasText_bold pe _ s t hs (by simp) (by simp)
  simp only [List.mem_cons, List.not_mem_nil, or_false] at hp
  rcases hp with rfl | rfl | rfl | rfl | rfl | rfl | rfl | rfl | rfl
  · obtain ⟨s, -, rfl⟩ := List.mem_map.1 hb
    exact hasWord_left _ (hasWord_left _ (hasWord_left _ (hasWord_const '\\' ['f', 'B'] rfl (by decide) (by decide +kernel))))
  · obtain ⟨s, hs, rfl⟩ := List.mem_map.1 hb
    exact h1 s (List.mem_append.2 (Or.inl hs))
  · cases hsub : p.subcommands with
    | nil => rw [hsub] at hb; cases hb
    | cons first rest =>
      rw [hsub] at hb
      have hb : b ∈ Block.line "This program must be invoked with one of the following subcommands:".toList false
        :: (first :: rest).map (fun n => Block.line ("- \\fB".toList ++ n ++ "\\fP".toList) false)
        ++ ["See the respective help page for further details (e.g. by calling ".toList ++ p.appName ++ [' '] ++ first ++ " -h).".toList,
            ("The following options belong to the top-level parser and need to be specified \\fBbefore\\fP the "
              ++ "subcommand key word. Every argument after the subcommand key word is passed on to the "
              ++ "corresponding sub-parser.").toList].map (Block.line · true) := hb
      rcases List.mem_append.1 hb with hb | hb
      · rcases List.mem_cons.1 hb with rfl | hb
        · exact ⟨'T', by decide +kernel, by decide +kernel⟩
        · obtain ⟨n, -, rfl⟩ := List.mem_map.1 hb
          exact hasWord_left _ (hasWord_left _ ⟨'-', by decide +kernel, by decide +kernel⟩)
      · obtain ⟨t, ht, rfl⟩ := List.mem_map.1 hb
        rcases List.mem_cons.1 ht with rfl | ht
        · exact hasWord_left _ (hasWord_left _ (hasWord_left _ (hasWord_left _ ⟨'S', by decide +kernel, by decide +kernel⟩)))
        · rw [List.mem_singleton.1 ht]
          exact hasWord_subcommands
  · obtain ⟨x, hx, rfl⟩ := List.mem_map.1 hb
    have hx : x.1 ∈ p.operations.filter isArgument := (List.mem_zipIdx hx).2.2 ▸ List.getElem_mem _
    exact described_argument _ _ _ _ (h3 _ (List.mem_filter.1 hx).1) (List.mem_filter.1 hx).2
  · rcases List.mem_append.1 hb with hb | hb
    · obtain ⟨e, he, rfl⟩ := List.mem_map.1 hb
      have he := List.mem_filter.1 he
      have ha : isArgument e = false := by
        have := he.2
        rw [Bool.and_eq_true] at this
        simpa using this.2
      exact described_visible _ _ e (h3 e he.1) ha
    · rcases List.mem_cons.1 hb with rfl | hb
      · trivial
      · obtain ⟨x, hx, rfl⟩ := List.mem_map.1 hb
        exact predefined_hasText _ _ x hx
  · obtain ⟨s, hs, rfl⟩ := List.mem_map.1 hb
    exact h1 s (List.mem_append.2 (Or.inr hs))
  · obtain ⟨x, hx, rfl⟩ := List.mem_map.1 hb
    refine bold _ _ ?_
    rcases List.mem_append.1 hx with hx | hx
    · rcases List.mem_cons.1 hx with rfl | hx
      · exact (⟨'L', by decide +kernel, by decide +kernel⟩ : HasWord "Last update: ".toList)
      rcases List.mem_cons.1 hx with rfl | hx
      · exact hasWord_label _ h0 _ ⟨'v', by decide +kernel, by decide +kernel⟩
      rcases List.mem_cons.1 hx with rfl | hx
      · exact (⟨'S', by decide +kernel, by decide +kernel⟩ : HasWord "Sharg version: ".toList)
      · cases hx
    · obtain ⟨v, -, rfl⟩ := List.mem_map.1 hx
      exact (⟨'S', by decide +kernel, by decide +kernel⟩ : HasWord "SeqAn version: ".toList)
  · by_cases hu : pe.info.url = []
    · have hb : b ∈ [pe.info.url].filterMap fun u => if u = [] then none else some (Block.line u false) := hb
      rw [hu] at hb
      cases hb
    · have hb : b ∈ [pe.info.url].filterMap fun u => if u = [] then none else some (Block.line u false) := hb
      obtain ⟨u, hu1, hu2⟩ := List.mem_filterMap.1 hb
      rw [List.mem_singleton.1 hu1, if_neg hu] at hu2
      injection hu2 with hu2
      rw [← hu2]
      exact h2 hu
  · have hb : b ∈ (if legalSupplied pe.info then _ else _) := hb
    split at hb
    · rcases List.mem_append.1 hb with hb | hb
      · obtain ⟨x, hx, rfl⟩ := List.mem_map.1 hb
        refine bold _ _ ?_
        have hx := (List.mem_filter.1 hx).1
        rcases List.mem_cons.1 hx with rfl | hx
        · exact hasWord_label _ h0 _ ⟨'C', by decide +kernel, by decide +kernel⟩
        rcases List.mem_cons.1 hx with rfl | hx
        · exact (⟨'A', by decide +kernel, by decide +kernel⟩ : HasWord "Author: ".toList)
        rcases List.mem_cons.1 hx with rfl | hx
        · exact (⟨'C', by decide +kernel, by decide +kernel⟩ : HasWord "Contact: ".toList)
        rcases List.mem_cons.1 hx with rfl | hx
        · exact ⟨'S', by decide +kernel, by decide +kernel⟩
        rcases List.mem_cons.1 hx with rfl | hx
        · exact (⟨'I', by decide +kernel, by decide +kernel⟩ : HasWord "In your academic works please cite: ".toList)
        · cases hx
      · split at hb
        · cases hb
        · rcases List.mem_cons.1 hb with rfl | hb
          · exact hasWord_left _ (hasWord_left _ ⟨'F', by decide +kernel, by decide +kernel⟩)
          · cases hb
    · cases hb

/-- C69 (partial): if the texts of the developer have words (flags, required options and positional options need a
description, or a message of the validator), each element of the help page begins and ends on lines of its own. -/
theorem C69_own_lines_partial (pe : PageEnv) (a : Bool) (p : Parser W) (st : Store) (h0 : '\x00' ∉ p.appName)
    (h1 : ∀ s ∈ pe.info.description ++ pe.info.examples, HasWord s) (h2 : pe.info.url ≠ [] → HasWord pe.info.url)
    (h3 : ∀ e ∈ p.operations, Described e) (h : (pageOf pe (.help a) p st).1 = none) :
    ∃ start os, ConsoleStart p.appName pe.info.shortDescription start ∧ EndsLine start ∧
      Placed pe false (elements (outline pe (.help a) p st)) os ∧ (∀ o ∈ os, EndsLine o) ∧
      (pageOf pe (.help a) p st).2 = start ++ os.flatten := by
  obtain ⟨start, os, g1, g2, g3, g4⟩ := C69_elements_are_placed pe a p st h
  exact ⟨start, os, g1, g2, g3, placed_endsLine g3 (outline_hasText pe a p st h0 h1 h2 h3), g4⟩

/-- C69 does not hold as stated: a flag without a description and the one after it stand on the same line. -/
theorem C69_flags_share_a_line :
    "\n    -v\n              -w\n          More words.\n".toList <:+:
      (pageOf (exPages {}) (.help false) (exPageParser [.flag { short := 'v' } 0,
        .flag { short := 'w', description := "More words.".toList } 1]) exPageStore).2 := by
  refine ⟨"app\n===\n\nOPTIONS".toList, ?_⟩
  refine ⟨("\n  Common options\n    -h, --help\n          Prints the help page.\n    -hh, --advanced-help\n"
    ++ "          Prints the help page including advanced options.\n    --version\n          Prints the version information.\n"
    ++ "    --copyright\n          Prints the copyright/license information.\n    --export-help (std::string)\n"
    ++ "          Export the help page information. Value must be one of [html, man].\n\nVERSION\n    Last update:\n"
    ++ "    app version:\n    Sharg version: 1.1.1\n").toList, ?_⟩
  decide +kernel

/-- A set-up that meets the conditions. -/
example : (∀ e ∈ [Entry.flag { short := 'w', description := "More words.".toList } 1, exSecret false false], Described (W := Unit) e) ∧
    (∀ s ∈ exDescribed.description ++ exDescribed.examples, HasWord s) ∧
    (pageOf (exPages exDescribed) (.help false) (exPageParser [.flag { short := 'w', description := "More words.".toList } 1,
      exSecret false false]) exPageStore).1 = none := by
  refine ⟨?_, ?_, by decide +kernel⟩
  · intro e he
    rcases List.mem_cons.1 he with rfl | he
    · exact ⟨'M', by decide +kernel, by decide +kernel⟩
    · rw [List.mem_singleton.1 he]
      exact Or.inl ⟨'T', by decide +kernel, by decide +kernel⟩
  · intro s hs
    rw [List.mem_singleton.1 hs]
    exact ⟨'C', by decide +kernel, by decide +kernel⟩

end Sharg
