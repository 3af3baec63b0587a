import Verif.Lemmas.Fonts

/-!
# Property C75: pages and terminals
-/

namespace Sharg

open Spec

variable {W : Type}

/-- The text of the header. -/
theorem header_text (app : Str) (m : Meta) : ∃ s : Str, ∀ h, helpHeader app m h = .ok () { h with out := h.out ++ (s ++ ['\n']) } :=
  ⟨_, fun _ => rfl⟩

/-- What print calls on the console leave behind. -/
theorem steps_elements (pe : PageEnv) (app : Str) (m : Meta) {l : List Step} {h h' : HelpState}
    (e : (helpPrinter pe.console app m).steps l h = .ok () h') :
    ∃ bs os, l = bs.map .ok ∧ List.Forall₂ (ConsoleElement pe) bs os ∧ h'.out = h.out ++ os.flatten := by
  obtain ⟨bs, rfl⟩ := steps_ok _ e
  obtain ⟨x, h1, os, h2, rfl⟩ := prints_steps (helpPrinter pe.console app m) (prints_helpBlock pe) bs h h' e
  exact ⟨bs, os, rfl, h2, h1⟩

/-- Print calls behind the header, on two terminals. -/
theorem sameWords_steps (pe pe' : PageEnv) (f : Format) (h1 : f ≠ .html) (h2 : f ≠ .man) (hn : pe.build.ndebug = pe'.build.ndebug)
    (app : Str) (m : Meta) {l l' s : List Step} (hl : List.Forall₂ (StepTwin pe f) l s) (hl' : List.Forall₂ (StepTwin pe' f) l' s) :
    (runHelp (M.bind (helpHeader app m) fun _ => (helpPrinter pe.console app m).steps l)).1 =
      (runHelp (M.bind (helpHeader app m) fun _ => (helpPrinter pe'.console app m).steps l')).1 ∧
    ((runHelp (M.bind (helpHeader app m) fun _ => (helpPrinter pe.console app m).steps l)).1 = none →
      SameWords pe.tty pe'.tty (runHelp (M.bind (helpHeader app m) fun _ => (helpPrinter pe.console app m).steps l)).2
        (runHelp (M.bind (helpHeader app m) fun _ => (helpPrinter pe'.console app m).steps l')).2) := by
  obtain ⟨start, hst⟩ := header_text app m
  have fate : ∀ (c : Console) (k : List Step), (runHelp (M.bind (helpHeader app m) fun _ => (helpPrinter c app m).steps k)).1 =
      stepsFate c.ndebug k := fun c k => (Fate.bind (m := helpHeader app m) (e := none) (fun _ => rfl) (fate_steps c app m k)) _
  have hne : stepsFate pe.console.ndebug l = stepsFate pe'.console.ndebug l' := by
    have : pe.console.ndebug = pe'.console.ndebug := hn
    rw [this, twins_fate _ pe f h1 h2 hl, twins_fate _ pe' f h1 h2 hl']
  refine ⟨by rw [fate, fate, hne], fun hnone => ?_⟩
  have run : ∀ (q : PageEnv) (k : List Step), stepsFate q.console.ndebug k = none →
      ∃ bs os, k = bs.map .ok ∧ List.Forall₂ (ConsoleElement q) bs os ∧
        (runHelp (M.bind (helpHeader app m) fun _ => (helpPrinter q.console app m).steps k)).2 = start ++ ['\n'] ++ os.flatten := by
    intro q k hk
    unfold runHelp M.bind
    rw [hst]
    dsimp only
    rw [List.nil_append]
    have hf := fate_steps q.console app m k ⟨start ++ ['\n'], false⟩
    cases e : (helpPrinter q.console app m).steps k ⟨start ++ ['\n'], false⟩ with
    | err x t => rw [e, hk] at hf; cases hf
    | ok u t =>
      obtain ⟨bs, os, k1, k2, k3⟩ := steps_elements q app m e
      exact ⟨bs, os, k1, k2, k3⟩
  rw [fate] at hnone
  obtain ⟨bs, os, rfl, k2, k3⟩ := run pe l hnone
  obtain ⟨bs', os', rfl, l2, l3⟩ := run pe' l' (hne ▸ hnone)
  rw [k3, l3]
  obtain ⟨ss, rfl, t1⟩ := twins_split pe f hl
  obtain ⟨ss', e, t2⟩ := twins_split pe' f hl'
  have hinj : ss = ss' := by
    clear t1 t2 hl hl'
    induction ss generalizing ss' with
    | nil => cases ss' with | nil => rfl | cons => cases e
    | cons a ss ih =>
      cases ss' with
      | nil => cases e
      | cons b ss' =>
        rw [List.map_cons, List.map_cons] at e
        injection e with e1 e2
        injection e1 with e1
        rw [e1, ih ss' e2]
  subst hinj
  exact sameWords_of_elements pe pe' f h1 h2 t1 t2 k2 l2 start

theorem steps_snoc {σ : Type} (pr : Printer σ) (l : List Step) (b : Block) :
    (M.bind (pr.steps l) fun _ => pr.block b) = pr.steps (l ++ [.ok b]) := by
  funext s
  induction l generalizing s with
  | nil =>
    show pr.block b s = M.bind (pr.block b) (fun _ => M.pure ()) s
    unfold M.bind
    cases pr.block b s <;> rfl
  | cons x l ih =>
    show M.bind (M.bind (pr.step x) fun _ => pr.steps l) (fun _ => pr.block b) s = M.bind (pr.step x) (fun _ => pr.steps (l ++ [.ok b])) s
    unfold M.bind
    cases pr.step x s with
    | err => rfl
    | ok u t => exact ih t

theorem shortHelp_steps (c : Console) (app : Str) (m : Meta) : shortHelpPage c app m = M.bind (helpHeader app m) fun _ =>
    (helpPrinter c app m).steps (synopsisSteps m ++ [.ok (.line "Try -h or --help for more information.\n".toList true)]) := by
  rw [← steps_snoc]
  rfl

theorem fullPage_steps (c : Console) (app : Str) (m : Meta) (i : PageInput W) : printFullPage (helpPrinter c app m) i =
    M.bind (helpHeader app m) fun _ => (helpPrinter c app m).steps (pageSteps i (inBold c)) := by
  funext s
  show M.bind (helpHeader app m) (fun _ => M.bind ((helpPrinter c app m).steps (pageSteps i (inBold c))) fun _ => M.pure ()) s = _
  unfold M.bind
  cases helpHeader app m s with
  | err => rfl
  | ok u t =>
    dsimp only
    cases (helpPrinter c app m).steps (pageSteps i (inBold c)) t <;> rfl

/-- The copyright page without fonts. -/
theorem copyright_adorned (pe : PageEnv) (app : Str) : Adorned pe.tty (copyrightText pe app) (copyrightText (onTerminal pe false 0) app) := by
  have hb : ∀ s, Adorned pe.tty (boldText pe .copyright s) (boldText (onTerminal pe false 0) .copyright s) := fun s =>
    adorned_bold pe .copyright (by simp) (by simp) s
  have hp : Adorned pe.tty (if pe.tty then "\x1b[0m".toList else []) (if (onTerminal pe false 0).tty then "\x1b[0m".toList else []) :=
    adorned_ansi pe.tty (d := '0') (by simp)
  have hr := adorned_refl pe.tty
  unfold copyrightText
  dsimp only
  refine adorned_append (adorned_append (adorned_append (adorned_append (adorned_append (adorned_append (adorned_append (adorned_append
    (adorned_append (hr _) (hb _)) (hr _)) ?_) (hr _)) (hr _)) (hb _)) (hr _)) (hr _)) (hr _)
  have : (onTerminal pe false 0).info = pe.info := rfl
  rw [this]
  by_cases h1 : pe.info.longCopyright = []
  · rw [if_neg (not_not_intro h1), if_neg (not_not_intro h1)]
    by_cases h2 : pe.info.shortCopyright = []
    · rw [if_neg (not_not_intro h2), if_neg (not_not_intro h2)]
      exact adorned_append (adorned_append hp (hr _)) (hr _)
    · rw [if_pos h2, if_pos h2]
      exact adorned_append (hb _) (hr _)
  · rw [if_pos h1, if_pos h1]
    exact adorned_append hp (hr _)

theorem sameWords_refl (tty tty' : Bool) (s : Str) : SameWords tty tty' s s := by
  obtain ⟨ws, h⟩ := words_exist s
  exact ⟨s, s, ws, adorned_refl _ _, adorned_refl _ _, h, h⟩

/-- C75: whatever the terminal, a page fails in the same way or has the same words, apart from font sequences. -/
theorem C75_same_words (pe : PageEnv) (f : Format) (p : Parser W) (st : Store) (tty tty' : Bool) (width width' : Nat) :
    (pageOf (onTerminal pe tty width) f p st).1 = (pageOf (onTerminal pe tty' width') f p st).1 ∧
    ((pageOf (onTerminal pe tty width) f p st).1 = none →
      SameWords tty tty' (pageOf (onTerminal pe tty width) f p st).2 (pageOf (onTerminal pe tty' width') f p st).2) := by
  have bold : ∀ (q : PageEnv) (f : Format), f ≠ .html → f ≠ .man → inBold q.console = boldText q f := fun q f h1 h2 =>
    funext fun s => (boldText_eq q f s h1 h2).symm
  cases f with
  | parse => exact ⟨rfl, fun _ => sameWords_refl _ _ _⟩
  | html => exact ⟨rfl, fun _ => sameWords_refl _ _ _⟩
  | man => exact ⟨rfl, fun _ => sameWords_refl _ _ _⟩
  | tdl cwl => exact ⟨rfl, fun _ => sameWords_refl _ _ _⟩
  | help a =>
    unfold pageOf
    dsimp only
    rw [fullPage_steps, fullPage_steps, bold _ (.help a) (by simp) (by simp), bold _ (.help a) (by simp) (by simp)]
    exact sameWords_steps (onTerminal pe tty width) (onTerminal pe tty' width') (.help a) (by simp) (by simp) rfl _ _
      (twins_page _ _ a p st) (twins_page (onTerminal pe tty' width') _ a p st)
  | shortHelp =>
    unfold pageOf
    dsimp only
    rw [shortHelp_steps, shortHelp_steps]
    exact sameWords_steps (onTerminal pe tty width) (onTerminal pe tty' width') .shortHelp (by simp) (by simp) rfl _ _
      (twins_self _ _ _) (twins_self (onTerminal pe tty' width') _ _)
  | version =>
    unfold pageOf versionPage
    dsimp only
    rw [bold _ .version (by simp) (by simp), bold _ .version (by simp) (by simp)]
    exact sameWords_steps (onTerminal pe tty width) (onTerminal pe tty' width') .version (by simp) (by simp) rfl _ _
      (twins_map _ _ (twins_version _ _ _)) (twins_map _ _ (twins_version (onTerminal pe tty' width') _ _))
  | copyright =>
    rw [C68_copyright_page, C68_copyright_page]
    refine ⟨rfl, fun _ => ?_⟩
    obtain ⟨ws, h⟩ := words_exist (copyrightText (onTerminal pe false 0) p.appName)
    exact ⟨_, _, ws, copyright_adorned (onTerminal pe tty width) _, copyright_adorned (onTerminal pe tty' width') _, h, h⟩

/-- C75: exported pages do not depend on the terminal. -/
theorem C75_exports_ignore_the_terminal (pe : PageEnv) (f : Format) (hf : f = .html ∨ f = .man ∨ ∃ c, f = .tdl c) (p : Parser W)
    (st : Store) (tty : Bool) (width : Nat) : pageOf (onTerminal pe tty width) f p st = pageOf pe f p st := by
  rcases hf with rfl | rfl | ⟨c, rfl⟩ <;> rfl

/-- C75: terminals that are narrower than 40 columns or wider than 120 columns are treated as if they had 40 or 120
columns; if the width is not known, 80 columns are used. -/
theorem C75_same_width_same_page (pe : PageEnv) (f : Format) (p : Parser W) (st : Store) (tty : Bool) (width width' : Nat)
    (h : usedWidth width = usedWidth width') : pageOf (onTerminal pe tty width) f p st = pageOf (onTerminal pe tty width') f p st := by
  have hl : mkLayout width = mkLayout width' := by
    have hg : ∀ w, min (max (if w > 0 then w else 80) 40) 120 = usedWidth w := by
      intro w
      unfold usedWidth
      split <;> split <;> (try split) <;> (try split) <;> omega
    unfold mkLayout
    dsimp only
    rw [hg, hg, h]
  have hc : (onTerminal pe tty width).console = (onTerminal pe tty width').console := by
    unfold PageEnv.console
    show Console.mk _ _ (mkLayout width) = Console.mk _ _ (mkLayout width')
    rw [hl]
    rfl
  cases f with
  | parse => rfl
  | html => rfl
  | man => rfl
  | tdl c => rfl
  | copyright => rw [C68_copyright_page, C68_copyright_page]; rfl
  | help a => unfold pageOf; dsimp only; rw [hc]; rfl
  | shortHelp => unfold pageOf; dsimp only; rw [hc]; rfl
  | version => unfold pageOf; dsimp only; rw [hc]; rfl

/-- The header is the same. -/
theorem lock_header (app : Str) (m : Meta) : LockAs (fun x x' => x = x') (helpHeader app m) (helpHeader app m) := by
  obtain ⟨s, hs⟩ := header_text app m
  exact fun h h' hp => Or.inl ⟨_, _, s ++ ['\n'], s ++ ['\n'], hs h, hs h', hp, rfl, rfl, rfl⟩

theorem map_ok_injective {a b : List Block} (h : a.map (Except.ok (ε := Exn)) = b.map .ok) : a = b := by
  induction a generalizing b with
  | nil => cases b with | nil => rfl | cons => cases h
  | cons x a ih =>
    cases b with
    | nil => cases h
    | cons y b =>
      rw [List.map_cons, List.map_cons] at h
      injection h with h1 h2
      injection h1 with h1
      rw [h1, ih h2]

/-- The parts of two pages. -/
def MadeAlike (width : Nat) (bold : List (Str × Str)) (es : List Block) (page page' : Str) : Prop :=
  ∃ (start : Str) (parts : List (Block × Str × Str)), parts.map (·.1) = es ∧ page = start ++ (parts.map (·.2.1)).flatten ∧
    page' = start ++ (parts.map (·.2.2)).flatten ∧ ∀ q ∈ parts, PartAlike width bold q.1 q.2.1 q.2.2

theorem madeAlike_steps (width : Nat) (bold : List (Str × Str)) {c c' : Console} (app : Str) (m : Meta) {l l' : List Step} {es : List Block}
    (h : LockSteps c c' (PartAlike width bold) l l') (he : ∀ bs, l' = bs.map .ok → bs = es) :
    (runHelp (M.bind (helpHeader app m) fun _ => (helpPrinter c app m).steps l)).1 =
      (runHelp (M.bind (helpHeader app m) fun _ => (helpPrinter c' app m).steps l')).1 ∧
    ((runHelp (M.bind (helpHeader app m) fun _ => (helpPrinter c app m).steps l)).1 = none →
      MadeAlike width bold es (runHelp (M.bind (helpHeader app m) fun _ => (helpPrinter c app m).steps l)).2
        (runHelp (M.bind (helpHeader app m) fun _ => (helpPrinter c' app m).steps l')).2) := by
  refine lock_run ((lock_header app m).join (lock_steps app m h) ?_)
  rintro a _ _ _ rfl ⟨parts, h1, rfl, rfl, h2⟩
  exact ⟨a, parts, he _ (by rw [h1, List.map_map]; rfl), rfl, rfl, h2⟩

/-- C75 (partial): on a terminal and in a file of the same width a page fails in the same way, or consists of the same
parts up to font sequences. The lines with a bold label that do not fit into one line, and the remark about the copyright if
there are less than 77 columns, need only have the same words. -/
theorem C75_only_fonts_partial (pe : PageEnv) (f : Format) (hf : (∃ a, f = .help a) ∨ f = .version ∨ f = .shortHelp) (p : Parser W)
    (st : Store) (width : Nat) :
    (pageOf (onTerminal pe true width) f p st).1 = (pageOf (onTerminal pe false width) f p st).1 ∧
    ((pageOf (onTerminal pe true width) f p st).1 = none →
      ∃ (start : Str) (parts : List (Block × Str × Str)), parts.map (·.1) = pageElements (onTerminal pe false width) f p st ∧
        (pageOf (onTerminal pe true width) f p st).2 = start ++ (parts.map (·.2.1)).flatten ∧
        (pageOf (onTerminal pe false width) f p st).2 = start ++ (parts.map (·.2.2)).flatten ∧
        ∀ q ∈ parts, PartAlike width (labelledLines pe p.appName f) q.1 q.2.1 q.2.2) := by
  have hon := onAndOff_terminal pe width
  have hb : ∀ f, f ≠ .html → f ≠ .man → boldText (onTerminal pe false width) f = inBold (onTerminal pe false width).console := fun f h1 h2 =>
    funext fun s => boldText_eq _ f s h1 h2
  rcases hf with ⟨a, rfl⟩ | rfl | rfl
  · unfold pageOf
    dsimp only
    rw [fullPage_steps, fullPage_steps]
    refine madeAlike_steps width (labelledLines pe p.appName (.help a)) _ _ ?_ ?_
    · unfold pageSteps
      refine lockSteps_append (lockSteps_self hon (fun _ _ _ => Or.inl) _) (lockSteps_blocks ?_)
      unfold endBlocks
      refine forall₂_append (forall₂_append (forall₂_lock hon (fun _ _ _ => Or.inl) _)
        (alike_version pe width p.appName fun x hx => List.mem_append_left _ hx))
        (alike_legal pe width p.appName fun x hx => List.mem_append_right _ hx)
    · intro bs hbs
      exact pageSteps_outline (onTerminal pe false width) (.help a) p st bs (by rw [hb _ (by simp) (by simp)]; exact hbs)
  · unfold pageOf versionPage
    dsimp only
    refine madeAlike_steps width (labelledLines pe p.appName .version) _ _
      (lockSteps_blocks (alike_version pe width p.appName fun x hx => hx)) ?_
    intro bs hbs
    rw [← hb .version (by simp) (by simp), versionBlocks_eq] at hbs
    exact (map_ok_injective hbs).symm
  · unfold pageOf
    dsimp only
    rw [shortHelp_steps, shortHelp_steps]
    refine madeAlike_steps width (labelledLines pe p.appName .shortHelp) _ _ (lockSteps_self hon (fun _ _ _ => Or.inl) _) ?_
    intro bs hbs
    rcases List.eq_nil_or_concat bs with rfl | ⟨cs, b, rfl⟩
    · have := congrArg List.length hbs
      simp at this
    · rw [List.concat_eq_append, List.map_append] at hbs
      obtain ⟨h1, h2⟩ := List.append_inj' hbs rfl
      injection h2 with h2
      injection h2 with h2
      rw [List.concat_eq_append, ← h2, synopsis_blocks _ _ h1]
      rfl

/-- C75 (partial): if every line with a bold label fits into one line, then the page on a terminal and the page in a file
of the same width are the same up to font sequences. -/
theorem C75_same_lines_partial (pe : PageEnv) (f : Format) (hf : (∃ a, f = .help a) ∨ f = .version ∨ f = .shortHelp) (p : Parser W)
    (st : Store) (width : Nat) (h : (pageOf (onTerminal pe true width) f p st).1 = none)
    (hfit : ∀ x ∈ labelledLines pe p.appName f, FitsInLine width x) (hwide : 77 ≤ usedWidth width) :
    Adorned true (pageOf (onTerminal pe true width) f p st).2 (pageOf (onTerminal pe false width) f p st).2 := by
  obtain ⟨start, parts, -, h2, h3, h4⟩ := (C75_only_fonts_partial pe f hf p st width).2 h
  rw [h2, h3]
  refine adorned_append (adorned_refl _ _) ?_
  clear h2 h3
  induction parts with
  | nil => exact .nil
  | cons q parts ih =>
    refine adorned_append ?_ (ih fun r hr => h4 r (List.mem_cons_of_mem _ hr))
    rcases h4 q List.mem_cons_self with h | ⟨-, ⟨r, hr, hn, -⟩ | ⟨hn, -⟩⟩
    · exact h
    · exact absurd (hfit r hr) hn
    · omega

/-- C75: the copyright page is the same up to font sequences. -/
theorem C75_copyright_only_fonts (pe : PageEnv) (p : Parser W) (st : Store) (tty : Bool) (width width' : Nat) :
    ∃ text, (pageOf (onTerminal pe false width') .copyright p st) = (none, text) ∧
      ∃ text', (pageOf (onTerminal pe tty width) .copyright p st) = (none, text') ∧ Adorned tty text' text := by
  rw [C68_copyright_page, C68_copyright_page]
  exact ⟨_, rfl, _, rfl, copyright_adorned (onTerminal pe tty width) _⟩

/-- The text without its font sequences. -/
def withoutFonts : Str → Str
  | '\x1b' :: '[' :: d :: 'm' :: s => if d ∈ ['0', '1', '4'] then withoutFonts s else '\x1b' :: '[' :: d :: 'm' :: withoutFonts s
  | c :: s => c :: withoutFonts s
  | [] => []

/-- If there is no escape in the plain text, then it is the text without font sequences. -/
theorem adorned_withoutFonts {tty : Bool} {s t : Str} (h : Adorned tty s t) (ht : '\x1b' ∉ t) : withoutFonts s = t := by
  induction h with
  | nil => rfl
  | @char c s t _ ih =>
    simp only [List.mem_cons, not_or] at ht
    rw [withoutFonts.eq_2]
    · rw [ih ht.2]
    · intro d s' hc
      exact absurd hc.symm ht.1
  | @font d s t _ hd _ ih => rw [withoutFonts, if_pos hd, ih ht]

/-- An app with all dates and versions. -/
def exDated : Meta := { exDescribed with date := "2024-05-01".toList }

/-- C75 is wrong for lines: the font sequences of a bold label are counted when lines are broken, so that an app that names
its author has other lines on a terminal with 80 columns than in a file. -/
theorem C75_labels_count_fonts : ∃ (pe : PageEnv) (p : Parser Unit) (st : Store),
    (pageOf (onTerminal pe true 80) (.help false) p st).1 = none ∧
    ¬ Adorned true (pageOf (onTerminal pe true 80) (.help false) p st).2 (pageOf (onTerminal pe false 80) (.help false) p st).2 := by
  refine ⟨exPages exDated, exPageParser [], exPageStore, by decide +kernel, fun h => ?_⟩
  exact absurd (adorned_withoutFonts h (by decide +kernel)) (by decide +kernel)

/-- C75 is wrong for lines: on a terminal the label of an empty date ends with a blank, in a file it does not. -/
theorem C75_empty_date_differs : ∃ (pe : PageEnv) (p : Parser Unit) (st : Store),
    (pageOf (onTerminal pe true 80) .version p st).1 = none ∧
    ¬ Adorned true (pageOf (onTerminal pe true 80) .version p st).2 (pageOf (onTerminal pe false 80) .version p st).2 := by
  refine ⟨exPages exDescribed, exPageParser [], exPageStore, by decide +kernel, fun h => ?_⟩
  exact absurd (adorned_withoutFonts h (by decide +kernel)) (by decide +kernel)

/-! ### Examples -/

/-- A page that can be printed on a terminal. -/
example : ∀ f ∈ [Format.help false, .help true, .version, .shortHelp, .copyright, .html, .man],
    (pageOf (onTerminal (exPages exDated) true 80) f (exPageParser [exSecret false false]) exPageStore).1 = none ∧
    (pageOf (onTerminal (exPages exDated) true 80) f (exPageParser [exSecret false false]) exPageStore).2 ≠ [] := by
  decide +kernel

/-- The version page on a terminal, all lines fit. -/
example : (∀ x ∈ labelledLines (exPages exDated) "app".toList .version, FitsInLine 80 x) ∧ 77 ≤ usedWidth 80 ∧
    (pageOf (onTerminal (exPages exDated) true 80) .version (exPageParser []) exPageStore) =
    (none, ("app - a counter\n===============\n\n\x1b[1mVERSION\x1b[0m\n    \x1b[1mLast update: \x1b[0m2024-05-01\n"
      ++ "    \x1b[1mapp version: \x1b[0m1.0\n    \x1b[1mSharg version: \x1b[0m1.1.1\n").toList) := by
  refine ⟨?_, by decide, by decide +kernel⟩
  intro x hx
  have : labelledLines (exPages exDated) "app".toList .version = [("Last update: ".toList, "2024-05-01".toList),
      ("app version: ".toList, "1.0".toList), ("Sharg version: ".toList, "1.1.1".toList)] := by decide +kernel
  rw [this] at hx
  simp only [List.mem_cons, List.not_mem_nil, or_false] at hx
  rcases hx with rfl | rfl | rfl
  · exact ⟨⟨'L', "ast update: ".toList, by decide +kernel, by decide⟩, ⟨'2', "024-05-01".toList, by decide +kernel, by decide⟩,
      by decide +kernel, by decide +kernel⟩
  · exact ⟨⟨'a', "pp version: ".toList, by decide +kernel, by decide⟩, ⟨'1', ".0".toList, by decide +kernel, by decide⟩,
      by decide +kernel, by decide +kernel⟩
  · exact ⟨⟨'S', "harg version: ".toList, by decide +kernel, by decide⟩, ⟨'1', ".1.1".toList, by decide +kernel, by decide⟩,
      by decide +kernel, by decide +kernel⟩

/-- Widths: not known, too narrow, too wide. -/
example : usedWidth 0 = usedWidth 80 ∧ usedWidth 7 = usedWidth 40 ∧ usedWidth 500 = usedWidth 120 ∧ usedWidth 80 ≠ usedWidth 100 := by
  decide

end Sharg
