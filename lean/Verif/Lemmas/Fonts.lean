import Verif.Lemmas.Lockstep

/-!
# A terminal and a file of the same width
-/

namespace Sharg

open Spec

variable {W : Type}

/-- Both actions fail alike, or print texts related by `R` and agree on whether a paragraph was printed. -/
def LockAs (R : Str → Str → Prop) (m m' : HelpM) : Prop :=
  ∀ h h', h.prevWasParagraph = h'.prevWasParagraph →
    (∃ g g' x x', m h = .ok () g ∧ m' h' = .ok () g' ∧ g.prevWasParagraph = g'.prevWasParagraph ∧
      g.out = h.out ++ x ∧ g'.out = h'.out ++ x' ∧ R x x') ∨
    ∃ e g g', m h = .err e g ∧ m' h' = .err e g'

/-- The first action prints on a terminal what the second prints into a file, with font sequences. -/
abbrev Lock (m m' : HelpM) : Prop := LockAs (Adorned true) m m'

theorem LockAs.join {R S T : Str → Str → Prop} {m m' n n' : HelpM} (h1 : LockAs R m m') (h2 : LockAs S n n')
    (hT : ∀ a a' b b', R a a' → S b b' → T (a ++ b) (a' ++ b')) : LockAs T (M.bind m fun _ => n) (M.bind m' fun _ => n') := by
  intro h h' hp
  rcases h1 h h' hp with ⟨g, g', x, x', e1, e2, k1, k2, k3, k4⟩ | ⟨e, g, g', e1, e2⟩
  · unfold M.bind
    rw [e1, e2]
    rcases h2 g g' k1 with ⟨f, f', y, y', d1, d2, l1, l2, l3, l4⟩ | ⟨e, f, f', d1, d2⟩
    · exact Or.inl ⟨f, f', x ++ y, x' ++ y', d1, d2, l1, by rw [l2, k2, List.append_assoc], by rw [l3, k3, List.append_assoc],
        hT _ _ _ _ k4 l4⟩
    · exact Or.inr ⟨e, f, f', d1, d2⟩
  · right
    refine ⟨e, g, g', ?_, ?_⟩
    · unfold M.bind; rw [e1]
    · unfold M.bind; rw [e2]

theorem LockAs.bind {m m' n n' : HelpM} (h1 : Lock m m') (h2 : Lock n n') : Lock (M.bind m fun _ => n) (M.bind m' fun _ => n') :=
  h1.join h2 fun _ _ _ _ => adorned_append

theorem LockAs.mono {R S : Str → Str → Prop} {m m' : HelpM} (h : LockAs R m m') (hR : ∀ a b, R a b → S a b) : LockAs S m m' := by
  intro a b hp
  rcases h a b hp with ⟨g, g', x, x', e1, e2, k1, k2, k3, k4⟩ | h
  · exact Or.inl ⟨g, g', x, x', e1, e2, k1, k2, k3, hR _ _ k4⟩
  · exact Or.inr h

theorem lock_emit {s t : Str} (h : Adorned true s t) : Lock (emit s) (emit t) :=
  fun _ _ hp => Or.inl ⟨_, _, s, t, rfl, rfl, hp, rfl, rfl, h⟩

theorem lock_same (s : Str) : Lock (emit s) (emit s) := lock_emit (adorned_refl _ s)

theorem lock_nothing : Lock (M.pure ()) (M.pure ()) :=
  fun _ _ hp => Or.inl ⟨_, _, [], [], rfl, rfl, hp, (List.append_nil _).symm, (List.append_nil _).symm, .nil⟩

theorem lock_setParagraph (b : Bool) : Lock (setParagraph b) (setParagraph b) :=
  fun _ _ _ => Or.inl ⟨_, _, [], [], rfl, rfl, rfl, (List.append_nil _).symm, (List.append_nil _).symm, .nil⟩

theorem lock_paragraphBreak : Lock paragraphBreak paragraphBreak := by
  intro h h' hp
  refine Or.inl ⟨_, _, _, _, rfl, rfl, hp, rfl, rfl, ?_⟩
  rw [hp]
  exact adorned_refl _ _

/-- Two consoles that differ in the terminal only. -/
structure OnAndOff (c c' : Console) : Prop where
  ndebug : c.ndebug = c'.ndebug
  layout : c.layout = c'.layout
  on : c.tty = true
  off : c'.tty = false

variable {c c' : Console}

/-- A word with fonts, and the word without. -/
def WordTwin (nd : Bool) (u w : Str) : Prop := (Complete u ↔ Complete w) ∧
  ∀ a b, toText nd true u = .ok a → toText nd false w = .ok b → Adorned true a b

theorem wordTwin_self (nd : Bool) (w : Str) : WordTwin nd w w := by
  refine ⟨Iff.rfl, fun a b ha hb => ?_⟩
  obtain ⟨v, h1, h2⟩ := console_adorned (toText_console _ _ _ _ ha)
  rw [console_functional (toText_console _ _ _ _ hb) h1]
  exact h2

theorem lock_word (h : OnAndOff c c') {u w : Str} (hw : WordTwin c.ndebug u w) : Lock (emitText c u) (emitText c' w) := by
  unfold emitText
  rw [h.on, h.off, ← h.ndebug]
  cases hu : toText c.ndebug true u with
  | ok a =>
    have : Complete u := (toText_ok_iff _ _ _).1 ⟨a, hu⟩
    obtain ⟨b, hb⟩ := (toText_ok_iff c.ndebug false w).2 (hw.1.1 this)
    rw [hb]
    exact lock_emit (hw.2 a b hu hb)
  | error e =>
    cases hb : toText c.ndebug false w with
    | ok b =>
      have : Complete w := (toText_ok_iff _ _ _).1 ⟨b, hb⟩
      obtain ⟨a, ha⟩ := (toText_ok_iff c.ndebug true u).2 (hw.1.2 this)
      rw [hu] at ha
      cases ha
    | error e' =>
      intro h h' _
      rw [toText_error hu, toText_error hb]
      exact Or.inr ⟨_, _, _, rfl, rfl⟩

theorem lock_printWords (h : OnAndOff c c') (tab pos : Nat) (ws : List Str) : Lock (printWords c tab pos ws) (printWords c' tab pos ws) := by
  induction ws generalizing pos with
  | nil => exact lock_nothing
  | cons w ws ih =>
    unfold printWords
    rw [h.layout]
    split
    · exact (lock_same _).bind ((lock_word h (wordTwin_self _ w)).bind (ih _))
    · exact (lock_same _).bind ((lock_word h (wordTwin_self _ w)).bind (ih _))

theorem lock_printText (h : OnAndOff c c') (t : Str) (tab : Nat) : Lock (printText c t tab) (printText c' t tab) := by
  unfold printText
  cases words t with
  | nil => exact lock_nothing
  | cons w ws =>
    refine (lock_word h (wordTwin_self _ w)).bind (LockAs.bind ?_ (lock_same _))
    rw [h.layout]
    split
    · exact (lock_same _).bind (lock_printWords h _ _ ws)
    · exact lock_printWords h _ _ ws

/-- The room that words need in a line, with a blank before each. -/
def room : List Str → Nat
  | [] => 0
  | w :: ws => 1 + textWidth w + room ws

theorem lock_printWords_fit (h : OnAndOff c c') (tab pos pos' : Nat) {us ws : List Str} (hw : List.Forall₂ (WordTwin c.ndebug) us ws)
    (h1 : pos + room us ≤ c.layout.screenWidth) (h2 : pos' + room ws ≤ c.layout.screenWidth) :
    Lock (printWords c tab pos us) (printWords c' tab pos' ws) := by
  induction hw generalizing pos pos' with
  | nil => exact lock_nothing
  | cons hw _ ih =>
    unfold room at h1 h2
    unfold printWords
    rw [if_neg (by omega), ← h.layout, if_neg (by omega)]
    exact (lock_same _).bind ((lock_word h hw).bind (ih _ _ (by omega) (by omega)))

theorem lock_printText_fit (h : OnAndOff c c') (t s : Str) (tab : Nat) (hw : List.Forall₂ (WordTwin c.ndebug) (words t) (words s))
    (h1 : tab + room (words t) ≤ c.layout.screenWidth + 1) (h2 : tab + room (words s) ≤ c.layout.screenWidth + 1) :
    Lock (printText c t tab) (printText c' s tab) := by
  unfold printText
  generalize words t = us at hw h1
  generalize words s = ws at hw h2
  cases hw with
  | nil => exact lock_nothing
  | cons hw hws =>
    unfold room at h1 h2
    dsimp only
    rw [if_neg (by omega), ← h.layout, if_neg (by omega)]
    exact (lock_word h hw).bind ((lock_printWords_fit h _ _ _ hws (by omega) (by omega)).bind (lock_same _))

theorem textWidth_le (s : Str) : textWidth s ≤ s.length := by
  generalize hn : s.length = n
  induction n using Nat.strongRecOn generalizing s with
  | ind n ih =>
    subst hn
    rw [textWidth.eq_def]
    cases s with
    | nil => simp
    | cons c s =>
      dsimp only
      split
      · have := ih s.length (by simp) s rfl
        simp only [List.length_cons]; omega
      · cases s with
        | nil => simp
        | cons d s =>
          dsimp only
          split
          · have := ih s.length (by simp; omega) s rfl
            simp only [List.length_cons]; omega
          · cases s with
            | nil => simp
            | cons e s =>
              dsimp only
              have h0 := ih s.length (by simp; omega) s rfl
              have h1 := ih (d :: e :: s).length (by simp) (d :: e :: s) rfl
              simp only [List.length_cons] at h1 ⊢
              split
              · split
                · omega
                · omega
              · omega

theorem room_wordsFrom (cur s : Str) : room (wordsFrom cur s) ≤ cur.length + s.length + 1 := by
  induction s generalizing cur with
  | nil =>
    unfold wordsFrom
    split
    · simp [room]
    · have := textWidth_le cur
      simp only [room, List.length_nil]; omega
  | cons c s ih =>
    unfold wordsFrom
    split
    · split
      · have := ih []
        simp only [List.length_nil, List.length_cons] at this ⊢; omega
      · have := ih []
        have := textWidth_le cur
        simp only [room, List.length_nil, List.length_cons] at *; omega
    · have := ih (cur ++ [c])
      simp only [List.length_append, List.length_cons, List.length_nil] at *; omega

theorem room_words (s : Str) : room (words s) ≤ s.length + 1 := by
  have := room_wordsFrom [] (s.takeWhile fun c => c ≠ '\x00')
  have h2 : (s.takeWhile fun c => c ≠ '\x00').length ≤ s.length := (List.takeWhile_sublist _).length_le
  unfold words
  simp only [List.length_nil] at this
  omega

theorem toText_prefix {nd tty : Bool} (m : Str) (h : '\\' ∉ m) (w : Str) : toText nd tty (m ++ w) = prependTo m (toText nd tty w) := by
  induction m with
  | nil => rw [List.nil_append]; cases toText nd tty w <;> rfl
  | cons c m ih =>
    simp only [List.mem_cons, not_or] at h
    rw [List.cons_append, toText_char nd tty (Ne.symm h.1), ih h.2]
    cases toText nd tty w <;> rfl

theorem wordTwin_mark (nd : Bool) {d : Char} (hd : d ∈ ['0', '1', '4']) (w : Str) : WordTwin nd (ansi true d ++ w) w := by
  have hs : '\\' ∉ ansi true d := fun hc => (ansi_chars true hd _ hc).2.2 rfl
  refine ⟨complete_prefix hs w, fun a b ha hb => ?_⟩
  rw [toText_prefix _ hs] at ha
  obtain ⟨u, h1, rfl⟩ := prependTo_split ha
  exact adorned_append (adorned_ansi true hd) ((wordTwin_self nd w).2 u b h1 hb)

/-- A mark before a text that begins with a word. -/
theorem words_mark_word {d : Char} (hd : d ∈ ['0', '1', '4']) {c : Char} {z : Str} (hc : c ∉ blank) (h0 : c ≠ '\x00') :
    ∃ w ws, words (c :: z) = w :: ws ∧ words (ansi true d ++ c :: z) = (ansi true d ++ w) :: ws := by
  have hch := ansi_chars true hd
  unfold words
  rw [List.takeWhile_append_of_pos (by intro x hx; simpa using (hch x hx).2.1), wordsFrom_noblank _ _ _ fun x hx => (hch x hx).1,
    List.nil_append, List.takeWhile_cons_of_pos (by simpa using h0)]
  have hc : ¬ isSpace c = true := by
    simp only [blank, List.mem_cons, List.not_mem_nil, or_false, not_or] at hc
    simp [isSpace, hc]
  obtain ⟨w, ws, h1, h2⟩ := wordsFrom_more (ansi true d) [c] (by simp) (z.takeWhile fun c => c ≠ '\x00')
  refine ⟨w, ws, ?_, ?_⟩
  · rw [wordsFrom, if_neg hc]; exact h1
  · rw [wordsFrom, if_neg hc]; exact h2

theorem forall₂_wordTwin (nd : Bool) (l : List Str) : List.Forall₂ (WordTwin nd) l l := by
  induction l with
  | nil => exact .nil
  | cons w l ih => exact .cons (wordTwin_self nd w) ih

theorem twin_mark_word (nd : Bool) {d : Char} (hd : d ∈ ['0', '1', '4']) {c : Char} {z : Str} (hc : c ∉ blank) (h0 : c ≠ '\x00') :
    List.Forall₂ (WordTwin nd) (words (ansi true d ++ c :: z)) (words (c :: z)) := by
  obtain ⟨w, ws, h1, h2⟩ := words_mark_word hd (z := z) hc h0
  rw [h1, h2]
  exact .cons (wordTwin_mark nd hd w) (forall₂_wordTwin nd ws)

/-- A line with a bold label that fits. -/
theorem lock_label (h : OnAndOff c c') {width : Nat} (hs : c.layout.screenWidth = usedWidth width - 2) (tab : Nat) (htab : tab = 4)
    {label x y : Str} (hl : label = x ++ [' ']) (hfit : FitsInLine width (label, y)) :
    Lock (printText c (inBold c label ++ y) tab) (printText c' (inBold c' label ++ y) tab) := by
  have e1 : inBold c label = ansi true '1' ++ label ++ ansi true '0' := by unfold inBold; rw [h.on]
  have e2 : inBold c' label = label := by
    unfold inBold ansi
    rw [h.off]
    simp
  obtain ⟨⟨cl, sl, hl1, hl2⟩, ⟨cy, sy, hy1, hy2⟩, hz, hw⟩ := hfit
  dsimp only at hl1 hy1 hz hw
  have hzx : '\x00' ∉ x := fun hc => hz (by rw [hl]; simp [hc])
  have hcy : cy ≠ '\x00' := fun hc => hz (by rw [hy1, hc]; simp)
  have hcl : cl ≠ '\x00' := fun hc => hz (by rw [hl1, hc]; simp)
  rw [e1, e2]
  have len1 : (ansi true '1' ++ label ++ ansi true '0' ++ y).length = label.length + y.length + 8 := by
    simp only [ansi, if_true, List.length_append, List.length_cons, List.length_nil]; omega
  refine lock_printText_fit h _ _ tab ?_ ?_ ?_
  · have d1 : ansi true '1' ++ label ++ ansi true '0' ++ y = (ansi true '1' ++ x) ++ ' ' :: (ansi true '0' ++ y) := by rw [hl]; simp
    have d2 : label ++ y = x ++ ' ' :: y := by rw [hl]; simp
    have hzm : '\x00' ∉ ansi true '1' ++ x := by
      intro hc
      rcases List.mem_append.1 hc with hc | hc
      · exact (ansi_chars true (d := '1') (by simp) _ hc).2.1 rfl
      · exact hzx hc
    rw [d1, d2, words_space hzm, words_space hzx]
    refine forall₂_append ?_ ?_
    · cases x with
      | nil =>
        rw [hl] at hl1
        injection hl1 with hh
        exact absurd (by rw [← hh]; decide) hl2
      | cons a x =>
        rw [hl] at hl1
        injection hl1 with hh
        subst hh
        exact twin_mark_word _ (by simp) hl2 hcl
    · rw [hy1]
      exact twin_mark_word _ (by simp) hy2 hcy
  · have := room_words (ansi true '1' ++ label ++ ansi true '0' ++ y)
    rw [len1] at this
    omega
  · have := room_words (label ++ y)
    rw [List.length_append] at this
    omega

/-- The line about the copyright. -/
theorem lock_hint (h : OnAndOff c c') (hs : 75 ≤ c.layout.screenWidth) (tab : Nat) (htab : tab = 4) :
    Lock (printText c ("For full copyright and/or warranty information see ".toList ++ inBold c "--copyright".toList ++ ['.']) tab)
      (printText c' ("For full copyright and/or warranty information see ".toList ++ inBold c' "--copyright".toList ++ ['.']) tab) := by
  have e1 : inBold c "--copyright".toList = ansi true '1' ++ "--copyright".toList ++ ansi true '0' := by unfold inBold; rw [h.on]
  have e2 : inBold c' "--copyright".toList = "--copyright".toList := by
    unfold inBold
    rw [h.off]
    decide +kernel
  rw [e1, e2]
  have hw : words ("For full copyright and/or warranty information see ".toList ++
      (ansi true '1' ++ "--copyright".toList ++ ansi true '0') ++ ['.']) =
      ["For".toList, "full".toList, "copyright".toList, "and/or".toList, "warranty".toList, "information".toList, "see".toList]
      ++ ["\x1b[1m--copyright\x1b[0m.".toList] := by decide +kernel
  have hw' : words ("For full copyright and/or warranty information see ".toList ++ "--copyright".toList ++ ['.']) =
      ["For".toList, "full".toList, "copyright".toList, "and/or".toList, "warranty".toList, "information".toList, "see".toList]
      ++ ["--copyright.".toList] := by decide +kernel
  refine lock_printText_fit h _ _ tab ?_ ?_ ?_
  · rw [hw, hw']
    refine forall₂_append (forall₂_wordTwin _ _) (.cons ⟨?_, ?_⟩ .nil)
    · exact iff_of_true ((toText_ok_iff true true _).1 ⟨"\x1b[1m--copyright\x1b[0m.".toList, by decide +kernel⟩)
        ((toText_ok_iff true true _).1 ⟨"--copyright.".toList, by decide +kernel⟩)
    · intro a b ha hb
      have hc : ConsoleText true "\x1b[1m--copyright\x1b[0m.".toList "\x1b[1m--copyright\x1b[0m.".toList := toText_console true true _ _ (by decide +kernel)
      have hc' : ConsoleText false "--copyright.".toList "--copyright.".toList := toText_console true false _ _ (by decide +kernel)
      rw [console_functional (toText_console _ _ _ _ ha) hc, console_functional (toText_console _ _ _ _ hb) hc']
      have := adorned_append (adorned_append (adorned_append (adorned_ansi true (d := '1') (by simp)) (adorned_refl true "--copyright".toList))
        (adorned_ansi true (d := '0') (by simp))) (adorned_refl true ".".toList)
      have e1 : ansi true '1' ++ "--copyright".toList ++ ansi true '0' ++ ".".toList = "\x1b[1m--copyright\x1b[0m.".toList := by
        decide +kernel
      have e2 : [] ++ "--copyright".toList ++ [] ++ ".".toList = "--copyright.".toList := by decide +kernel
      rw [e1, e2] at this
      exact this
  · rw [hw]
    have : room (["For".toList, "full".toList, "copyright".toList, "and/or".toList, "warranty".toList, "information".toList, "see".toList]
      ++ ["\x1b[1m--copyright\x1b[0m.".toList]) = 72 := by decide +kernel
    omega
  · rw [hw']
    have : room (["For".toList, "full".toList, "copyright".toList, "and/or".toList, "warranty".toList, "information".toList, "see".toList]
      ++ ["--copyright.".toList]) = 64 := by decide +kernel
    omega

theorem lock_bold (h : OnAndOff c c') (s : Str) : Adorned true (inBold c s) (inBold c' s) := by
  unfold inBold ansi
  rw [h.on, h.off]
  have := adorned_append (adorned_append (adorned_ansi true (d := '1') (by simp)) (adorned_refl true s)) (adorned_ansi true (d := '0') (by simp))
  simpa [ansi] using this

theorem lock_block (h : OnAndOff c c') (b : Block) : Lock (helpBlock c b) (helpBlock c' b) := by
  cases b with
  | sec t =>
    refine (lock_emit ?_).bind (lock_setParagraph _)
    have := adorned_append (adorned_append (adorned_refl true ['\n']) (lock_bold h (t.map upperChar))) (adorned_refl true ['\n'])
    simpa [inBold] using this
  | subsec t =>
    refine (lock_emit ?_).bind (lock_setParagraph _)
    rw [h.layout]
    exact adorned_append (adorned_append (adorned_refl true _) (lock_bold h t)) (adorned_refl true _)
  | line t p =>
    unfold helpBlock helpLine
    dsimp only
    rw [h.layout]
    exact lock_paragraphBreak.bind ((lock_same _).bind ((lock_printText h t _).bind (lock_setParagraph p)))
  | item k d =>
    unfold helpBlock helpItem
    dsimp only
    rw [h.layout]
    exact lock_paragraphBreak.bind ((lock_same _).bind ((lock_word h (wordTwin_self _ k)).bind ((lock_same _).bind
      ((lock_printText h d _).bind (lock_setParagraph false)))))

theorem lock_line_of_text (h : OnAndOff c c') {t s : Str} (p : Bool) (hl : c.layout.leftPadding = 4)
    (ht : Lock (printText c t 4) (printText c' s 4)) : Lock (helpBlock c (.line t p)) (helpBlock c' (.line s p)) := by
  unfold helpBlock helpLine
  dsimp only
  rw [← h.layout, hl]
  exact lock_paragraphBreak.bind ((lock_same _).bind (ht.bind (lock_setParagraph p)))

/-- How an element is printed on the terminal and into the file. -/
def PrintedAlike (c c' : Console) (R : Str → Str → Prop) (b s : Block) : Prop := LockAs R (helpBlock c b) (helpBlock c' s)

/-- Print calls one by one; `R` relates what is printed for an element of the page in the file. -/
inductive LockSteps (c c' : Console) (R : Block → Str → Str → Prop) : List Step → List Step → Prop
  | nil : LockSteps c c' R [] []
  | ok {b s : Block} {l l' : List Step} : PrintedAlike c c' (R s) b s → LockSteps c c' R l l' → LockSteps c c' R (.ok b :: l) (.ok s :: l')
  | error (e : Exn) {l l' : List Step} : LockSteps c c' R l l' → LockSteps c c' R (.error e :: l) (.error e :: l')

variable {R : Block → Str → Str → Prop}

theorem lockSteps_append {a a' b b' : List Step} (h1 : LockSteps c c' R a a') (h2 : LockSteps c c' R b b') :
    LockSteps c c' R (a ++ b) (a' ++ b') := by
  induction h1 with
  | nil => exact h2
  | ok h _ ih => exact .ok h ih
  | error e _ ih => exact .error e ih

theorem lockSteps_self (h : OnAndOff c c') (hR : ∀ b x y, Adorned true x y → R b x y) (l : List Step) : LockSteps c c' R l l := by
  induction l with
  | nil => exact .nil
  | cons x l ih =>
    cases x with
    | ok b => exact .ok ((lock_block h b).mono (hR b)) ih
    | error e => exact .error e ih

/-- What the print calls leave: a part for each element. -/
theorem lock_steps (app : Str) (m : Meta) {l l' : List Step} (h : LockSteps c c' R l l') :
    LockAs (fun x x' => ∃ parts : List (Block × Str × Str), l' = parts.map (fun q => .ok q.1) ∧ x = (parts.map (·.2.1)).flatten ∧
        x' = (parts.map (·.2.2)).flatten ∧ ∀ q ∈ parts, R q.1 q.2.1 q.2.2)
      ((helpPrinter c app m).steps l) ((helpPrinter c' app m).steps l') := by
  induction h with
  | nil => exact fun _ _ hp => Or.inl ⟨_, _, [], [], rfl, rfl, hp, (List.append_nil _).symm, (List.append_nil _).symm, [], rfl, rfl, rfl,
      fun _ h => by cases h⟩
  | @ok b s l l' h _ ih =>
    refine LockAs.join h ih ?_
    rintro a a' _ _ h1 ⟨parts, rfl, rfl, rfl, h5⟩
    refine ⟨(s, a, a') :: parts, rfl, rfl, rfl, fun q hq => ?_⟩
    rcases List.mem_cons.1 hq with rfl | hq
    · exact h1
    · exact h5 q hq
  | error e _ ih => exact fun _ _ _ => Or.inr ⟨e, _, _, rfl, rfl⟩

theorem lock_run {m m' : HelpM} {R : Str → Str → Prop} (h : LockAs R m m') :
    (runHelp m).1 = (runHelp m').1 ∧ ((runHelp m).1 = none → R (runHelp m).2 (runHelp m').2) := by
  unfold runHelp
  rcases h ⟨[], false⟩ ⟨[], false⟩ rfl with ⟨g, g', x, x', e1, e2, -, k1, k2, k3⟩ | ⟨e, g, g', e1, e2⟩
  · rw [e1, e2]
    refine ⟨rfl, fun _ => ?_⟩
    show R g.out g'.out
    rw [k1, k2]
    exact k3
  · rw [e1, e2]
    exact ⟨rfl, fun h => by cases h⟩

/-! ### Pages -/

theorem lockSteps_blocks {bs ss : List Block} (h : List.Forall₂ (fun b s => PrintedAlike c c' (R s) b s) bs ss) :
    LockSteps c c' R (bs.map .ok) (ss.map .ok) := by
  induction h with
  | nil => exact .nil
  | cons h _ ih => exact .ok h ih

theorem forall₂_lock (h : OnAndOff c c') (hR : ∀ b x y, Adorned true x y → R b x y) (l : List Block) :
    List.Forall₂ (fun b s => PrintedAlike c c' (R s) b s) l l := by
  induction l with
  | nil => exact .nil
  | cons b l ih => exact .cons ((lock_block h b).mono (hR b)) ih

theorem forall₂_if {R : Block → Block → Prop} (q : Prop) [Decidable q] {a b : Block} (h : q → R a b) :
    List.Forall₂ R (if q then [a] else []) (if q then [b] else []) := by
  split
  · rename_i hq; exact .cons (h hq) .nil
  · exact .nil

theorem onAndOff_terminal (pe : PageEnv) (width : Nat) :
    OnAndOff (onTerminal pe true width).console (onTerminal pe false width).console := ⟨rfl, rfl, rfl, rfl⟩

theorem screenWidth_used (width : Nat) : (mkLayout width).screenWidth = usedWidth width - 2 ∧ 40 ≤ usedWidth width := by
  unfold mkLayout usedWidth usub
  dsimp only
  split <;> split <;> (try split) <;> (try split) <;> omega

/-- Any line on the terminal and into the file, with bold parts. -/
theorem alike_words (pe pe' : PageEnv) (f : Format) (h1 : f ≠ .html) (h2 : f ≠ .man) (hn : pe.build.ndebug = pe'.build.ndebug) {t t' s : Str}
    {p : Bool} (h : Twin pe f (.line t p) (.line s p)) (h' : Twin pe' f (.line t' p) (.line s p)) :
    PrintedAlike pe.console pe'.console (SameWords pe.tty pe'.tty) (.line t p) (.line t' p) := by
  intro g g' _
  have hc : pe.console.ndebug = pe'.console.ndebug := hn
  have f1 := fate_block pe.console (.line t p) g
  have f2 := fate_block pe'.console (.line t' p) g'
  rw [twin_fate _ pe f h1 h2 h] at f1
  rw [twin_fate _ pe' f h1 h2 h', ← hc] at f2
  have para : ∀ (c : Console) (x : Str) (a b : HelpState), helpBlock c (.line x p) a = .ok () b → b.prevWasParagraph = p := by
    intro c x a b e
    unfold helpBlock helpLine at e
    rw [M.bind_eq_ok] at e
    obtain ⟨_, _, -, e⟩ := e
    rw [M.bind_eq_ok] at e
    obtain ⟨_, _, -, e⟩ := e
    rw [M.bind_eq_ok] at e
    obtain ⟨_, _, -, e⟩ := e
    cases e
    rfl
  cases e1 : helpBlock pe.console (.line t p) g with
  | err e a =>
    rw [e1] at f1
    cases e2 : helpBlock pe'.console (.line t' p) g' with
    | err e' b =>
      rw [e2, ← f1] at f2
      cases f2
      exact Or.inr ⟨_, _, _, rfl, rfl⟩
    | ok u b => rw [e2, ← f1] at f2; cases f2
  | ok u a =>
    rw [e1] at f1
    cases e2 : helpBlock pe'.console (.line t' p) g' with
    | err e' b => rw [e2, ← f1] at f2; cases f2
    | ok u b =>
      obtain ⟨x, k1, k2⟩ := prints_helpBlock pe (.line t p) g a e1
      obtain ⟨y, l1, l2⟩ := prints_helpBlock pe' (.line t' p) g' b e2
      obtain ⟨a1, ws, a2, a3, a4⟩ := element_shows pe f h1 h2 h k2
      obtain ⟨b1, vs, b2, b3, b4⟩ := element_shows pe' f h1 h2 h' l2
      rw [blockShows_functional b4 a4] at b3
      exact Or.inl ⟨a, b, x, y, rfl, rfl, by rw [para _ _ _ _ e1, para _ _ _ _ e2], k1, l1, a1, b1, ws, a2, b2, closed_words a3, closed_words b3⟩

variable {bold : List (Str × Str)}

theorem inBold_off (pe : PageEnv) (width : Nat) (s : Str) : inBold (onTerminal pe false width).console s = s := by
  have : (onTerminal pe false width).console.tty = false := rfl
  unfold inBold ansi
  rw [this]
  simp

theorem alike_labelled (pe : PageEnv) (width : Nat) {label y : Str} (hl : ∃ x, label = x ++ [' ']) (hm : (label, y) ∈ bold) :
    PrintedAlike (onTerminal pe true width).console (onTerminal pe false width).console
      (PartAlike width bold (.line (inBold (onTerminal pe false width).console label ++ y) false))
      (.line (inBold (onTerminal pe true width).console label ++ y) false)
      (.line (inBold (onTerminal pe false width).console label ++ y) false) := by
  obtain ⟨x, hx⟩ := hl
  by_cases hfit : FitsInLine width (label, y)
  · exact (lock_line_of_text (onAndOff_terminal pe width) false rfl
      (lock_label (onAndOff_terminal pe width) (screenWidth_used width).1 4 rfl hx hfit)).mono fun _ _ h => Or.inl h
  · have tw : ∀ tty, Twin (onTerminal pe tty width) .version (.line (inBold (onTerminal pe tty width).console label ++ y) false)
        (.line (label ++ y) false) := by
      intro tty
      have := label_twin (onTerminal pe tty width) .version x y label hx false
      rw [boldText_eq _ _ _ (by simp) (by simp)] at this
      exact this
    refine LockAs.mono (alike_words (onTerminal pe true width) (onTerminal pe false width) .version (by simp) (by simp) rfl (tw true) (tw false))
      fun a b h => Or.inr ⟨h, Or.inl ⟨(label, y), hm, hfit, ?_⟩⟩
    rw [inBold_off]

theorem alike_hint (pe : PageEnv) (width : Nat) :
    PrintedAlike (onTerminal pe true width).console (onTerminal pe false width).console
      (PartAlike width bold (.line ("For full copyright and/or warranty information see ".toList
        ++ inBold (onTerminal pe false width).console "--copyright".toList ++ ".".toList) false))
      (.line ("For full copyright and/or warranty information see ".toList
        ++ inBold (onTerminal pe true width).console "--copyright".toList ++ ".".toList) false)
      (.line ("For full copyright and/or warranty information see ".toList
        ++ inBold (onTerminal pe false width).console "--copyright".toList ++ ".".toList) false) := by
  by_cases hw : 77 ≤ usedWidth width
  · refine (lock_line_of_text (onAndOff_terminal pe width) false rfl (lock_hint (onAndOff_terminal pe width) ?_ 4 rfl)).mono fun _ _ h => Or.inl h
    have h1 := (screenWidth_used width).1
    show 75 ≤ (mkLayout width).screenWidth
    omega
  · have tw : ∀ tty, Twin (onTerminal pe tty width) .version
        (.line ("For full copyright and/or warranty information see ".toList
          ++ inBold (onTerminal pe tty width).console "--copyright".toList ++ ".".toList) false)
        (.line ("For full copyright and/or warranty information see ".toList ++ "--copyright".toList ++ ['.']) false) := by
      intro tty
      have := Twin.hint (pe := onTerminal pe tty width) (f := .version)
      rw [boldText_eq _ _ _ (by simp) (by simp)] at this
      exact this
    refine LockAs.mono (alike_words (onTerminal pe true width) (onTerminal pe false width) .version (by simp) (by simp) rfl (tw true) (tw false))
      fun a b h => Or.inr ⟨h, Or.inr ⟨by omega, ?_⟩⟩
    rw [inBold_off]
    congr 1

theorem label_fixed (s : String) (x : Str) (h : s.toList = x ++ [' ']) : ∃ x, s.toList = x ++ [' '] := ⟨x, h⟩

theorem label_app (app : Str) (s : String) (x : Str) (h : s.toList = x ++ [' ']) : ∃ y, app ++ s.toList = y ++ [' '] :=
  ⟨app ++ x, by rw [h, List.append_assoc]⟩

theorem alike_version (pe : PageEnv) (width : Nat) (app : Str) (hb : ∀ x ∈ versionLines pe app, x ∈ bold) :
    List.Forall₂ (fun b s => PrintedAlike (onTerminal pe true width).console (onTerminal pe false width).console (PartAlike width bold s) b s)
      (versionBlocks pe.build (inBold (onTerminal pe true width).console) app pe.info)
      (versionBlocks pe.build (inBold (onTerminal pe false width).console) app pe.info) := by
  unfold versionBlocks
  unfold versionLines at hb
  refine forall₂_append (forall₂_append (.cons ((lock_block (onAndOff_terminal pe width) _).mono fun _ _ => Or.inl)
    (.cons (alike_labelled pe width (label_fixed _ "Last update:".toList (by decide +kernel)) (hb _ (by simp)))
    (.cons (alike_labelled pe width (label_app _ _ " version:".toList (by decide +kernel)) (hb _ (by simp)))
    (.cons (alike_labelled pe width (label_fixed _ "Sharg version:".toList (by decide +kernel)) (hb _ (by simp))) .nil)))) ?_)
    (forall₂_lock (onAndOff_terminal pe width) (fun _ _ _ => Or.inl) _)
  cases hv : pe.build.seqanVersion with
  | none => exact .nil
  | some v =>
    exact .cons (alike_labelled pe width (label_fixed _ "SeqAn version:".toList (by decide +kernel)) (hb _ (by simp [hv]))) .nil

theorem alike_legal (pe : PageEnv) (width : Nat) (app : Str)
    (hb : ∀ x ∈ (if legalSupplied pe.info then legalLines pe app else []), x ∈ bold) :
    List.Forall₂ (fun b s => PrintedAlike (onTerminal pe true width).console (onTerminal pe false width).console (PartAlike width bold s) b s)
      (legalBlocks (inBold (onTerminal pe true width).console) app pe.info)
      (legalBlocks (inBold (onTerminal pe false width).console) app pe.info) := by
  unfold legalBlocks
  split
  · rename_i hs
    have hs : legalSupplied pe.info = true := by
      unfold legalSupplied
      simp only [List.any_cons, List.any_nil, Bool.or_false, Bool.or_eq_true, Bool.not_eq_true', List.isEmpty_eq_false_iff]
      exact hs
    rw [if_pos hs] at hb
    have hmem : ∀ {l y : Str}, y ≠ [] → (l, y) ∈ [(app ++ " Copyright: ".toList, pe.info.shortCopyright), ("Author: ".toList, pe.info.author),
        ("Contact: ".toList, pe.info.email),
        ("SeqAn Copyright: ".toList, "2006-2024 Knut Reinert, FU-Berlin; released under the 3-clause BSDL.".toList),
        ("In your academic works please cite: ".toList, pe.info.citation)] → (l, y) ∈ bold := by
      intro l y hy hm
      refine hb _ (List.mem_filter.2 ⟨hm, ?_⟩)
      cases y with
      | nil => exact absurd rfl hy
      | cons => rfl
    have m0 := fun (a b c d e : Str × Str) => show a ∈ [a, b, c, d, e] from List.mem_cons_self
    have m1 := fun (a b c d e : Str × Str) => show b ∈ [a, b, c, d, e] from List.mem_cons_of_mem _ List.mem_cons_self
    have m2 := fun (a b c d e : Str × Str) => show c ∈ [a, b, c, d, e] from List.mem_cons_of_mem _ (List.mem_cons_of_mem _ List.mem_cons_self)
    have m3 := fun (a b c d e : Str × Str) => show d ∈ [a, b, c, d, e] from
      List.mem_cons_of_mem _ (List.mem_cons_of_mem _ (List.mem_cons_of_mem _ List.mem_cons_self))
    have m4 := fun (a b c d e : Str × Str) => show e ∈ [a, b, c, d, e] from
      List.mem_cons_of_mem _ (List.mem_cons_of_mem _ (List.mem_cons_of_mem _ (List.mem_cons_of_mem _ List.mem_cons_self)))
    refine forall₂_append (forall₂_append (forall₂_append (forall₂_append (forall₂_append (forall₂_append
      (.cons ((lock_block (onAndOff_terminal pe width) _).mono fun _ _ => Or.inl) .nil) ?_) ?_) ?_) ?_) ?_) ?_
    · exact forall₂_if _ fun h => alike_labelled pe width (label_app _ _ " Copyright:".toList (by decide +kernel)) (hmem h (m0 ..))
    · exact forall₂_if _ fun h => alike_labelled pe width (label_fixed _ "Author:".toList (by decide +kernel)) (hmem h (m1 ..))
    · exact forall₂_if _ fun h => alike_labelled pe width (label_fixed _ "Contact:".toList (by decide +kernel)) (hmem h (m2 ..))
    · exact .cons (alike_labelled pe width (label_fixed _ "SeqAn Copyright:".toList (by decide +kernel))
        (hmem (by decide +kernel) (m3 ..))) .nil
    · exact forall₂_if _ fun h => alike_labelled pe width (label_fixed _ "In your academic works please cite:".toList (by decide +kernel))
        (hmem h (m4 ..))
    · exact forall₂_if _ fun _ => alike_hint pe width
  · exact .nil

end Sharg
