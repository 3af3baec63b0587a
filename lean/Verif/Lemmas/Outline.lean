import Verif.Lemmas.Shown
import Verif.Lemmas.Wrap
import Verif.Lemmas.Explained
import Verif.Lemmas.Pages
import Verif.Spec.Outline

/-!
# What the print calls write
-/

namespace Sharg

open Spec

variable {W σ : Type}

/-! ### Texts -/

theorem char_of_toNat {c : Char} {n : Nat} (h : c.toNat = n) : c = Char.ofNat n := by
  rw [← h, Char.ofNat_toNat]

theorem upperChar_eq (c : Char) : upperChar c = c.toUpper := by
  unfold upperChar
  by_cases h : 'a'.toNat ≤ c.toNat ∧ c.toNat ≤ 'z'.toNat
  · rw [if_pos h]
    obtain ⟨h1, h2⟩ := h
    have h1 : 97 ≤ c.toNat := h1
    have h2 : c.toNat ≤ 122 := h2
    have : ∀ n, 97 ≤ n → n ≤ 122 → Char.ofNat (n - 32) = (Char.ofNat n).toUpper := by
      intro n g1 g2
      have : ∀ m : Fin 26, Char.ofNat (m.val + 97 - 32) = (Char.ofNat (m.val + 97)).toUpper := by decide +kernel
      have := this ⟨n - 97, by omega⟩
      simpa [show n - 97 + 97 = n by omega] using this
    rw [this _ h1 h2, Char.ofNat_toNat]
  · rw [if_neg h]
    unfold Char.toUpper
    rw [dif_neg]
    intro hh
    exact h ⟨hh.1, hh.2⟩

theorem lowerChar_eq (c : Char) : lowerChar c = c.toLower := by
  unfold lowerChar
  by_cases h : 'A'.toNat ≤ c.toNat ∧ c.toNat ≤ 'Z'.toNat
  · rw [if_pos h]
    obtain ⟨h1, h2⟩ := h
    have h1 : 65 ≤ c.toNat := h1
    have h2 : c.toNat ≤ 90 := h2
    have : ∀ n, 65 ≤ n → n ≤ 90 → Char.ofNat (n + 32) = (Char.ofNat n).toLower := by
      intro n g1 g2
      have : ∀ m : Fin 26, Char.ofNat (m.val + 65 + 32) = (Char.ofNat (m.val + 65)).toLower := by decide +kernel
      have := this ⟨n - 65, by omega⟩
      simpa [show n - 65 + 65 = n by omega] using this
    rw [this _ h1 h2, Char.ofNat_toNat]
  · rw [if_neg h]
    unfold Char.toLower
    rw [dif_neg]
    intro hh
    exact h ⟨hh.1, hh.2⟩

theorem prependTo_split {p : Str} {x : Except Exn Str} {t : Str} (h : prependTo p x = .ok t) : ∃ u, x = .ok u ∧ t = p ++ u := by
  cases x with
  | ok u => exact ⟨u, rfl, by cases h; rfl⟩
  | error e => cases h

/-- How the text functions go through a text. -/
theorem markup_cases {P : Str → Prop} (h0 : P []) (hc : ∀ c s, c ≠ '\\' → P s → P (c :: s)) (h1 : P ['\\'])
    (hd : ∀ s, P s → P ('\\' :: '-' :: s)) (hf : P ['\\', 'f']) (hF : ∀ e s, P s → P ('\\' :: 'f' :: e :: s))
    (ho : ∀ d s, d ≠ '-' → d ≠ 'f' → P s → P ('\\' :: d :: s)) (s : Str) : P s := by
  generalize hn : s.length = n
  induction n using Nat.strongRecOn generalizing s with
  | ind n ih =>
    subst hn
    cases s with
    | nil => exact h0
    | cons c s =>
      by_cases g : c = '\\'
      · subst g
        cases s with
        | nil => exact h1
        | cons d s =>
          by_cases g1 : d = '-'
          · subst g1; exact hd s (ih _ (by simp; omega) s rfl)
          by_cases g2 : d = 'f'
          · subst g2
            cases s with
            | nil => exact hf
            | cons e s => exact hF e s (ih _ (by simp; omega) s rfl)
          exact ho d s g1 g2 (ih _ (by simp; omega) s rfl)
      · exact hc c s g (ih _ (by simp) s rfl)

theorem toText_console (nd tty : Bool) (s : Str) : ∀ t, toText nd tty s = .ok t → ConsoleText tty s t := by
  refine markup_cases (P := fun s => ∀ t, toText nd tty s = .ok t → ConsoleText tty s t) ?_ ?_ ?_ ?_ ?_ ?_ ?_ s
  · intro t h; cases h; exact .nil
  · intro c s hc ih t h
    rw [toText_char _ _ hc] at h
    obtain ⟨u, h1, rfl⟩ := prependTo_split h
    exact .char hc (ih u h1)
  · intro t h; rw [toText_end] at h; cases h
  · intro s ih t h
    rw [toText_dash] at h
    obtain ⟨u, h1, rfl⟩ := prependTo_split h
    exact .dash (ih u h1)
  · intro t h; rw [toText_end_f] at h; cases h
  · intro e s ih t h
    rw [toText_font] at h
    obtain ⟨u, h1, rfl⟩ := prependTo_split h
    by_cases g1 : e = 'I'
    · subst g1; exact .font (d := '4') (by simp) (ih u h1)
    by_cases g2 : e = 'B'
    · subst g2; exact .font (d := '1') (by simp) (ih u h1)
    by_cases g3 : e = 'P'
    · subst g3; exact .font (d := '0') (by simp) (ih u h1)
    rw [if_neg g1, if_neg g2, if_neg g3]
    exact .unknown (by simp [g1, g2, g3]) (ih u h1)
  · intro d s g1 g2 ih t h
    rw [toText_escape _ _ g1 g2] at h
    obtain ⟨u, h1, rfl⟩ := prependTo_split h
    exact .other (by simp [g1, g2]) (ih u h1)

theorem toHtmlFrom_html (nd : Bool) (s : Str) : ∀ l t, toHtmlFrom nd l s = .ok t → HtmlText l s t := by
  refine markup_cases (P := fun s => ∀ l t, toHtmlFrom nd l s = .ok t → HtmlText l s t) ?_ ?_ ?_ ?_ ?_ ?_ ?_ s
  · intro l t h; rw [toHtmlFrom.eq_def] at h; cases h; exact .nil
  · intro c s hc ih l t h
    rw [toHtmlFrom_char _ _ hc] at h
    obtain ⟨u, h1, rfl⟩ := prependTo_split h
    exact .char hc (ih l u h1)
  · intro l t h; rw [toHtmlFrom_end] at h; cases h
  · intro s ih l t h
    rw [toHtmlFrom_dash] at h
    obtain ⟨u, h1, rfl⟩ := prependTo_split h
    exact .dash (ih l u h1)
  · intro l t h; rw [toHtmlFrom_end_f] at h; cases h
  · intro e s ih l t h
    by_cases g1 : e = 'I'
    · subst g1
      rw [toHtmlFrom_I] at h
      obtain ⟨u, h1, rfl⟩ := prependTo_split h
      exact .on (e := "em".toList) (by simp) (ih _ u h1)
    by_cases g2 : e = 'B'
    · subst g2
      rw [toHtmlFrom_B] at h
      obtain ⟨u, h1, rfl⟩ := prependTo_split h
      exact .on (e := "strong".toList) (by simp) (ih _ u h1)
    by_cases g3 : e = 'P'
    · subst g3
      cases l with
      | nil => rw [toHtmlFrom_P_none] at h; cases h
      | cons x l =>
        rw [toHtmlFrom_P] at h
        obtain ⟨u, h1, rfl⟩ := prependTo_split h
        exact .off (ih _ u h1)
    rw [toHtmlFrom_unknown _ _ (by simp [g1, g2, g3])] at h
    obtain ⟨u, h1, rfl⟩ := prependTo_split h
    exact .unknown (by simp [g1, g2, g3]) (ih l u h1)
  · intro d s g1 g2 ih l t h
    rw [toHtmlFrom_escape _ _ g1 g2] at h
    obtain ⟨u, h1, rfl⟩ := prependTo_split h
    exact .other (by simp [g1, g2]) (ih l u h1)

theorem words_untilZero (t : Str) : Words (untilZero t) (words t) := by
  have := wordsFrom_spec (t.takeWhile fun c => c ≠ '\x00') [] (by simp)
  simpa [words, untilZero] using this

theorem textWidth_plain {s : Str} (h : '\\' ∉ s) : textWidth s = s.length := by
  induction s with
  | nil => rfl
  | cons c s ih =>
    simp only [List.mem_cons, not_or] at h
    rw [textWidth_char (Ne.symm h.1), ih h.2, List.length_cons]
    omega

/-! ### Actions that append to the output -/

/-- If the action succeeds, then it appends an output as described. -/
def Prints (out : σ → Str) (R : Str → Prop) (m : M σ Unit) : Prop :=
  ∀ h h', m h = .ok () h' → ∃ x, out h' = out h ++ x ∧ R x

variable {out : σ → Str}

theorem Prints.bind {R R₁ R₂ : Str → Prop} {m n : M σ Unit} (h1 : Prints out R₁ m) (h2 : Prints out R₂ n)
    (hR : ∀ a b, R₁ a → R₂ b → R (a ++ b)) : Prints out R (M.bind m fun _ => n) := by
  intro h h' hh
  rw [M.bind_eq_ok] at hh
  obtain ⟨u, h₁, e1, e2⟩ := hh
  obtain ⟨x, a1, a2⟩ := h1 _ _ e1
  obtain ⟨y, b1, b2⟩ := h2 _ _ e2
  exact ⟨x ++ y, by rw [b1, a1, List.append_assoc], hR _ _ a2 b2⟩

theorem Prints.mono {R S : Str → Prop} {m : M σ Unit} (h : Prints out R m) (hR : ∀ x, R x → S x) : Prints out S m := by
  intro a b e
  obtain ⟨x, h1, h2⟩ := h a b e
  exact ⟨x, h1, hR x h2⟩

theorem prints_modify {R : Str → Prop} {f : σ → σ} {g : σ → Str} (h : ∀ s, out (f s) = out s ++ g s) (hR : ∀ s, R (g s)) :
    Prints out R (M.modify f) := by
  intro a b e
  cases e
  exact ⟨g a, h a, hR a⟩

theorem prints_pure : Prints out (· = []) (M.pure ()) := by
  intro a b e
  cases e
  exact ⟨[], by simp, rfl⟩

theorem prints_throw (R : Str → Prop) (e : Exn) : Prints out R (M.throw e) := by
  intro a b h
  cases h

theorem prints_steps (pr : Printer σ) {R : Block → Str → Prop} (h : ∀ b, Prints out (R b) (pr.block b)) (bs : List Block) :
    Prints out (fun x => ∃ os, List.Forall₂ R bs os ∧ x = os.flatten) (pr.steps (bs.map .ok)) := by
  induction bs with
  | nil => exact fun a b e => by cases e; exact ⟨[], by simp, [], .nil, rfl⟩
  | cons b bs ih =>
    refine (h b).bind ih ?_
    rintro x y hx ⟨os, h1, rfl⟩
    exact ⟨x :: os, .cons hx h1, rfl⟩

/-- Print calls that all succeed. -/
theorem steps_ok (pr : Printer σ) {l : List Step} {s s' : σ} (h : pr.steps l s = .ok () s') : ∃ bs : List Block, l = bs.map .ok := by
  induction l generalizing s with
  | nil => exact ⟨[], rfl⟩
  | cons x l ih =>
    have h : M.bind (pr.step x) (fun _ => pr.steps l) s = .ok () s' := h
    rw [M.bind_eq_ok] at h
    obtain ⟨u, s1, e1, e2⟩ := h
    obtain ⟨bs, rfl⟩ := ih e2
    cases x with
    | ok b => exact ⟨b :: bs, rfl⟩
    | error e => cases e1

theorem Prints.run {R : Str → Prop} {m : M σ Unit} (h : Prints out R m) (s : σ) (h0 : out s = []) (hn : (m s).exn? = none) :
    R (out (m s).state) := by
  cases e : m s with
  | err x s' => rw [e] at hn; cases hn
  | ok u s' =>
    obtain ⟨x, h1, h2⟩ := h s s' e
    rw [h0, List.nil_append] at h1
    show R (out s')
    rw [h1]
    exact h2

/-! ### The console -/

theorem prints_emit (s : Str) : Prints HelpState.out (· = s) (emit s) := prints_modify (g := fun _ => s) (fun _ => rfl) fun _ => rfl

theorem prints_setParagraph (b : Bool) : Prints HelpState.out (· = []) (setParagraph b) :=
  prints_modify (g := fun _ => []) (fun s => (List.append_nil s.out).symm) fun _ => rfl

theorem blanks_nil : Blanks [] := fun _ h => by cases h

theorem blanks_append {a b : Str} (h1 : Blanks a) (h2 : Blanks b) : Blanks (a ++ b) := by
  intro c hc
  rcases List.mem_append.1 hc with h | h
  · exact h1 c h
  · exact h2 c h

theorem blanks_replicate (n : Nat) : Blanks (blanks n) := fun _ hc => Or.inl (List.eq_of_mem_replicate hc)

theorem blanks_newline (n : Nat) : Blanks ('\n' :: blanks n) := by
  intro c hc
  rcases List.mem_cons.1 hc with h | h
  · exact Or.inr h
  · exact blanks_replicate n c h

theorem woven_gap {ps : List Str} {s t : Str} (h1 : Blanks s) (h2 : Woven Blanks ps t) : Woven Blanks ps (s ++ t) := by
  cases h2 with
  | nil h' => exact .nil (blanks_append h1 h')
  | @cons gap p ps c t g hc h' =>
    have : s ++ (gap ++ p ++ c :: t) = (s ++ gap) ++ p ++ c :: t := by simp
    rw [this]
    exact .cons (blanks_append h1 g) hc h'

theorem prints_paragraphBreak : Prints HelpState.out Blanks paragraphBreak := by
  refine prints_modify (g := fun h => if h.prevWasParagraph then ['\n'] else []) (fun _ => rfl) fun s => ?_
  intro c hc
  split at hc
  · exact Or.inr (List.mem_singleton.1 hc)
  · cases hc

theorem prints_blank {s : Str} (h : Blanks s) : Prints HelpState.out Blanks (emit s) :=
  (prints_emit s).mono fun _ hx => hx ▸ h

theorem prints_emitText (c : Console) (s : Str) :
    Prints HelpState.out (fun x => ConsoleText c.tty s x) (emitText c s) := by
  unfold emitText
  cases h : toText c.ndebug c.tty s with
  | ok t =>
    refine (prints_emit t).mono ?_
    rintro x rfl
    exact toText_console _ _ _ _ h
  | error e => exact prints_throw _ e

/-- Words that were printed. -/
def WordsPrinted (tty : Bool) (ws : List Str) (x : Str) : Prop := ∃ ps, List.Forall₂ (ConsoleText tty) ws ps ∧ Woven Blanks ps x

/-- Words that were printed behind a word, before the end of the line. -/
def MoreWords (tty : Bool) (ws : List Str) (x : Str) : Prop :=
  ∃ ps, List.Forall₂ (ConsoleText tty) ws ps ∧ ∀ c t, Blanks (c :: t) → Woven Blanks ps (x ++ c :: t) ∧
    ∃ d u, x ++ c :: t = d :: u ∧ Blanks [d]

theorem moreWords_nil (tty : Bool) : MoreWords tty [] [] :=
  ⟨[], .nil, fun c t h => ⟨.nil h, c, t, rfl, fun d hd => h d (by rw [List.mem_singleton.1 hd]; exact List.mem_cons_self)⟩⟩

theorem wordsPrinted_gap {tty : Bool} {ws : List Str} (a b : Str) (h1 : Blanks a) (h2 : WordsPrinted tty ws b) :
    WordsPrinted tty ws (a ++ b) := by
  obtain ⟨ps, g1, g2⟩ := h2
  exact ⟨ps, g1, woven_gap h1 g2⟩

theorem moreWords_gap {tty : Bool} {ws : List Str} (a b : Str) (h1 : Blanks a) (h2 : MoreWords tty ws b) :
    MoreWords tty ws (a ++ b) := by
  obtain ⟨ps, g1, g2⟩ := h2
  refine ⟨ps, g1, fun c t h => ?_⟩
  obtain ⟨k1, d, u, k2, k3⟩ := g2 c t h
  rw [List.append_assoc]
  refine ⟨woven_gap h1 k1, ?_⟩
  cases a with
  | nil => exact ⟨d, u, k2, k3⟩
  | cons e a => exact ⟨e, _, rfl, fun f hf => h1 f (by rw [List.mem_singleton.1 hf]; exact List.mem_cons_self)⟩

/-- A word behind a gap. -/
theorem moreWords_cons {tty : Bool} {w : Str} {ws : List Str} (g a b : Str) (hg : ∃ d u, g = d :: u ∧ Blanks (d :: u))
    (h1 : ConsoleText tty w a) (h2 : MoreWords tty ws b) : MoreWords tty (w :: ws) (g ++ (a ++ b)) := by
  obtain ⟨ps, g1, g2⟩ := h2
  obtain ⟨d, u, rfl, hd⟩ := hg
  refine ⟨a :: ps, .cons h1 g1, fun c t h => ?_⟩
  obtain ⟨k1, e, v, k2, k3⟩ := g2 c t h
  refine ⟨?_, d, _, rfl, fun f hf => hd f (by rw [List.mem_singleton.1 hf]; exact List.mem_cons_self)⟩
  rw [k2] at k1
  have : d :: u ++ (a ++ b) ++ c :: t = (d :: u) ++ a ++ e :: v := by rw [← k2]; simp
  rw [this]
  exact .cons hd k3 k1

theorem wordsPrinted_cons {tty : Bool} {w : Str} {ws : List Str} (a b : Str) (h1 : ConsoleText tty w a)
    (h2 : ∃ x, b = x ++ ['\n'] ∧ MoreWords tty ws x) : WordsPrinted tty (w :: ws) (a ++ b) := by
  obtain ⟨x, rfl, ps, g1, g2⟩ := h2
  obtain ⟨k1, e, v, k2, k3⟩ := g2 '\n' [] (fun c hc => Or.inr (List.mem_singleton.1 hc))
  refine ⟨a :: ps, .cons h1 g1, ?_⟩
  rw [k2] at k1 ⊢
  exact .cons (gap := []) blanks_nil k3 k1

theorem prints_printWords (c : Console) (tab pos : Nat) (ws : List Str) :
    Prints HelpState.out (MoreWords c.tty ws) (printWords c tab pos ws) := by
  induction ws generalizing pos with
  | nil => exact fun a b e => by cases e; exact ⟨[], by simp, moreWords_nil _⟩
  | cons w ws ih =>
    have step : ∀ (d : Char) (u : Str) (n : Nat), Blanks (d :: u) → Prints HelpState.out (MoreWords c.tty (w :: ws))
        (M.bind (emit (d :: u)) fun _ => M.bind (emitText c w) fun _ => printWords c tab n ws) := by
      intro d u n h
      refine (prints_emit _).bind (R₂ := fun x => ∃ a b, x = a ++ b ∧ ConsoleText c.tty w a ∧ MoreWords c.tty ws b)
        ((prints_emitText c w).bind (ih _) fun a b h1 h2 => ⟨a, b, rfl, h1, h2⟩) ?_
      rintro _ _ rfl ⟨a, b, rfl, h1, h2⟩
      exact moreWords_cons _ a b ⟨d, u, rfl, h⟩ h1 h2
    unfold printWords
    split
    · exact step _ _ _ (blanks_newline _)
    · exact step _ _ _ fun c hc => Or.inl (List.mem_singleton.1 hc)

theorem prints_printText (c : Console) (text : Str) (tab : Nat) :
    Prints HelpState.out (WordsPrinted c.tty (words text)) (printText c text tab) := by
  unfold printText
  cases words text with
  | nil => exact fun a b e => by cases e; exact ⟨[], by simp, [], .nil, .nil blanks_nil⟩
  | cons w ws =>
    refine (prints_emitText c w).bind (Prints.bind (R := fun b => ∃ x, b = x ++ ['\n'] ∧ MoreWords c.tty ws x)
      (R₁ := MoreWords c.tty ws) ?_ (prints_emit _) ?_) wordsPrinted_cons
    · split
      · exact (prints_blank (blanks_newline _)).bind (prints_printWords c _ _ ws) moreWords_gap
      · exact prints_printWords c _ _ ws
    · rintro a _ h rfl
      exact ⟨a, rfl, h⟩

theorem wordsPrinted_nil (x : Str) (tty : Bool) (ws : List Str) (h : WordsPrinted tty ws x) (y : Str) (hy : y = []) :
    WordsPrinted tty ws (x ++ y) := by subst hy; simpa using h

theorem boldText_eq (pe : PageEnv) (f : Format) (s : Str) (h1 : f ≠ .html) (h2 : f ≠ .man) :
    boldText pe f s = inBold pe.console s := by
  have : boldText pe f s = if pe.tty then "\x1b[1m".toList ++ s ++ "\x1b[0m".toList else s := by
    cases f <;> first | rfl | exact absurd rfl h1 | exact absurd rfl h2
  rw [this]
  unfold inBold ansi PageEnv.console
  cases pe.tty <;> simp

theorem upper_map (t : Str) : t.map upperChar = t.map Char.toUpper := List.map_congr_left fun c _ => upperChar_eq c

theorem lower_map (t : Str) : t.map lowerChar = t.map Char.toLower := List.map_congr_left fun c _ => lowerChar_eq c

theorem prints_helpBlock (pe : PageEnv) (b : Block) :
    Prints HelpState.out (ConsoleElement pe b) (helpBlock pe.console b) := by
  cases b with
  | sec t =>
    refine Prints.bind (prints_emit _) (prints_setParagraph _) ?_
    rintro a b rfl rfl
    show _ = _
    rw [boldText_eq _ _ _ (by simp) (by simp), upper_map]
    simp [inBold]
  | subsec t =>
    refine Prints.bind (prints_emit _) (prints_setParagraph _) ?_
    rintro a b rfl rfl
    show _ = _
    rw [boldText_eq _ _ _ (by simp) (by simp)]
    have : blanks (pe.console.layout.leftPadding / 2) = [' ', ' '] := by
      have : pe.console.layout.leftPadding = 4 := by simp [PageEnv.console, mkLayout]
      rw [this]
      decide
    rw [this]
    simp
  | line t p =>
    refine Prints.mono (R := WordsPrinted pe.tty (words t)) ?_ fun x hx => ?_
    · exact prints_paragraphBreak.bind ((prints_blank (blanks_replicate _)).bind ((prints_printText pe.console t _).bind
        (prints_setParagraph _) fun a b h1 h2 => wordsPrinted_nil a _ _ h1 b h2) wordsPrinted_gap) wordsPrinted_gap
    · obtain ⟨ps, h1, h2⟩ := hx
      exact ⟨words t, ps, words_untilZero t, h1, h2⟩
  | item k d =>
    refine Prints.mono (R := fun x => ∃ k' ps, ConsoleText pe.tty k k' ∧ List.Forall₂ (ConsoleText pe.tty) (words d) ps ∧
      Woven Blanks (k' :: ps) x) ?_ fun x hx => ?_
    · refine prints_paragraphBreak.bind (R₂ := fun x => ∃ k' ps, ConsoleText pe.tty k k' ∧
          List.Forall₂ (ConsoleText pe.tty) (words d) ps ∧ Woven Blanks (k' :: ps) x)
        ((prints_blank (blanks_replicate _)).bind (R₂ := fun x => ∃ k' ps, ConsoleText pe.tty k k' ∧
          List.Forall₂ (ConsoleText pe.tty) (words d) ps ∧ Woven Blanks (k' :: ps) x) ((prints_emitText pe.console k).bind
        (Prints.bind (R := fun x => ∃ c u, x = c :: u ∧ Blanks [c] ∧ WordsPrinted pe.tty (words d) x)
          (R₁ := fun x => ∃ c u, x = c :: u ∧ Blanks x) ((prints_emit _).mono ?_)
          ((prints_printText pe.console d _).bind
        (prints_setParagraph _) fun a b h1 h2 => wordsPrinted_nil a _ _ h1 b h2) ?_) ?_) ?_) ?_
      · rintro x rfl
        split
        · exact ⟨_, _, rfl, blanks_newline _⟩
        · rename_i h
          have : ∃ n, usub pe.console.layout.rightColumnTab (pe.console.layout.leftPadding + k.length) = n + 1 := by
            have h1 : pe.console.layout.leftPadding = 4 := rfl
            have h2 : pe.console.layout.rightColumnTab = 10 := rfl
            have h3 : pe.console.layout.centerPadding = 2 := rfl
            rw [h1, h2, h3] at h
            rw [h1, h2]
            refine ⟨10 - (4 + k.length) - 1, ?_⟩
            unfold usub
            omega
          obtain ⟨n, hn⟩ := this
          rw [hn]
          exact ⟨' ', blanks n, rfl, blanks_replicate (n + 1)⟩
      · rintro a b ⟨c, u, rfl, h1⟩ h2
        exact ⟨c, _, rfl, fun f hf => h1 f (by rw [List.mem_singleton.1 hf]; exact List.mem_cons_self), wordsPrinted_gap _ _ h1 h2⟩
      · rintro a _ h1 ⟨c, u, rfl, h2, ps, h3, h4⟩
        exact ⟨a, ps, h1, h3, .cons (gap := []) blanks_nil h2 h4⟩
      · rintro a b h1 ⟨k', ps, h2, h3, h4⟩
        exact ⟨k', ps, h2, h3, woven_gap h1 h4⟩
      · rintro a b h1 ⟨k', ps, h2, h3, h4⟩
        exact ⟨k', ps, h2, h3, woven_gap h1 h4⟩
    · obtain ⟨k', ps, h1, h2, h3⟩ := hx
      exact ⟨k', words d, ps, h1, words_untilZero d, h2, h3⟩

theorem prints_helpHeader (app : Str) (m : Meta) :
    Prints HelpState.out (ConsoleStart app m.shortDescription) (helpHeader app m) := by
  refine (prints_emit _).mono ?_
  rintro x rfl
  refine ⟨_, rfl, fun h1 h2 => ?_⟩
  rw [textWidth_plain h1, textWidth_plain h2]
  unfold titleLine
  by_cases h : m.shortDescription = []
  · simp [h]
  · simp only [if_neg h, List.length_append]
    have : " - ".toList.length = 3 := rfl
    omega

/-! ### HTML -/

theorem prints_htmlEmit (s : Str) : Prints HtmlState.out (· = s) (htmlEmit s) :=
  prints_modify (g := fun _ => s) (fun _ => rfl) fun _ => rfl

theorem prints_htmlText (nd : Bool) (s : Str) : Prints HtmlState.out (HtmlText [] s) (htmlText nd s) := by
  unfold htmlText
  cases h : toHtml nd s with
  | ok t =>
    refine (prints_htmlEmit t).mono ?_
    rintro x rfl
    exact toHtmlFrom_html _ _ _ _ h
  | error e => exact prints_throw _ e

theorem prints_closeList : Prints HtmlState.out (fun x => x = [] ∨ x = "</dl>\n".toList) maybeCloseList := by
  refine prints_modify (g := fun h => if h.isDl then "</dl>\n".toList else []) (fun _ => rfl) fun s => ?_
  cases s.isDl
  · exact Or.inl rfl
  · exact Or.inr rfl

theorem prints_closeParagraph : Prints HtmlState.out (fun x => x = [] ∨ x = "</p>\n".toList) maybeCloseParagraph := by
  refine prints_modify (g := fun h => if h.isP then "</p>\n".toList else []) (fun _ => rfl) fun s => ?_
  cases s.isP
  · exact Or.inl rfl
  · exact Or.inr rfl

theorem prints_htmlHeading (nd : Bool) (tag t : Str) :
    Prints HtmlState.out (fun o => ∃ a b t', (a = [] ∨ a = "</dl>\n".toList) ∧ (b = [] ∨ b = "</p>\n".toList) ∧ HtmlText [] t t' ∧
      o = a ++ b ++ ("<".toList ++ tag ++ ">".toList) ++ t' ++ ("</".toList ++ tag ++ ">\n".toList)) (htmlHeading nd tag t) := by
  refine prints_closeList.bind (R₂ := fun o => ∃ b t', (b = [] ∨ b = "</p>\n".toList) ∧ HtmlText [] t t' ∧
      o = b ++ ("<".toList ++ tag ++ ">".toList) ++ t' ++ ("</".toList ++ tag ++ ">\n".toList)) (prints_closeParagraph.bind
    (R₂ := fun o => ∃ t', HtmlText [] t t' ∧ o = ("<".toList ++ tag ++ ">".toList) ++ t' ++ ("</".toList ++ tag ++ ">\n".toList))
    ((prints_htmlEmit _).bind (R₂ := fun o => ∃ t', HtmlText [] t t' ∧ o = t' ++ ("</".toList ++ tag ++ ">\n".toList))
      ((prints_htmlText nd t).bind (prints_htmlEmit _) ?_) ?_) ?_) ?_
  · rintro a b h rfl
    exact ⟨a, h, rfl⟩
  · rintro a b rfl ⟨t', h, rfl⟩
    exact ⟨t', h, by rw [List.append_assoc _ t']⟩
  · rintro a b h ⟨t', h2, rfl⟩
    exact ⟨a, t', h, h2, by simp only [List.append_assoc]⟩
  · rintro a b h ⟨c, t', h2, h3, rfl⟩
    exact ⟨a, c, t', h, h2, h3, by simp only [List.append_assoc]⟩

theorem prints_htmlBlock (nd : Bool) (b : Block) : Prints HtmlState.out (HtmlElement b) (htmlBlock nd b) := by
  cases b with
  | sec t => exact prints_htmlHeading nd "h2".toList t
  | subsec t => exact prints_htmlHeading nd "h3".toList t
  | line t p =>
    intro h h' e
    have e : htmlLine nd t p h = .ok () h' := e
    unfold htmlLine maybeCloseList htmlText maybeCloseParagraph htmlEmit at e
    cases ht : toHtml nd t with
    | error x => rw [ht] at e; cases e
    | ok u =>
      rw [ht] at e
      refine ⟨(if h.isDl then "</dl>\n".toList else []) ++ (if h.isP then [] else "<p>\n".toList) ++ u ++ "\n".toList
        ++ (if p then "</p>\n".toList else "<br>\n".toList), ?_, _, _, u, ?_, ?_, toHtmlFrom_html _ _ _ _ ht, rfl⟩
      · cases p <;> cases e <;> simp only [List.append_assoc] <;> rfl
      · cases h.isDl
        · exact Or.inl rfl
        · exact Or.inr rfl
      · cases h.isP
        · exact Or.inr rfl
        · exact Or.inl rfl
  | item k d =>
    intro h h' e
    have e : htmlItem nd k d h = .ok () h' := e
    unfold htmlItem htmlText maybeCloseParagraph htmlEmit at e
    cases hk : toHtml nd k with
    | error x => rw [hk] at e; cases e
    | ok u =>
      cases hd : toHtml nd d with
      | error x => rw [hk, hd] at e; cases e
      | ok v =>
        rw [hk, hd] at e
        refine ⟨(if h.isP then "</p>\n".toList else []) ++ (if h.isDl then [] else "<dl>\n".toList) ++ "<dt>".toList ++ u
          ++ "</dt>\n<dd>".toList ++ v ++ "</dd>\n".toList, ?_, _, _, u, v, ?_, ?_, toHtmlFrom_html _ _ _ _ hk,
          toHtmlFrom_html _ _ _ _ hd, rfl⟩
        · cases e; simp only [List.append_assoc]
        · cases h.isP
          · exact Or.inl rfl
          · exact Or.inr rfl
        · cases h.isDl
          · exact Or.inr rfl
          · exact Or.inl rfl

theorem htmlStart_literal (app short : Str) (u v x : Str) :
    doctypeLine ++ (headStart ++ "\n<head>\n".toList ++ headMeta ++ "<title>".toList ++ app ++ " &mdash; ".toList ++ short
      ++ "</title>\n</head>\n<body>\n".toList) ++ ("<h1>".toList ++ (u ++ ("</h1>\n<div>".toList ++ (v ++ x)))) =
    ("<!DOCTYPE html PUBLIC \"-//W3C//DTD HTML 4.01//EN\" http://www.w3.org/TR/html4/strict.dtd\">\n"
        ++ "<html lang=\"en\">\n<head>\n"
        ++ "<meta http-equiv=\"content-type\" content=\"text/html; charset=utf-8\">\n<title>").toList
      ++ app ++ " &mdash; ".toList ++ short ++ "</title>\n</head>\n<body>\n<h1>".toList ++ u ++ "</h1>\n<div>".toList
      ++ v ++ x := by
  have h1 : ("<!DOCTYPE html PUBLIC \"-//W3C//DTD HTML 4.01//EN\" http://www.w3.org/TR/html4/strict.dtd\">\n"
        ++ "<html lang=\"en\">\n<head>\n"
        ++ "<meta http-equiv=\"content-type\" content=\"text/html; charset=utf-8\">\n<title>").toList =
      doctypeLine ++ headStart ++ "\n<head>\n".toList ++ headMeta ++ "<title>".toList := by decide +kernel
  have h2 : "</title>\n</head>\n<body>\n<h1>".toList = "</title>\n</head>\n<body>\n".toList ++ "<h1>".toList := by decide +kernel
  rw [h1, h2]
  simp only [List.append_assoc]

theorem prints_htmlHeader (nd : Bool) (app : Str) (m : Meta) :
    Prints HtmlState.out (HtmlStart app m.shortDescription) (htmlHeader nd app m) := by
  refine (prints_htmlEmit _).bind (R₂ := fun o => ∃ u v, HtmlText [] app u ∧ HtmlText [] m.shortDescription v ∧
      o = "<h1>".toList ++ (u ++ ("</h1>\n<div>".toList ++ (v ++ "</div>\n".toList))))
    ((prints_htmlEmit _).bind (R₂ := fun o => ∃ u v, HtmlText [] app u ∧ HtmlText [] m.shortDescription v ∧
      o = u ++ ("</h1>\n<div>".toList ++ (v ++ "</div>\n".toList)))
    ((prints_htmlText _ _).bind (R₂ := fun o => ∃ v, HtmlText [] m.shortDescription v ∧
      o = "</h1>\n<div>".toList ++ (v ++ "</div>\n".toList))
    ((prints_htmlEmit _).bind (R₂ := fun o => ∃ v, HtmlText [] m.shortDescription v ∧ o = v ++ "</div>\n".toList)
    ((prints_htmlText _ _).bind (prints_htmlEmit _) ?_) ?_) ?_) ?_) ?_
  · rintro a b h rfl
    exact ⟨a, h, rfl⟩
  · rintro a b rfl ⟨v, h, rfl⟩
    exact ⟨v, h, rfl⟩
  · rintro a b h ⟨v, h2, rfl⟩
    exact ⟨a, v, h, h2, rfl⟩
  · rintro a b rfl ⟨u, v, h1, h2, rfl⟩
    exact ⟨u, v, h1, h2, rfl⟩
  · rintro a b rfl ⟨u, v, h1, h2, rfl⟩
    refine ⟨escapeXml app, escapeXml m.shortDescription, u, v, escapeXml_decodes _, escapeXml_decodes _, h1, h2, ?_⟩
    unfold htmlHead
    exact htmlStart_literal _ _ _ _ _

theorem prints_htmlFooter : Prints HtmlState.out (PageEnd .html) htmlFooter := by
  refine prints_closeParagraph.bind (prints_htmlEmit _) ?_
  rintro a b (rfl | rfl) rfl
  · exact Or.inl rfl
  · exact Or.inr rfl

/-! ### Man pages -/

theorem prints_manBlock (b : Block) : Prints ManState.out (ManElement b) (manBlock b) := by
  cases b with
  | sec t =>
    refine prints_modify (g := fun _ => ".SH ".toList ++ t.map upperChar ++ "\n".toList) (fun s => by simp) fun _ => ?_
    rw [upper_map]
    rfl
  | subsec t => exact prints_modify (g := fun _ => ".SS ".toList ++ t ++ "\n".toList) (fun s => by simp) fun _ => rfl
  | line t p =>
    refine prints_modify (g := fun h => (if h.isFirst then [] else if p then ".sp\n".toList else ".br\n".toList) ++ t ++ "\n".toList)
      (fun s => by simp) fun s => ?_
    cases s.isFirst
    · exact Or.inr rfl
    · exact Or.inl rfl
  | item k d =>
    exact prints_modify (g := fun _ => ".TP\n".toList ++ k ++ "\n".toList ++ d ++ "\n".toList) (fun s => by simp) fun _ => rfl

theorem prints_manHeader (app : Str) (m : Meta) : Prints ManState.out (ManStart app m) (manHeader app m) := by
  refine prints_modify (g := fun _ => ".TH ".toList ++ app.map upperChar ++ " ".toList ++ showNat m.manPageSection ++ " \"".toList ++ m.date
    ++ "\" \"".toList ++ app.map lowerChar ++ " ".toList ++ m.version ++ "\" \"".toList ++ m.manPageTitle
    ++ "\"\n".toList ++ ".SH NAME\n".toList ++ app ++ " \\- ".toList ++ m.shortDescription ++ "\n".toList)
    (fun s => by simp only [List.append_assoc]) fun _ => ?_
  refine ⟨showNat m.manPageSection, (numberText_showNat _).1, (numberText_showNat _).2, ?_⟩
  have : "\"\n.SH NAME\n".toList = "\"\n".toList ++ ".SH NAME\n".toList := by decide +kernel
  rw [upper_map, lower_map, this]
  simp only [List.append_assoc]

/-! ### Which elements there are -/

theorem elements_cons (x : Part) (l : List Part) : elements (x :: l) = (.sec x.title :: x.body) ++ elements l := List.flatMap_cons

theorem elements_nonEmpty_cons (t : Str) (b : List Block) (l : List Part) :
    elements (nonEmptyParts (⟨t, b⟩ :: l)) = (if b = [] then [] else .sec t :: b) ++ elements (nonEmptyParts l) := by
  unfold nonEmptyParts
  rw [List.filter_cons]
  cases b with
  | nil => simp
  | cons x b => simp [elements_cons]

theorem elements_nil : elements (nonEmptyParts []) = [] := rfl

theorem synopsis_blocks (m : Meta) (bs : List Block) (h : synopsisSteps m = bs.map .ok) : bs = m.synopsis.map synopsisLine := by
  unfold synopsisSteps at h
  generalize m.synopsis = l at h
  induction l generalizing bs with
  | nil => cases bs with | nil => rfl | cons => cases h
  | cons s l ih =>
    cases bs with
    | nil => cases h
    | cons b bs =>
      rw [List.map_cons, List.map_cons] at h
      injection h with h1 h2
      rw [List.map_cons, ← ih bs h2]
      congr 1
      by_cases hg : ∃ c ∈ s, isGap c = true
      · rw [synopsisText_eq hg] at h1
        injection h1 with h1
        exact h1.symm
      · rw [synopsisText_none hg] at h1
        cases h1

theorem subcommandBlocks_eq (app : Str) (l : List Str) :
    subcommandBlocks app l = if subcommandLines app l = [] then [] else .sec "Subcommands".toList :: subcommandLines app l := by
  cases l with
  | nil => rfl
  | cons x l =>
    rw [if_neg (by simp [subcommandLines])]
    unfold subcommandBlocks subcommandLines
    have h : ("The following options belong to the top-level parser and need to be specified \\fBbefore\\fP the "
          ++ "subcommand key word. Every argument after the subcommand key word is passed on to the "
          ++ "corresponding sub-parser.").toList =
        "The following options belong to the top-level parser and need to be ".toList
            ++ "specified \\fBbefore\\fP the subcommand key word. Every argument after the ".toList
            ++ "subcommand key word is passed on to the corresponding sub-parser.".toList := by decide +kernel
    rw [h]
    rfl

theorem commonOptions_eq (b : Build) (notify : Bool) :
    commonOptions b notify = .subsec "Common options".toList :: (predefinedOptions b.hasTdl notify).map predefinedItem := by
  unfold commonOptions supportedExports
  cases b.hasTdl <;> cases notify <;> decide +kernel

theorem paragraphSection_eq (t : Str) (l : List Str) :
    paragraphSection t l = if l.map (Block.line · true) = [] then [] else .sec t :: l.map (Block.line · true) := by
  unfold paragraphSection
  cases l <;> simp

theorem versionBlocks_eq (pe : PageEnv) (f : Format) (app : Str) :
    versionBlocks pe.build (boldText pe f) app pe.info = elements (nonEmptyParts [versionPart pe f app, urlPart pe]) := by
  have h1 : versionPart pe f app = ⟨"Version".toList, (versionPart pe f app).body⟩ := rfl
  have h2 : urlPart pe = ⟨"Url".toList, (urlPart pe).body⟩ := rfl
  rw [h1, h2, elements_nonEmpty_cons, elements_nonEmpty_cons, elements_nil]
  have h3 : (versionPart pe f app).body ≠ [] := by simp [versionPart]
  rw [if_neg h3]
  unfold versionBlocks versionPart urlPart
  dsimp only
  cases pe.build.seqanVersion <;> by_cases hu : pe.info.url = [] <;> simp [hu]

theorem legalBlocks_eq (pe : PageEnv) (f : Format) (app : Str) :
    legalBlocks (boldText pe f) app pe.info = elements (nonEmptyParts [legalPart pe f app]) := by
  have h1 : legalPart pe f app = ⟨"Legal".toList, (legalPart pe f app).body⟩ := rfl
  rw [h1, elements_nonEmpty_cons, elements_nil]
  unfold legalPart legalSupplied legalBlocks labelled
  dsimp only
  by_cases a1 : pe.info.shortCopyright = [] <;> by_cases a2 : pe.info.longCopyright = [] <;> by_cases a3 : pe.info.citation = [] <;>
    by_cases a4 : pe.info.author = [] <;> by_cases a5 : pe.info.email = [] <;> simp [a1, a2, a3, a4, a5]

end Sharg
