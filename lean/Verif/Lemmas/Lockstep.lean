import Verif.Lemmas.Terminal

/-!
# Printing a page on two terminals at the same time
-/

namespace Sharg

open Spec

variable {W : Type}

/-! ### Which exception is thrown -/

/-- The action always ends with this exception, or never with any. -/
def Fate (m : HelpM) (e : Option Exn) : Prop := ∀ h, (m h).exn? = e

/-- The first exception. -/
def firstOf : Option Exn → Option Exn → Option Exn
  | some x, _ => some x
  | none, e => e

theorem Fate.bind {m n : HelpM} {e e' : Option Exn} (h1 : Fate m e) (h2 : Fate n e') :
    Fate (M.bind m fun _ => n) (firstOf e e') := by
  intro h
  have := h1 h
  unfold M.bind
  cases hm : m h with
  | ok u s =>
    rw [hm] at this
    have : none = e := this
    subst this
    exact h2 s
  | err x s =>
    rw [hm] at this
    have : some x = e := this
    subst this
    rfl

theorem fate_emit (s : Str) : Fate (emit s) none := fun _ => rfl

theorem fate_setParagraph (b : Bool) : Fate (setParagraph b) none := fun _ => rfl

theorem fate_paragraphBreak : Fate paragraphBreak none := fun _ => rfl

open Classical in
/-- The exception of printing words. -/
noncomputable def wordsFate (nd : Bool) (ws : List Str) : Option Exn :=
  if ∀ w ∈ ws, Complete w then none else some (endReached nd)

theorem toText_error {nd tty : Bool} {s : Str} {e : Exn} : toText nd tty s = .error e → e = endReached nd := by
  have pre : ∀ (p : Str) (x : Except Exn Str), prependTo p x = .error e → x = .error e := by
    intro p x h
    cases x with
    | ok => cases h
    | error => exact h
  refine markup_cases (P := fun s => toText nd tty s = .error e → e = endReached nd) ?_ ?_ ?_ ?_ ?_ ?_ ?_ s
  · intro h; cases h
  · intro c s hc ih h
    rw [toText_char _ _ hc] at h
    exact ih (pre _ _ h)
  · intro h; rw [toText_end] at h; cases h; rfl
  · intro s ih h
    rw [toText_dash] at h
    exact ih (pre _ _ h)
  · intro h; rw [toText_end_f] at h; cases h; rfl
  · intro e s ih h
    rw [toText_font] at h
    exact ih (pre _ _ h)
  · intro d s g1 g2 ih h
    rw [toText_escape _ _ g1 g2] at h
    exact ih (pre _ _ h)

theorem fate_emitText (c : Console) (s : Str) : Fate (emitText c s) (wordsFate c.ndebug [s]) := by
  intro h
  unfold emitText wordsFate
  cases ht : toText c.ndebug c.tty s with
  | ok t =>
    rw [if_pos]
    · rfl
    · intro w hw
      rw [List.mem_singleton.1 hw]
      exact (toText_ok_iff _ _ _).1 ⟨t, ht⟩
  | error e =>
    rw [if_neg]
    · rw [toText_error ht]; rfl
    · intro hw
      obtain ⟨o, ho⟩ := (toText_ok_iff c.ndebug c.tty s).2 (hw s (by simp))
      rw [ht] at ho
      cases ho

theorem wordsFate_cons (nd : Bool) (w : Str) (ws : List Str) :
    firstOf (wordsFate nd [w]) (wordsFate nd ws) = wordsFate nd (w :: ws) := by
  unfold wordsFate
  by_cases h : Complete w
  · rw [if_pos (fun v hv => by rw [List.mem_singleton.1 hv]; exact h)]
    by_cases h' : ∀ v ∈ ws, Complete v
    · rw [if_pos h', if_pos]
      · rfl
      · intro v hv
        rcases List.mem_cons.1 hv with rfl | hv
        · exact h
        · exact h' v hv
    · rw [if_neg h', if_neg (fun hh => h' fun v hv => hh v (List.mem_cons_of_mem _ hv))]
      rfl
  · rw [if_neg (fun hh => h (hh w List.mem_cons_self))]
    exact (if_neg (fun hh => h (hh w List.mem_cons_self))).symm

theorem fate_printWords (c : Console) (tab pos : Nat) (ws : List Str) : Fate (printWords c tab pos ws) (wordsFate c.ndebug ws) := by
  induction ws generalizing pos with
  | nil => intro h; unfold wordsFate; simp; rfl
  | cons w ws ih =>
    rw [← wordsFate_cons]
    unfold printWords
    split
    · exact (fate_emit _).bind ((fate_emitText c w).bind (ih _))
    · exact (fate_emit _).bind ((fate_emitText c w).bind (ih _))

theorem fate_or_none (e : Option Exn) : firstOf e none = e := by cases e <;> rfl

theorem fate_printText (c : Console) (t : Str) (tab : Nat) : Fate (printText c t tab) (wordsFate c.ndebug (words t)) := by
  unfold printText
  cases words t with
  | nil => intro h; unfold wordsFate; simp; rfl
  | cons w ws =>
    rw [← wordsFate_cons, ← fate_or_none (wordsFate c.ndebug ws)]
    refine (fate_emitText c w).bind (Fate.bind ?_ (fate_emit _))
    split
    · exact (fate_emit _).bind (fate_printWords c _ _ ws)
    · exact fate_printWords c _ _ ws

/-- The exception of printing an element. -/
noncomputable def blockFate (nd : Bool) : Block → Option Exn
  | .sec _ => none
  | .subsec _ => none
  | .line t _ => wordsFate nd (words t)
  | .item k d => firstOf (wordsFate nd [k]) (wordsFate nd (words d))

theorem fate_block (c : Console) (b : Block) : Fate (helpBlock c b) (blockFate c.ndebug b) := by
  cases b with
  | sec t => exact (fate_emit _).bind (fate_setParagraph _)
  | subsec t => exact (fate_emit _).bind (fate_setParagraph _)
  | line t p =>
    have := fate_paragraphBreak.bind ((fate_emit (blanks c.layout.leftPadding)).bind ((fate_printText c t c.layout.leftPadding).bind
      (fate_setParagraph p)))
    rw [fate_or_none] at this
    exact this
  | item k d =>
    have := fate_paragraphBreak.bind ((fate_emit (blanks c.layout.leftPadding)).bind ((fate_emitText c k).bind ((fate_emit
      (if c.layout.leftPadding + k.length + c.layout.centerPadding > c.layout.rightColumnTab then
        '\n' :: blanks (usub c.layout.rightColumnTab 0)
      else blanks (usub c.layout.rightColumnTab (c.layout.leftPadding + k.length)))).bind
      ((fate_printText c d c.layout.rightColumnTab).bind (fate_setParagraph false)))))
    rw [fate_or_none] at this
    exact this

/-- The exception of print calls. -/
noncomputable def stepsFate (nd : Bool) : List Step → Option Exn
  | [] => none
  | .error e :: _ => some e
  | .ok b :: l => firstOf (blockFate nd b) (stepsFate nd l)

theorem fate_steps (c : Console) (app : Str) (m : Meta) (l : List Step) : Fate ((helpPrinter c app m).steps l) (stepsFate c.ndebug l) := by
  induction l with
  | nil => exact fun _ => rfl
  | cons x l ih =>
    cases x with
    | ok b => exact (fate_block c b).bind ih
    | error e => exact Fate.bind (m := M.throw e) (e := some e) (fun _ => rfl) ih

theorem complete_prefix {m : Str} (h : '\\' ∉ m) (w : Str) : Complete (m ++ w) ↔ Complete w := by
  induction m with
  | nil => rfl
  | cons c m ih =>
    simp only [List.mem_cons, not_or] at h
    rw [List.cons_append, complete_char (Ne.symm h.1), ih h.2]

theorem complete_mark {tty : Bool} {d : Char} (hd : d ∈ ['0', '1', '4']) (z : Str) :
    (∀ w ∈ words (ansi tty d ++ z), Complete w) ↔ ∀ w ∈ words z, Complete w := by
  by_cases hm : ansi tty d = []
  · rw [hm, List.nil_append]
  have hch := ansi_chars tty hd
  have hs : '\\' ∉ ansi tty d := fun hc => (hch _ hc).2.2 rfl
  have h0 : Complete (ansi tty d) := by
    have := (complete_prefix hs []).2 .nil
    rwa [List.append_nil] at this
  rcases words_mark (ansi tty d) z hm (fun c hc => (hch c hc).1) (fun hc => (hch _ hc).2.1 rfl) with ⟨w, ws, h1, h2⟩ | h2
  · rw [h2, h1]
    simp only [List.mem_cons, forall_eq_or_imp, complete_prefix hs]
  · rw [h2]
    simp only [List.mem_cons, forall_eq_or_imp, h0, true_and]

theorem complete_label {tty : Bool} (x y : Str) :
    (∀ w ∈ words (ansi tty '1' ++ (x ++ [' ']) ++ ansi tty '0' ++ y), Complete w) ↔ ∀ w ∈ words (x ++ [' '] ++ y), Complete w := by
  have e1 : ansi tty '1' ++ (x ++ [' ']) ++ ansi tty '0' ++ y = (ansi tty '1' ++ x) ++ ' ' :: (ansi tty '0' ++ y) := by simp
  have e2 : x ++ [' '] ++ y = x ++ ' ' :: y := by simp
  rw [e1, e2]
  by_cases h0 : '\x00' ∈ x
  · rw [words_cut (List.mem_append.2 (Or.inr h0)), words_cut h0]
    exact complete_mark (by simp) x
  · have h0' : '\x00' ∉ ansi tty '1' ++ x := by
      intro hc
      rcases List.mem_append.1 hc with hc | hc
      · exact (ansi_chars tty (d := '1') (by simp) _ hc).2.1 rfl
      · exact h0 hc
    rw [words_space h0', words_space h0]
    simp only [List.mem_append, or_imp, forall_and]
    have a := complete_mark (tty := tty) (d := '1') (by simp) x
    have b := complete_mark (tty := tty) (d := '0') (by simp) y
    exact and_congr a b

open Classical in
theorem wordsFate_congr {nd : Bool} {a b : List Str} (h : (∀ w ∈ a, Complete w) ↔ ∀ w ∈ b, Complete w) : wordsFate nd a = wordsFate nd b := by
  unfold wordsFate
  simp only [h]

theorem twin_fate (nd : Bool) (pe : PageEnv) (f : Format) (h1 : f ≠ .html) (h2 : f ≠ .man) {b s : Block} (h : Twin pe f b s) :
    blockFate nd b = blockFate nd s := by
  cases h with
  | same => rfl
  | label x y p =>
    refine wordsFate_congr ?_
    rw [boldText_eq _ _ _ h1 h2]
    exact complete_label x y
  | hint =>
    refine wordsFate_congr ?_
    rw [boldText_eq _ _ _ h1 h2]
    unfold inBold
    have pl : ∀ t : Str, '\\' ∉ t → ∀ w ∈ words t, Complete w := by
      intro t ht w hw
      have hc : '\\' ∉ w := by
        intro hc
        have := words_mem (words_untilZero t) w hw _ hc
        exact ht (List.takeWhile_subset _ this)
      have := (complete_prefix hc []).2 .nil
      rwa [List.append_nil] at this
    have hno : ∀ tty, '\\' ∉ "For full copyright and/or warranty information see ".toList ++
          (ansi tty '1' ++ "--copyright".toList ++ ansi tty '0') ++ ['.'] := by
      intro tty; cases tty <;> decide +kernel
    exact iff_of_true (pl _ (hno _)) (pl _ (by decide +kernel))

/-- Print calls with and without bold. -/
inductive StepTwin (pe : PageEnv) (f : Format) : Step → Step → Prop
  | ok {b s : Block} : Twin pe f b s → StepTwin pe f (.ok b) (.ok s)
  | error (e : Exn) : StepTwin pe f (.error e) (.error e)

theorem twins_fate (nd : Bool) (pe : PageEnv) (f : Format) (h1 : f ≠ .html) (h2 : f ≠ .man) {l l' : List Step}
    (h : List.Forall₂ (StepTwin pe f) l l') : stepsFate nd l = stepsFate nd l' := by
  induction h with
  | nil => rfl
  | cons h _ ih =>
    cases h with
    | ok hb => unfold stepsFate; rw [twin_fate nd pe f h1 h2 hb, ih]
    | error e => rfl

theorem twins_self (pe : PageEnv) (f : Format) (l : List Step) : List.Forall₂ (StepTwin pe f) l l := by
  induction l with
  | nil => exact .nil
  | cons x l ih =>
    refine .cons ?_ ih
    cases x with
    | ok b => exact .ok (.same b)
    | error e => exact .error e

theorem twins_map (pe : PageEnv) (f : Format) {bs ss : List Block} (h : List.Forall₂ (Twin pe f) bs ss) :
    List.Forall₂ (StepTwin pe f) (bs.map .ok) (ss.map .ok) := by
  induction h with
  | nil => exact .nil
  | cons h _ ih => exact .cons (.ok h) ih

theorem twins_split (pe : PageEnv) (f : Format) {bs : List Block} {l : List Step} (h : List.Forall₂ (StepTwin pe f) (bs.map .ok) l) :
    ∃ ss, l = ss.map .ok ∧ List.Forall₂ (Twin pe f) bs ss := by
  induction bs generalizing l with
  | nil => cases h; exact ⟨[], rfl, .nil⟩
  | cons b bs ih =>
    rw [List.map_cons] at h
    cases h with
    | cons h1 h2 =>
      obtain ⟨ss, rfl, h3⟩ := ih h2
      cases h1 with
      | ok hb => exact ⟨_ :: ss, rfl, .cons hb h3⟩

theorem blocks_self (pe : PageEnv) (f : Format) (l : List Block) : List.Forall₂ (Twin pe f) l l := by
  induction l with
  | nil => exact .nil
  | cons x l ih => exact .cons (.same x) ih

theorem label_twin (pe : PageEnv) (f : Format) (x y l : Str) (h : l = x ++ [' ']) (p : Bool) :
    Twin pe f (.line (boldText pe f l ++ y) p) (.line (id l ++ y) p) := by
  subst h
  exact .label x y p

theorem twins_version (pe : PageEnv) (f : Format) (app : Str) :
    List.Forall₂ (Twin pe f) (versionBlocks pe.build (boldText pe f) app pe.info) (versionBlocks pe.build id app pe.info) := by
  unfold versionBlocks
  have e1 : "Last update: ".toList = "Last update:".toList ++ [' '] := by decide +kernel
  have e2 : app ++ " version: ".toList = (app ++ " version:".toList) ++ [' '] := by
    rw [show " version: ".toList = " version:".toList ++ [' '] by decide +kernel, List.append_assoc]
  have e3 : "Sharg version: ".toList = "Sharg version:".toList ++ [' '] := by decide +kernel
  have e4 : "SeqAn version: ".toList = "SeqAn version:".toList ++ [' '] := by decide +kernel
  refine forall₂_append (forall₂_append (.cons (.same _) (.cons (label_twin pe f _ _ _ e1 _) (.cons (label_twin pe f _ _ _ e2 _)
    (.cons (label_twin pe f _ _ _ e3 _) .nil)))) ?_) (blocks_self pe f _)
  cases pe.build.seqanVersion with
  | none => exact .nil
  | some v => exact .cons (label_twin pe f _ _ _ e4 _) .nil

theorem twins_if (pe : PageEnv) (f : Format) (c : Prop) [Decidable c] {a b : Block} (h : Twin pe f a b) :
    List.Forall₂ (Twin pe f) (if c then [a] else []) (if c then [b] else []) := by
  split
  · exact .cons h .nil
  · exact .nil

theorem twins_legal (pe : PageEnv) (f : Format) (app : Str) :
    List.Forall₂ (Twin pe f) (legalBlocks (boldText pe f) app pe.info) (legalBlocks id app pe.info) := by
  unfold legalBlocks
  split
  · have e1 : app ++ " Copyright: ".toList = (app ++ " Copyright:".toList) ++ [' '] := by
      rw [show " Copyright: ".toList = " Copyright:".toList ++ [' '] by decide +kernel, List.append_assoc]
    have e2 : "Author: ".toList = "Author:".toList ++ [' '] := by decide +kernel
    have e3 : "Contact: ".toList = "Contact:".toList ++ [' '] := by decide +kernel
    have e4 : "SeqAn Copyright: ".toList = "SeqAn Copyright:".toList ++ [' '] := by decide +kernel
    have e5 : "In your academic works please cite: ".toList = "In your academic works please cite:".toList ++ [' '] := by decide +kernel
    exact forall₂_append (forall₂_append (forall₂_append (forall₂_append (forall₂_append (forall₂_append (.cons (.same _) .nil)
      (twins_if pe f _ (label_twin pe f _ _ _ e1 _))) (twins_if pe f _ (label_twin pe f _ _ _ e2 _)))
      (twins_if pe f _ (label_twin pe f _ _ _ e3 _))) (.cons (label_twin pe f _ _ _ e4 _) .nil))
      (twins_if pe f _ (label_twin pe f _ _ _ e5 _))) (twins_if pe f _ .hint)
  · exact .nil

theorem twins_page (pe : PageEnv) (f : Format) (a : Bool) (p : Parser W) (st : Store) :
    List.Forall₂ (StepTwin pe f) (pageSteps (pe.input a p st) (boldText pe f)) (pageSteps (pe.input a p st) id) := by
  unfold pageSteps
  refine forall₂_append (twins_self pe f _) (twins_map pe f ?_)
  unfold endBlocks
  exact forall₂_append (forall₂_append (blocks_self pe f _) (twins_version pe f p.appName)) (twins_legal pe f p.appName)

end Sharg
