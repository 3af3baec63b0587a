import Batteries.Data.List.Basic
import Verif.Lemmas.Text
import Verif.Model.Help

/-!
# Lemmas about words and line wrapping
-/

namespace Sharg

open Spec

theorem joined_cons (sep x : Str) (l : List Str) : joined sep (x :: l) = x ++ l.flatMap (fun y => sep ++ y) := by
  induction l generalizing x with
  | nil => simp [joined]
  | cons y l ih => simp [joined, ih y]

theorem joined_append (sep : Str) (l m : List Str) (hl : l ≠ []) :
    joined sep (l ++ m) = joined sep l ++ m.flatMap (fun y => sep ++ y) := by
  cases l with
  | nil => exact absurd rfl hl
  | cons x l => simp [joined_cons]

theorem isSpace_iff (c : Char) : isSpace c = true ↔ c ∈ blank := by
  simp [isSpace, blank, or_assoc]

/-- What `wordsFrom` collects. -/
theorem wordsFrom_spec (s : Str) : ∀ cur : Str, (∀ c ∈ cur, c ∉ blank) → Words (cur ++ s) (wordsFrom cur s) := by
  induction s with
  | nil =>
    intro cur hcur
    unfold wordsFrom
    split
    · rename_i h; subst h; exact .none (by simp)
    · rename_i h
      have := Words.word (g := []) (w := cur) (s := []) (ws := []) (by simp) h hcur (by simp) (.none (by simp))
      simpa using this
  | cons c s ih =>
    intro cur hcur
    unfold wordsFrom
    by_cases hc : isSpace c = true
    · have hcb := (isSpace_iff c).1 hc
      rw [if_pos hc]
      have h0 := ih [] (by simp)
      have hw : Words (c :: s) (wordsFrom [] s) := by
        simp only [List.nil_append] at h0
        generalize wordsFrom [] s = ws at h0
        cases h0 with
        | none h =>
          refine .none ?_
          intro d hd
          rcases List.mem_cons.1 hd with rfl | hd
          · exact hcb
          · exact h d hd
        | word hg hne hw hs hr =>
          rename_i g w s' ws'
          refine Words.word (g := c :: g) ?_ hne hw hs hr
          intro d hd
          rcases List.mem_cons.1 hd with rfl | hd
          · exact hcb
          · exact hg d hd
      split
      · rename_i h; subst h; exact hw
      · rename_i h
        have := Words.word (g := []) (by simp) h hcur (s := c :: s) (by simp; exact hcb) hw
        simpa using this
    · rw [if_neg hc]
      have := ih (cur ++ [c]) (by
        intro d hd
        rcases List.mem_append.1 hd with hd | hd
        · exact hcur d hd
        · rw [List.mem_singleton] at hd; subst hd
          intro h; exact hc ((isSpace_iff _).2 h))
      simpa using this

theorem takeWhile_all {α : Type} {p : α → Bool} {l : List α} (h : ∀ a ∈ l, p a = true) : l.takeWhile p = l := by
  induction l with
  | nil => rfl
  | cons a l ih => rw [List.takeWhile_cons, if_pos (h a (by simp)), ih (fun b hb => h b (by simp [hb]))]

/-- The words of a text without zero characters. -/
theorem words_spec {text : Str} (h : '\x00' ∉ text) : Words text (words text) := by
  unfold words
  rw [takeWhile_all (by intro a ha; simp; rintro rfl; exact h ha)]
  exact wordsFrom_spec text [] (by simp)

theorem words_nonblank {text : Str} {ws : List Str} (h : Words text ws) : ∀ w ∈ ws, w ≠ [] ∧ ∀ c ∈ w, c ∉ blank := by
  induction h with
  | none => simp
  | word _ hne hw _ _ ih =>
    intro w hm
    rcases List.mem_cons.1 hm with rfl | hm
    · exact ⟨hne, hw⟩
    · exact ih w hm

/-- The words of a text are unique. -/
theorem words_unique {text : Str} {ws vs : List Str} (h1 : Words text ws) (h2 : Words text vs) : ws = vs := by
  have hsplit : ∀ (g w s g' w' s' : Str), (∀ c ∈ g, c ∈ blank) → w ≠ [] → (∀ c ∈ w, c ∉ blank) →
      (∀ c, s.head? = some c → c ∈ blank) → (∀ c ∈ g', c ∈ blank) → w' ≠ [] → (∀ c ∈ w', c ∉ blank) →
      (∀ c, s'.head? = some c → c ∈ blank) → g ++ w ++ s = g' ++ w' ++ s' → w = w' ∧ s = s' := by
    intro g w s g' w' s' hg hne hw hs hg' hne' hw' hs' h
    -- leading blanks
    have hlead : ∀ (g g' w w' s s' : Str), (∀ c ∈ g, c ∈ blank) → (∀ c ∈ g', c ∈ blank) → w ≠ [] → w' ≠ [] →
        (∀ c ∈ w, c ∉ blank) → (∀ c ∈ w', c ∉ blank) → g ++ (w ++ s) = g' ++ (w' ++ s') → w ++ s = w' ++ s' := by
      intro g
      induction g with
      | nil =>
        intro g' w w' s s' _ hg' hne hne' hw hw' h
        cases g' with
        | nil => simpa using h
        | cons d g' =>
          cases w with
          | nil => exact absurd rfl hne
          | cons x w =>
            simp only [List.nil_append, List.cons_append, List.cons.injEq] at h
            exact absurd (hg' d (by simp)) (h.1 ▸ hw x (by simp))
      | cons c g ih =>
        intro g' w w' s s' hg hg' hne hne' hw hw' h
        cases g' with
        | nil =>
          cases w' with
          | nil => exact absurd rfl hne'
          | cons x w' =>
            simp only [List.nil_append, List.cons_append, List.cons.injEq] at h
            exact absurd (hg c (by simp)) (h.1 ▸ hw' x (by simp))
        | cons d g' =>
          simp only [List.cons_append, List.cons.injEq] at h
          exact ih g' w w' s s' (fun c hc => hg c (by simp [hc])) (fun c hc => hg' c (by simp [hc])) hne hne' hw hw' h.2
    have h' := hlead g g' w w' s s' hg hg' hne hne' hw hw' (by simpa using h)
    clear h hlead hne hne'
    induction w generalizing w' with
    | nil =>
      cases w' with
      | nil => exact ⟨rfl, by simpa using h'⟩
      | cons x w' =>
        simp only [List.nil_append, List.cons_append] at h'
        exact absurd (hs x (by simp [h'])) (hw' x (by simp))
    | cons c w ih =>
      cases w' with
      | nil =>
        simp only [List.nil_append, List.cons_append] at h'
        exact absurd (hs' c (by simp [← h'])) (hw c (by simp))
      | cons x w' =>
        simp only [List.cons_append, List.cons.injEq] at h'
        obtain ⟨h1, h2⟩ := ih w' (fun c hc => hw c (by simp [hc])) (fun c hc => hw' c (by simp [hc])) h'.2
        exact ⟨by rw [h'.1, h1], h2⟩
  induction h1 generalizing vs with
  | none hg =>
    cases h2 with
    | none => rfl
    | word hg' hne' hw' hs' hr' =>
      rename_i g' w' s' ws'
      cases w' with
      | nil => exact absurd rfl hne'
      | cons x w' => exact absurd (hg x (by simp)) (hw' x (by simp))
  | word hg hne hw hs hr ih =>
    rename_i g w s ws
    generalize ht : g ++ w ++ s = text at h2
    cases h2 with
    | none h =>
      cases w with
      | nil => exact absurd rfl hne
      | cons x w => exact absurd (h x (by simp [← ht])) (hw x (by simp))
    | word hg' hne' hw' hs' hr' =>
      obtain ⟨rfl, rfl⟩ := hsplit _ _ _ _ _ _ hg hne hw hs hg' hne' hw' hs' ht
      rw [ih hr']

/-- What the loop of `print_text` writes from the second word on: first the rest of the current line, then further
lines. -/
theorem printWords_eq (c : Console) (tab : Nat) (shown printed : Str → Str) :
    ∀ (ws : List Str) (pos : Nat) (h : HelpState),
    (∀ w ∈ ws, Marked w (shown w) ∧ toText c.ndebug c.tty w = .ok (printed w)) →
    ∃ cur ls, ws = cur ++ ls.flatten ∧ (∀ l ∈ ls, l ≠ []) ∧
      printWords c tab pos ws h = .ok () { h with out := h.out ++ (cur.flatMap (fun w => ' ' :: printed w)
        ++ ls.flatMap (fun l => '\n' :: (blanks tab ++ joined [' '] (l.map printed)))) } ∧
      (cur ≠ [] → pos + (cur.flatMap (fun w => ' ' :: shown w)).length ≤ c.layout.screenWidth) ∧
      (∀ l ∈ ls, tab + lineWidth (l.map shown) ≤ c.layout.screenWidth ∨ ∃ w, l = [w]) ∧
      (∀ w r b, ls = (w :: r) :: b →
        c.layout.screenWidth < pos + (cur.flatMap (fun w => ' ' :: shown w)).length + 1 + (shown w).length) ∧
      (∀ a l w r b, ls = a ++ l :: (w :: r) :: b →
        c.layout.screenWidth < tab + lineWidth (l.map shown) + 1 + (shown w).length) := by
  intro ws
  induction ws with
  | nil =>
    intro pos h _
    exact ⟨[], [], by simp, by simp, by simp [printWords, M.pure], by simp, by simp, by simp, by simp⟩
  | cons w ws ih =>
    intro pos h hws
    obtain ⟨hm, ht⟩ := hws w (by simp)
    have hws' : ∀ v ∈ ws, Marked v (shown v) ∧ toText c.ndebug c.tty v = .ok (printed v) :=
      fun v hv => hws v (by simp [hv])
    have hwd := marked_textWidth hm
    by_cases hfit : pos + 1 + textWidth w > c.layout.screenWidth
    · -- a new line starts
      obtain ⟨cur, ls, h1, h2, h3, h4, h5, h6, h7⟩ :=
        ih (tab + textWidth w) { h with out := h.out ++ ('\n' :: blanks tab) ++ printed w } hws'
      refine ⟨[], (w :: cur) :: ls, by simp [h1], ?_, ?_, by simp, ?_, ?_, ?_⟩
      · intro l hl
        rcases List.mem_cons.1 hl with rfl | hl
        · simp
        · exact h2 l hl
      · unfold printWords
        rw [if_pos hfit]
        simp only [M.bind, emit, M.modify, emitText, ht]
        rw [h3]
        simp [joined_cons, List.flatMap_map]
      · intro l hl
        rcases List.mem_cons.1 hl with rfl | hl
        · cases cur with
          | nil => exact Or.inr ⟨w, rfl⟩
          | cons x cur =>
            left
            have := h4 (by simp)
            simp only [lineWidth, List.map_cons, joined_cons, List.length_append] at this ⊢
            simp only [List.flatMap_cons, List.length_append, List.flatMap_map] at this ⊢
            simp only [List.cons_append, List.nil_append, List.length_cons, List.length_nil] at this ⊢
            omega
        · exact h5 l hl
      · intro w' r b he
        obtain ⟨he, _⟩ := List.cons.inj he
        obtain ⟨rfl, _⟩ := List.cons.inj he
        simp only [List.flatMap_nil, List.length_nil]
        omega
      · intro a l w' r b he
        cases a with
        | nil =>
          simp only [List.nil_append, List.cons.injEq] at he
          obtain ⟨rfl, rfl⟩ := he
          have := h6 w' r b rfl
          simp only [lineWidth, List.map_cons, joined_cons, List.length_append, List.flatMap_map]
          simp only [List.cons_append, List.nil_append]
          omega
        | cons x a =>
          simp only [List.cons_append, List.cons.injEq] at he
          exact h7 a l w' r b he.2
    · -- the word stays on the line
      obtain ⟨cur, ls, h1, h2, h3, h4, h5, h6, h7⟩ :=
        ih (pos + (textWidth w + 1)) { h with out := h.out ++ [' '] ++ printed w } hws'
      refine ⟨w :: cur, ls, by simp [h1], h2, ?_, ?_, h5, ?_, h7⟩
      · unfold printWords
        rw [if_neg hfit]
        simp only [M.bind, emit, M.modify, emitText, ht]
        rw [h3]
        simp
      · intro _
        cases cur with
        | nil => simp; omega
        | cons x cur =>
          have := h4 (by simp)
          simp only [List.flatMap_cons, List.length_append, List.length_cons] at this ⊢
          omega
      · intro w' r b he
        have := h6 w' r b he
        simp only [List.flatMap_cons, List.length_append, List.length_cons] at this ⊢
        omega

/-! ### What a terminal shows -/

theorem terminal_append {a b c d : Str} (h1 : Terminal a b) (h2 : Terminal c d) : Terminal (a ++ c) (b ++ d) := by
  induction h1 with
  | nil => simpa using h2
  | char hc _ ih => exact .char hc ih
  | sequence hd _ ih => exact .sequence hd ih

theorem terminal_plain {s : Str} (h : '\x1b' ∉ s) : Terminal s s := by
  induction s with
  | nil => exact .nil
  | cons c s ih =>
    simp only [List.mem_cons, not_or] at h
    exact .char (Ne.symm h.1) (ih h.2)

theorem terminal_ansi (tty : Bool) {c : Char} (h : c.isDigit) : Terminal (ansi tty c) [] := by
  unfold ansi
  split
  · exact .sequence h .nil
  · exact .nil

/-- `to_text` of marked up text, on any terminal. -/
theorem marked_toText_terminal (nd tty : Bool) {s t : Str} (h : Marked s t) (he : '\x1b' ∉ s) :
    ∃ o, toText nd tty s = .ok o ∧ Terminal o t := by
  induction h with
  | nil => exact ⟨[], by simp [toText], .nil⟩
  | char hc _ ih =>
    simp only [List.mem_cons, not_or] at he
    obtain ⟨o, h1, h2⟩ := ih he.2
    exact ⟨_, by rw [toText_char nd tty hc, h1]; rfl, .char (Ne.symm he.1) h2⟩
  | dash _ ih =>
    simp only [List.mem_cons, not_or] at he
    obtain ⟨o, h1, h2⟩ := ih he.2.2
    exact ⟨_, by rw [toText_dash, h1]; rfl, .char (by decide) h2⟩
  | font hc _ ih =>
    simp only [List.mem_cons, not_or] at he
    obtain ⟨o, h1, h2⟩ := ih he.2.2.2
    rw [toText_font, h1]
    simp only [List.mem_cons, List.not_mem_nil, or_false] at hc
    rcases hc with rfl | rfl | rfl
    · exact ⟨_, rfl, terminal_append (terminal_ansi tty (by decide)) h2⟩
    · exact ⟨_, rfl, terminal_append (terminal_ansi tty (by decide)) h2⟩
    · exact ⟨_, rfl, terminal_append (terminal_ansi tty (by decide)) h2⟩
  | unknown hc _ ih =>
    simp only [List.mem_cons, not_or] at he
    obtain ⟨o, h1, h2⟩ := ih he.2.2.2
    rw [toText_font, h1]
    simp only [List.mem_cons, not_or] at hc
    refine ⟨_, ?_, .char (by decide) (.char (by decide) (.char (Ne.symm he.2.2.1) h2))⟩
    simp [hc.1, hc.2.1, hc.2.2.1, prependTo]

/-- The characters shown for marked up text. -/
def shownOf (w : Str) : Str := match toText true false w with
  | .ok t => t
  | .error _ => []

/-- The characters printed for a text. -/
def printedOf (c : Console) (w : Str) : Str := match toText c.ndebug c.tty w with
  | .ok t => t
  | .error _ => []

theorem shownOf_marked {s t : Str} (h : Marked s t) : shownOf s = t := by
  unfold shownOf; rw [marked_toText true h]

theorem forall₂_shown {ws vs : List Str} (h : List.Forall₂ Marked ws vs) : vs = ws.map shownOf := by
  induction h with
  | nil => rfl
  | cons h _ ih => rw [List.map_cons, shownOf_marked h, ← ih]

theorem words_mem {text : Str} {ws : List Str} (h : Words text ws) : ∀ w ∈ ws, ∀ c ∈ w, c ∈ text := by
  induction h with
  | none => simp
  | word _ _ _ _ _ ih =>
    intro v hv c hc
    rcases List.mem_cons.1 hv with rfl | hv
    · simp [hc]
    · have := ih v hv c hc
      simp [this]

theorem blank_no_escape : ∀ c ∈ blank, c ≠ '\x1b' := by decide

theorem terminal_blanks (n : Nat) : Terminal (blanks n) (List.replicate n ' ') :=
  terminal_plain (by unfold blanks; intro h; have := List.eq_of_mem_replicate h; revert this; decide)

theorem terminal_flatMap {α : Type} (f g : α → Str) {l : List α} (h : ∀ a ∈ l, Terminal (f a) (g a)) :
    Terminal (l.flatMap f) (l.flatMap g) := by
  induction l with
  | nil => exact .nil
  | cons a l ih =>
    exact terminal_append (h a (by simp)) (ih fun b hb => h b (by simp [hb]))

theorem terminal_joined {l : List Str} (f g : Str → Str) (h : ∀ a ∈ l, Terminal (f a) (g a)) :
    Terminal (joined [' '] (l.map f)) (joined [' '] (l.map g)) := by
  cases l with
  | nil => exact .nil
  | cons a l =>
    rw [List.map_cons, List.map_cons, joined_cons, joined_cons, List.flatMap_map, List.flatMap_map]
    exact terminal_append (h a (by simp)) (terminal_flatMap _ _ fun b hb => .char (by decide) (h b (by simp [hb])))

end Sharg
