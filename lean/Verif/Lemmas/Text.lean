import Verif.Model.Text
import Verif.Spec.Text

/-!
# Lemmas about texts
-/

namespace Sharg

open Spec

/-! ### XML -/

theorem escapeXml_cons (c : Char) (s : Str) : escapeXml (c :: s) = escapeXmlChar c ++ escapeXml s := by
  simp [escapeXml]

theorem escapeXml_decodes (s : Str) : XmlDecodes (escapeXml s) s := by
  induction s with
  | nil => exact .nil
  | cons c s ih =>
    rw [escapeXml_cons]
    unfold escapeXmlChar
    split
    · subst_vars; exact .entity (by simp [entities]) ih
    split
    · subst_vars; exact .entity (by simp [entities]) ih
    split
    · subst_vars; exact .entity (by simp [entities]) ih
    split
    · subst_vars; exact .entity (by simp [entities]) ih
    split
    · subst_vars; exact .entity (by simp [entities]) ih
    · exact .char (by assumption) ih

theorem entity_prefix {e1 e2 s1 s2 : Str} {c1 c2 : Char} (h1 : (e1, c1) ∈ entities) (h2 : (e2, c2) ∈ entities)
    (h : e1 ++ s1 = e2 ++ s2) : c1 = c2 ∧ s1 = s2 := by
  simp only [entities, List.mem_cons, Prod.mk.injEq, List.not_mem_nil, or_false] at h1 h2
  rcases h1 with ⟨rfl, rfl⟩ | ⟨rfl, rfl⟩ | ⟨rfl, rfl⟩ | ⟨rfl, rfl⟩ | ⟨rfl, rfl⟩ <;>
  rcases h2 with ⟨rfl, rfl⟩ | ⟨rfl, rfl⟩ | ⟨rfl, rfl⟩ | ⟨rfl, rfl⟩ | ⟨rfl, rfl⟩ <;> simp_all

theorem entity_head {e : Str} {c : Char} (h : (e, c) ∈ entities) : ∃ r, e = '&' :: r := by
  simp only [entities, List.mem_cons, Prod.mk.injEq, List.not_mem_nil, or_false] at h
  rcases h with ⟨rfl, rfl⟩ | ⟨rfl, rfl⟩ | ⟨rfl, rfl⟩ | ⟨rfl, rfl⟩ | ⟨rfl, rfl⟩ <;> exact ⟨_, rfl⟩

theorem xmlDecodes_unique {s t u : Str} (h1 : XmlDecodes s t) (h2 : XmlDecodes s u) : t = u := by
  induction h1 generalizing u with
  | nil =>
    generalize hs : ([] : Str) = s at h2
    cases h2 with
    | nil => rfl
    | char => simp at hs
    | entity he => obtain ⟨r, rfl⟩ := entity_head he; simp at hs
  | char hc _ ih =>
    rename_i c s t _
    generalize hs : c :: s = s' at h2
    cases h2 with
    | nil => simp at hs
    | char hc' hd => obtain ⟨rfl, rfl⟩ := List.cons.inj hs; rw [ih hd]
    | entity he => obtain ⟨r, rfl⟩ := entity_head he; simp at hs; exact absurd hs.1 hc
  | entity he _ ih =>
    rename_i e c s t _
    generalize hs : e ++ s = s' at h2
    cases h2 with
    | nil => obtain ⟨r, rfl⟩ := entity_head he; simp at hs
    | char hc' => obtain ⟨r, rfl⟩ := entity_head he; simp at hs; exact absurd hs.1.symm hc'
    | entity he' hd =>
      obtain ⟨rfl, rfl⟩ := entity_prefix he he' hs
      rw [ih hd]

theorem escapeXmlChar_entity (c : Char) :
    (escapeXmlChar c = [c] ∧ c ∉ ['"', '\'', '<', '>', '&']) ∨ (escapeXmlChar c, c) ∈ entities := by
  unfold escapeXmlChar
  split
  · subst_vars; simp [entities]
  split
  · subst_vars; simp [entities]
  split
  · subst_vars; simp [entities]
  split
  · subst_vars; simp [entities]
  split
  · subst_vars; simp [entities]
  · left; simp_all

theorem entity_chars {e : Str} {c : Char} (h : (e, c) ∈ entities) : ∀ d ∈ e, d ∉ ['"', '\'', '<', '>'] := by
  simp only [entities, List.mem_cons, Prod.mk.injEq, List.not_mem_nil, or_false] at h
  rcases h with ⟨rfl, rfl⟩ | ⟨rfl, rfl⟩ | ⟨rfl, rfl⟩ | ⟨rfl, rfl⟩ | ⟨rfl, rfl⟩ <;> decide

theorem entity_amp {e : Str} {c : Char} (h : (e, c) ∈ entities) : ∀ p q, e = p ++ '&' :: q → p = [] := by
  intro p q hp
  have h0 : '&' ∉ e.tail := by
    simp only [entities, List.mem_cons, Prod.mk.injEq, List.not_mem_nil, or_false] at h
    rcases h with ⟨rfl, rfl⟩ | ⟨rfl, rfl⟩ | ⟨rfl, rfl⟩ | ⟨rfl, rfl⟩ | ⟨rfl, rfl⟩ <;> decide
  cases p with
  | nil => rfl
  | cons x p => subst hp; simp at h0

/-! ### Flags -/

theorem eraseFromLast_append (c : Char) (s t : Str) (h : c ∉ t) : eraseFromLast c (s ++ c :: t) = some s := by
  have h0 : ∀ t : Str, c ∉ t → eraseFromLast c t = none := by
    intro t
    induction t with
    | nil => intro; rfl
    | cons d t ih =>
      intro h
      simp only [List.mem_cons, not_or] at h
      simp [eraseFromLast, ih h.2, Ne.symm h.1]
  induction s with
  | nil => simp [eraseFromLast, h0 t h]
  | cons d s ih => simp [eraseFromLast, ih]

theorem flagGroup_eq (fs : Str) (hne : fs ≠ []) :
    (fs.flatMap fun c => ['-', c, ',', ' ']) = joined ", ".toList (fs.map fun c => ['-', c]) ++ [',', ' '] := by
  induction fs with
  | nil => exact absurd rfl hne
  | cons c fs ih =>
    cases fs with
    | nil => simp [joined]
    | cons d fs => rw [List.flatMap_cons, ih (by simp)]; simp [joined]

theorem expandMultipleFlags_eq (fs : Str) (last : Char) (hne : fs ≠ []) :
    expandMultipleFlags ('-' :: (fs ++ [last])) =
      .ok (joined ", ".toList (fs.map fun c => ['-', c]) ++ "and -".toList ++ [last]) := by
  unfold expandMultipleFlags
  simp only [List.head?_cons, if_pos, List.tail_cons, List.getLast?_append, List.getLast?_singleton,
    Option.some_or, List.dropLast_append_cons, List.dropLast_singleton, List.append_nil]
  rw [flagGroup_eq fs hne, eraseFromLast_append _ _ _ (by decide)]
  simp

/-! ### Markup -/

theorem toText_char (nd tty : Bool) {c : Char} (hc : c ≠ '\\') (s : Str) :
    toText nd tty (c :: s) = prependTo [c] (toText nd tty s) := by
  rw [toText.eq_def]; simp [hc]

theorem toText_dash (nd tty : Bool) (s : Str) :
    toText nd tty ('\\' :: '-' :: s) = prependTo ['-'] (toText nd tty s) := by
  rw [toText.eq_def]; simp

theorem toText_font (nd tty : Bool) (e : Char) (s : Str) :
    toText nd tty ('\\' :: 'f' :: e :: s) =
      prependTo (if e = 'I' then ansi tty '4' else if e = 'B' then ansi tty '1' else if e = 'P' then ansi tty '0'
        else ['\\', 'f', e]) (toText nd tty s) := by
  rw [toText.eq_def]; simp only [ne_eq, not_true_eq_false, if_false, if_true, Char.reduceEq]
  split
  · rfl
  split
  · rfl
  split <;> rfl

theorem toText_escape (nd tty : Bool) {d : Char} (h1 : d ≠ '-') (h2 : d ≠ 'f') (s : Str) :
    toText nd tty ('\\' :: d :: s) = prependTo ['\\', d] (toText nd tty s) := by
  rw [toText.eq_def]; simp [h1, h2]

theorem toText_end (nd tty : Bool) : toText nd tty ['\\'] = .error (endReached nd) := by
  rw [toText.eq_def]; simp

theorem toText_end_f (nd tty : Bool) : toText nd tty ['\\', 'f'] = .error (endReached nd) := by
  rw [toText.eq_def]; simp

theorem textWidth_char {c : Char} (hc : c ≠ '\\') (s : Str) : textWidth (c :: s) = 1 + textWidth s := by
  rw [textWidth.eq_def]; simp [hc]

theorem textWidth_dash (s : Str) : textWidth ('\\' :: '-' :: s) = 1 + textWidth s := by
  rw [textWidth.eq_def]; simp

theorem textWidth_font {e : Char} (h : e ∈ ['B', 'I', 'P']) (s : Str) :
    textWidth ('\\' :: 'f' :: e :: s) = textWidth s := by
  simp only [List.mem_cons, List.not_mem_nil, or_false] at h
  rw [textWidth.eq_def]; simp [h]

theorem textWidth_unknown {e : Char} (h : e ∉ ['B', 'I', 'P']) (s : Str) :
    textWidth ('\\' :: 'f' :: e :: s) = 2 + textWidth (e :: s) := by
  simp only [List.mem_cons, List.not_mem_nil, or_false] at h
  rw [textWidth.eq_def]; simp only [ne_eq, not_true_eq_false, if_false, if_true, Char.reduceEq, or_self, h]
  rw [textWidth_char (by decide)]
  omega

theorem marked_toText (nd : Bool) {s t : Str} (h : Marked s t) : toText nd false s = .ok t := by
  induction h with
  | nil => rfl
  | char hc _ ih => rw [toText_char _ _ hc, ih]; rfl
  | dash _ ih => rw [toText_dash, ih]; rfl
  | font hc _ ih =>
    simp only [List.mem_cons, List.not_mem_nil, or_false] at hc
    rw [toText_font, ih]
    rcases hc with rfl | rfl | rfl <;> rfl
  | unknown hc _ ih =>
    simp only [List.mem_cons, List.not_mem_nil, or_false, not_or] at hc
    rw [toText_font, ih]
    simp [prependTo, hc]

theorem marked_textWidth {s t : Str} (h : Marked s t) : textWidth s = t.length := by
  induction h with
  | nil => rfl
  | char hc _ ih => rw [textWidth_char hc, ih, List.length_cons, Nat.add_comm]
  | dash _ ih => rw [textWidth_dash, ih, List.length_cons, Nat.add_comm]
  | font hc _ ih => rw [textWidth_font hc, ih]
  | unknown hc _ ih =>
    simp only [List.mem_cons, List.not_mem_nil, or_false, not_or] at hc
    rw [textWidth_unknown (by simp [hc]), textWidth_char (by simp [hc]), ih]
    simp only [List.length_cons]
    omega

/-! ### Quoting -/

/-- The part of `quoted` between the quotation marks. -/
def quoteBody (s : Str) : Str := s.flatMap fun c => if c = '"' ∨ c = '\\' then ['\\', c] else [c]

theorem quoted_eq (s : Str) : quoted s = '"' :: (quoteBody s ++ ['"']) := by simp [quoted, quoteBody]

theorem quoteBody_cons (c : Char) (s : Str) :
    quoteBody (c :: s) = (if c = '"' ∨ c = '\\' then ['\\', c] else [c]) ++ quoteBody s := by simp [quoteBody]

/-- A quoted text can be told from what follows it. -/
theorem quoteBody_split {s t u v : Str} (h : quoteBody s ++ '"' :: u = quoteBody t ++ '"' :: v) : s = t ∧ u = v := by
  induction s generalizing t with
  | nil =>
    cases t with
    | nil => simpa [quoteBody] using h
    | cons d t =>
      exfalso
      rw [quoteBody_cons] at h
      by_cases hd : d = '"' ∨ d = '\\'
      · simp [quoteBody, hd] at h
      · simp only [hd, if_false] at h
        simp only [quoteBody, List.flatMap_nil, List.nil_append, List.cons_append] at h
        exact hd (Or.inl (List.cons.inj h).1.symm)
  | cons c s ih =>
    rw [quoteBody_cons] at h
    cases t with
    | nil =>
      exfalso
      by_cases hc : c = '"' ∨ c = '\\'
      · simp [quoteBody, hc] at h
      · simp only [hc, if_false] at h
        simp only [quoteBody, List.flatMap_nil, List.nil_append, List.cons_append] at h
        exact hc (Or.inl (List.cons.inj h).1)
    | cons d t =>
      rw [quoteBody_cons] at h
      by_cases hc : c = '"' ∨ c = '\\'
      · by_cases hd : d = '"' ∨ d = '\\'
        · simp only [hc, hd, if_true, List.cons_append, List.nil_append, List.cons.injEq, true_and] at h
          obtain ⟨rfl, h⟩ := h
          obtain ⟨rfl, rfl⟩ := ih h
          exact ⟨rfl, rfl⟩
        · simp only [hc, hd, if_true, if_false, List.cons_append, List.nil_append, List.cons.injEq] at h
          exact absurd (Or.inr h.1.symm) hd
      · by_cases hd : d = '"' ∨ d = '\\'
        · simp only [hc, hd, if_true, if_false, List.cons_append, List.nil_append, List.cons.injEq] at h
          exact absurd (Or.inr h.1) hc
        · simp only [hc, hd, if_false, List.cons_append, List.nil_append, List.cons.injEq] at h
          obtain ⟨rfl, h⟩ := h
          obtain ⟨rfl, rfl⟩ := ih h
          exact ⟨rfl, rfl⟩

theorem quoted_injective {s t : Str} (h : quoted s = quoted t) : s = t := by
  rw [quoted_eq, quoted_eq] at h
  exact (quoteBody_split (List.cons.inj h).2).1

/-- Lists of items can be told apart if each item can be told from what follows it. -/
theorem showList_injective {α : Type} (f : α → Str)
    (hf : ∀ a b u v, (u = [] ∨ (∃ x, u = ',' :: x) ∨ ∃ x, u = ']' :: x) → (v = [] ∨ (∃ x, v = ',' :: x) ∨ ∃ x, v = ']' :: x) →
      f a ++ u = f b ++ v → a = b ∧ u = v)
    (hne : ∀ a, ∃ c r, f a = c :: r ∧ c ≠ ']')
    {l m : List α} (h : showList (l.map f) = showList (m.map f)) : l = m := by
  have hrest : ∀ l m : List α,
      (l.map f).flatMap (fun y => [',', ' '] ++ y) ++ [']'] = (m.map f).flatMap (fun y => [',', ' '] ++ y) ++ [']'] →
      l = m := by
    intro l
    induction l with
    | nil =>
      intro m h
      cases m with
      | nil => rfl
      | cons b m => simp at h
    | cons a l ih =>
      intro m h
      cases m with
      | nil => simp at h
      | cons b m =>
        simp only [List.map_cons, List.flatMap_cons, List.append_assoc, List.cons_append, List.nil_append,
          List.cons.injEq, true_and] at h
        have := hf a b _ _ ?_ ?_ h
        · obtain ⟨rfl, h⟩ := this
          rw [ih m (by simpa using h)]
        · cases l <;> simp
        · cases m <;> simp
  cases l with
  | nil =>
    cases m with
    | nil => rfl
    | cons b m =>
      exfalso
      obtain ⟨c, r, hc, hn⟩ := hne b
      simp only [showList, List.map_nil, List.map_cons, hc] at h
      simp at h
  | cons a l =>
    cases m with
    | nil =>
      exfalso
      obtain ⟨c, r, hc, hn⟩ := hne a
      simp only [showList, List.map_nil, List.map_cons, hc] at h
      simp at h
    | cons b m =>
      simp only [showList, List.map_cons, List.append_assoc, List.cons_append, List.nil_append,
        List.cons.injEq, true_and] at h
      have := hf a b _ _ ?_ ?_ h
      · obtain ⟨rfl, h⟩ := this
        rw [hrest l m (by simpa using h)]
      · cases l <;> simp
      · cases m <;> simp

theorem showList_quoted_injective {l m : List Str} (h : showList (l.map quoted) = showList (m.map quoted)) : l = m := by
  apply showList_injective quoted _ _ h
  · intro a b u v _ _ h
    rw [quoted_eq, quoted_eq] at h
    simp only [List.cons_append, List.cons.injEq, true_and, List.append_assoc, List.nil_append] at h
    exact quoteBody_split h
  · intro a
    exact ⟨'"', _, quoted_eq a, by decide⟩

end Sharg
