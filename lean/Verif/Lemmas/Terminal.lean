import Verif.Props.Outline
import Verif.Spec.Terminal

/-!
# Lemmas about pages on different terminals
-/

namespace Sharg

open Spec

/-! ### Font sequences -/

theorem adorned_refl (tty : Bool) (s : Str) : Adorned tty s s := by
  induction s with
  | nil => exact .nil
  | cons c s ih => exact .char ih

theorem adorned_append {tty : Bool} {a b s t : Str} (h1 : Adorned tty a s) (h2 : Adorned tty b t) :
    Adorned tty (a ++ b) (s ++ t) := by
  induction h1 with
  | nil => exact h2
  | char _ ih => exact .char ih
  | font h hd _ ih => exact .font h hd ih

theorem adorned_ansi (tty : Bool) {d : Char} (h : d ∈ ['0', '1', '4']) : Adorned tty (ansi tty d) [] := by
  unfold ansi
  cases tty with
  | true => exact .font rfl h .nil
  | false => exact .nil

theorem adorned_bold (pe : PageEnv) (f : Format) (h1 : f ≠ .html) (h2 : f ≠ .man) (s : Str) : Adorned pe.tty (boldText pe f s) s := by
  rw [boldText_eq _ _ _ h1 h2]
  have := adorned_append (adorned_append (adorned_ansi pe.tty (d := '1') (by simp)) (adorned_refl _ s))
    (adorned_ansi pe.tty (d := '0') (by simp))
  rw [List.nil_append, List.append_nil] at this
  exact this

theorem console_adorned {tty : Bool} {w p : Str} (h : ConsoleText tty w p) : ∃ v, ConsoleText false w v ∧ Adorned tty p v := by
  induction h with
  | nil => exact ⟨[], .nil, .nil⟩
  | char hc _ ih => obtain ⟨v, h1, h2⟩ := ih; exact ⟨_, .char hc h1, .char h2⟩
  | dash _ ih => obtain ⟨v, h1, h2⟩ := ih; exact ⟨_, .dash h1, .char h2⟩
  | font hc _ ih =>
    obtain ⟨v, h1, h2⟩ := ih
    refine ⟨_, .font hc h1, ?_⟩
    cases tty with
    | true =>
      refine .font rfl ?_ h2
      simp only [List.mem_cons, Prod.mk.injEq, List.not_mem_nil, or_false] at hc
      rcases hc with ⟨-, rfl⟩ | ⟨-, rfl⟩ | ⟨-, rfl⟩ <;> decide
    | false => exact h2
  | unknown hc _ ih => obtain ⟨v, h1, h2⟩ := ih; exact ⟨_, .unknown hc h1, .char (.char (.char h2))⟩
  | other hc _ ih => obtain ⟨v, h1, h2⟩ := ih; exact ⟨_, .other hc h1, .char (.char h2)⟩

theorem console_functional {tty : Bool} {w p q : Str} (h : ConsoleText tty w p) (h' : ConsoleText tty w q) : p = q := by
  induction h generalizing q with
  | nil => cases h'; rfl
  | char hc _ ih =>
    cases h' with
    | char _ h => rw [ih h]
    | dash => exact absurd rfl hc
    | font => exact absurd rfl hc
    | unknown => exact absurd rfl hc
    | other => exact absurd rfl hc
  | dash _ ih =>
    cases h' with
    | char hc _ => exact absurd rfl hc
    | dash h => rw [ih h]
    | other hc _ => exact absurd (by simp) hc
  | @font c d _ _ hc _ ih =>
    cases h' with
    | char hc _ => exact absurd rfl hc
    | @font c' d' _ _ hc' h =>
      have : d = d' := by
        simp only [List.mem_cons, Prod.mk.injEq, List.not_mem_nil, or_false] at hc hc'
        rcases hc with ⟨rfl, rfl⟩ | ⟨rfl, rfl⟩ | ⟨rfl, rfl⟩ <;> rcases hc' with ⟨h, rfl⟩ | ⟨h, rfl⟩ | ⟨h, rfl⟩ <;>
          first | rfl | cases h
      rw [ih h, this]
    | unknown hc' _ =>
      simp only [List.mem_cons, Prod.mk.injEq, List.not_mem_nil, or_false] at hc
      rcases hc with ⟨rfl, rfl⟩ | ⟨rfl, rfl⟩ | ⟨rfl, rfl⟩ <;> simp at hc'
    | other hc _ => exact absurd (by simp) hc
  | unknown hc _ ih =>
    cases h' with
    | char hc _ => exact absurd rfl hc
    | font hc' _ =>
      simp only [List.mem_cons, Prod.mk.injEq, List.not_mem_nil, or_false] at hc'
      rcases hc' with ⟨rfl, rfl⟩ | ⟨rfl, rfl⟩ | ⟨rfl, rfl⟩ <;> simp at hc
    | unknown _ h => rw [ih h]
    | other hc _ => exact absurd (by simp) hc
  | other hc _ ih =>
    cases h' with
    | char hc _ => exact absurd rfl hc
    | dash => exact absurd (by simp) hc
    | font => exact absurd (by simp) hc
    | unknown => exact absurd (by simp) hc
    | other _ h => rw [ih h]

theorem console_chars {w p : Str} (h : ConsoleText false w p) : ∀ c ∈ p, c ∈ w := by
  induction h with
  | nil => exact fun _ h => h
  | char _ _ ih =>
    intro c hc
    rcases List.mem_cons.1 hc with h | h
    · exact List.mem_cons.2 (Or.inl h)
    · exact List.mem_cons_of_mem _ (ih c h)
  | dash _ ih =>
    intro c hc
    rcases List.mem_cons.1 hc with h | h
    · rw [h]; simp
    · exact List.mem_cons_of_mem _ (List.mem_cons_of_mem _ (ih c h))
  | font _ _ ih =>
    intro c hc
    exact List.mem_cons_of_mem _ (List.mem_cons_of_mem _ (List.mem_cons_of_mem _ (ih c hc)))
  | unknown _ _ ih =>
    intro c hc
    simp only [List.mem_cons] at hc ⊢
    rcases hc with h | h | h | h
    · exact Or.inl h
    · exact Or.inr (Or.inl h)
    · exact Or.inr (Or.inr (Or.inl h))
    · exact Or.inr (Or.inr (Or.inr (ih c h)))
  | other _ _ ih =>
    intro c hc
    simp only [List.mem_cons] at hc ⊢
    rcases hc with h | h | h
    · exact Or.inl h
    · exact Or.inr (Or.inl h)
    · exact Or.inr (Or.inr (ih c h))

/-! ### Words -/

theorem words_gap {g s : Str} {ws : List Str} (hg : ∀ c ∈ g, c ∈ blank) (h : Words s ws) : Words (g ++ s) ws := by
  cases h with
  | none h =>
    refine .none fun c hc => ?_
    rcases List.mem_append.1 hc with k | k
    · exact hg c k
    · exact h c k
  | @word g' w s ws h1 h2 h3 h4 h5 =>
    have : g ++ (g' ++ w ++ s) = (g ++ g') ++ w ++ s := by simp
    rw [this]
    refine .word (fun c hc => ?_) h2 h3 h4 h5
    rcases List.mem_append.1 hc with k | k
    · exact hg c k
    · exact h1 c k

theorem words_append {a s : Str} {us vs : List Str} {c : Char} (ha : Words a us) (hc : c ∈ blank) (h : Words (c :: s) vs) :
    Words (a ++ c :: s) (us ++ vs) := by
  induction ha with
  | none hg => exact words_gap hg h
  | @word g w t ws h1 h2 h3 h4 _ ih =>
    rw [List.append_assoc]
    refine .word h1 h2 h3 (fun d hd => ?_) ih
    cases t with
    | nil => cases hd; exact hc
    | cons e t => exact h4 d hd

/-- Any text has words. -/
theorem words_exist (s : Str) : ∃ ws, Words s ws := ⟨_, by simpa using wordsFrom_spec s [] (by simp)⟩

theorem blanks_blank {s : Str} (h : Blanks s) : ∀ c ∈ s, c ∈ blank := by
  intro c hc
  rcases h c hc with rfl | rfl <;> decide

/-- The text has these words, and whatever follows does not continue the last one. -/
def Closed (x : Str) (ws : List Str) : Prop := ∀ r vs, Words r vs → Words (x ++ r) (ws ++ vs)

theorem closed_words {x : Str} {ws : List Str} (h : Closed x ws) : Words x ws := by
  have := h [] [] (.none fun _ h => by cases h)
  simpa using this

theorem closed_blank {a : Str} {ws : List Str} {c : Char} (h : Words a ws) (hc : c ∈ blank) : Closed (a ++ [c]) ws := by
  intro r vs hr
  rw [List.append_assoc]
  refine words_append h hc (words_gap (g := [c]) (fun d hd => ?_) hr)
  rw [List.mem_singleton.1 hd]; exact hc

theorem closed_nil : Closed [] [] := fun _ _ h => h

theorem closed_append {x y : Str} {us vs : List Str} (h1 : Closed x us) (h2 : Closed y vs) : Closed (x ++ y) (us ++ vs) := by
  intro r ws hr
  rw [List.append_assoc, List.append_assoc]
  exact h1 _ _ (h2 _ _ hr)

theorem woven_words {qs : List Str} {s : Str} {uss : List (List Str)} (h : Woven Blanks qs s) (hu : List.Forall₂ Words qs uss) :
    Closed s uss.flatten := by
  intro r vs hr
  induction h generalizing uss with
  | nil h => cases hu; exact words_gap (blanks_blank h) hr
  | @cons gap p ps c s hg hc _ ih =>
    cases hu with
    | cons h1 h2 =>
      rw [List.append_assoc, List.append_assoc, List.flatten_cons, List.append_assoc]
      exact words_gap (blanks_blank hg) (words_append h1 (blanks_blank hc c List.mem_cons_self) (ih h2))

theorem woven_adorned {tty : Bool} {ps qs : List Str} {o : Str} (h : Woven Blanks ps o) (hq : List.Forall₂ (Adorned tty) ps qs) :
    ∃ s, Adorned tty o s ∧ Woven Blanks qs s := by
  have head : ∀ (c : Char) (s t : Str), Blanks [c] → Adorned tty (c :: s) t → ∃ t', t = c :: t' := by
    intro c s t hc h
    cases h with
    | char h => exact ⟨_, rfl⟩
    | font =>
      have := hc '\x1b' List.mem_cons_self
      exact absurd this (by decide)
  induction h generalizing qs with
  | nil h => cases hq; exact ⟨_, adorned_refl _ _, .nil h⟩
  | @cons gap p ps c s hg hc _ ih =>
    cases hq with
    | cons h1 h2 =>
      obtain ⟨t, k1, k2⟩ := ih h2
      obtain ⟨t', rfl⟩ := head _ _ _ hc k1
      exact ⟨_, adorned_append (adorned_append (adorned_refl _ gap) h1) k1, .cons hg hc k2⟩

/-- A word that does not contain blanks. -/
theorem words_single {w : Str} (h : ∀ c ∈ w, c ∉ blank) : Words w (if w = [] then [] else [w]) := by
  split
  · rename_i e; subst e; exact .none (fun _ h => by cases h)
  · rename_i e
    have := Words.word (g := []) (s := []) (fun _ h => by cases h) e h (fun _ h => by cases h) (.none (g := []) fun _ h => by cases h)
    simpa using this

/-- The words that are not empty. -/
def inked (l : List Str) : List Str := l.flatMap fun w => if w = [] then [] else [w]

theorem inked_append (a b : List Str) : inked (a ++ b) = inked a ++ inked b := List.flatMap_append

theorem inked_spec {qs : List Str} (hq : ∀ q ∈ qs, ∀ c ∈ q, c ∉ blank) :
    List.Forall₂ Words qs (qs.map fun w => if w = [] then [] else [w]) := by
  induction qs with
  | nil => exact .nil
  | cons q qs ih => exact .cons (words_single (hq q List.mem_cons_self)) (ih fun x hx => hq x (List.mem_cons_of_mem _ hx))

theorem woven_inked {qs : List Str} {s : Str} (h : Woven Blanks qs s) (hq : ∀ q ∈ qs, ∀ c ∈ q, c ∉ blank) : Closed s (inked qs) := by
  unfold inked
  rw [List.flatMap_def]
  exact woven_words h (inked_spec hq)

/-! ### Texts with bold parts -/

/-- What the words of the text look like in a file. -/
def Shows (s : Str) (ws : List Str) : Prop := ∃ qs, List.Forall₂ (ConsoleText false) (words s) qs ∧ ws = inked qs

theorem forall₂_functional {l a b : List Str} (h1 : List.Forall₂ (ConsoleText false) l a) (h2 : List.Forall₂ (ConsoleText false) l b) :
    a = b := by
  induction h1 generalizing b with
  | nil => cases h2; rfl
  | cons h _ ih =>
    cases h2 with
    | cons h' h2 => rw [console_functional h h', ih h2]

theorem shows_functional {s : Str} {a b : List Str} (h1 : Shows s a) (h2 : Shows s b) : a = b := by
  obtain ⟨qs, g1, rfl⟩ := h1
  obtain ⟨rs, g2, rfl⟩ := h2
  rw [forall₂_functional g1 g2]

/-- The printed words `ps` show what `s` shows. -/
def PrintedAs (tty : Bool) (ps : List Str) (s : Str) : Prop :=
  ∃ qs zs, List.Forall₂ (Adorned tty) ps qs ∧ (∀ q ∈ qs, ∀ c ∈ q, c ∉ blank) ∧
    List.Forall₂ (ConsoleText false) (words s) zs ∧ inked qs = inked zs

theorem words_noblank (s : Str) : ∀ w ∈ words s, ∀ c ∈ w, c ∉ blank := fun w hw => (words_nonblank (words_untilZero s) w hw).2

theorem forall₂_plain {tty : Bool} {ws ps : List Str} (h : List.Forall₂ (ConsoleText tty) ws ps) (hw : ∀ w ∈ ws, ∀ c ∈ w, c ∉ blank) :
    ∃ qs, List.Forall₂ (Adorned tty) ps qs ∧ (∀ q ∈ qs, ∀ c ∈ q, c ∉ blank) ∧ List.Forall₂ (ConsoleText false) ws qs := by
  induction h with
  | nil => exact ⟨[], .nil, (fun _ h => by cases h), .nil⟩
  | @cons w p ws ps h _ ih =>
    obtain ⟨qs, h1, h2, h3⟩ := ih fun x hx => hw x (List.mem_cons_of_mem _ hx)
    obtain ⟨v, g1, g2⟩ := console_adorned h
    refine ⟨v :: qs, .cons g2 h1, ?_, .cons g1 h3⟩
    intro q hq c hc
    rcases List.mem_cons.1 hq with rfl | hq
    · exact hw w List.mem_cons_self c (console_chars g1 c hc)
    · exact h2 q hq c hc

theorem printedAs_self {tty : Bool} {s : Str} {ps : List Str} (h : List.Forall₂ (ConsoleText tty) (words s) ps) : PrintedAs tty ps s := by
  obtain ⟨qs, h1, h2, h3⟩ := forall₂_plain h (words_noblank s)
  exact ⟨qs, qs, h1, h2, h3, rfl⟩

theorem wordsFrom_more (a b : Str) (hb : b ≠ []) (s : Str) : ∃ w ws, wordsFrom b s = w :: ws ∧ wordsFrom (a ++ b) s = (a ++ w) :: ws := by
  induction s generalizing b with
  | nil => exact ⟨b, [], by simp [wordsFrom, hb], by simp [wordsFrom, hb]⟩
  | cons c s ih =>
    unfold wordsFrom
    split
    · rw [if_neg (by simp [hb])]
      exact ⟨b, _, rfl, rfl⟩
    · obtain ⟨w, ws, h1, h2⟩ := ih (b ++ [c]) (by simp)
      refine ⟨w, ws, h1, ?_⟩
      rw [List.append_assoc]
      exact h2

theorem wordsFrom_noblank (cur a s : Str) (h : ∀ c ∈ a, c ∉ blank) : wordsFrom cur (a ++ s) = wordsFrom (cur ++ a) s := by
  induction a generalizing cur with
  | nil => simp
  | cons c a ih =>
    rw [List.cons_append, wordsFrom, if_neg, ih _ fun x hx => h x (List.mem_cons_of_mem _ hx)]
    · simp
    · have := h c List.mem_cons_self
      simp only [blank, List.mem_cons, List.not_mem_nil, or_false, not_or] at this
      simp [isSpace, this]

/-- A mark before a text belongs to its first word or is a word of its own. -/
theorem words_mark (m z : Str) (hm : m ≠ []) (h : ∀ c ∈ m, c ∉ blank) (h0 : '\x00' ∉ m) :
    (∃ w ws, words z = w :: ws ∧ words (m ++ z) = (m ++ w) :: ws) ∨ words (m ++ z) = m :: words z := by
  unfold words
  rw [List.takeWhile_append_of_pos (by intro c hc; simp; rintro rfl; exact h0 hc), wordsFrom_noblank _ _ _ h, List.nil_append]
  generalize z.takeWhile _ = z
  cases z with
  | nil => right; simp [wordsFrom, hm]
  | cons c z =>
    by_cases hc : isSpace c = true
    · right
      simp [wordsFrom, hc, hm]
    · left
      obtain ⟨w, ws, h1, h2⟩ := wordsFrom_more m [c] (by simp) z
      refine ⟨w, ws, ?_, ?_⟩
      · rw [wordsFrom, if_neg hc]; exact h1
      · rw [wordsFrom, if_neg hc]; exact h2

theorem wordsFrom_space (cur a b : Str) : wordsFrom cur (a ++ ' ' :: b) = wordsFrom cur a ++ wordsFrom [] b := by
  induction a generalizing cur with
  | nil =>
    have : isSpace ' ' = true := rfl
    simp only [List.nil_append, wordsFrom, this, if_true]
    split <;> rfl
  | cons c a ih =>
    rw [List.cons_append, wordsFrom, wordsFrom]
    split
    · split
      · exact ih _
      · rw [ih]; rfl
    · exact ih _

theorem words_space {a b : Str} (h : '\x00' ∉ a) : words (a ++ ' ' :: b) = words a ++ words b := by
  unfold words
  have ht : ∀ s : Str, (a ++ s).takeWhile (fun c => c ≠ '\x00') = a ++ s.takeWhile (fun c => c ≠ '\x00') := fun s =>
    List.takeWhile_append_of_pos (by intro c hc; simp; rintro rfl; exact h hc)
  have ha : a.takeWhile (fun c => c ≠ '\x00') = a := by simpa using ht []
  rw [ht, ha, List.takeWhile_cons_of_pos (by decide), wordsFrom_space]

theorem words_cut {a b : Str} (h : '\x00' ∈ a) : words (a ++ b) = words a := by
  unfold words
  congr 1
  induction a with
  | nil => cases h
  | cons c a ih =>
    rw [List.cons_append]
    by_cases hc : c = '\x00'
    · subst hc; rfl
    · rw [List.takeWhile_cons_of_pos (by simpa using hc), List.takeWhile_cons_of_pos (by simpa using hc)]
      rcases List.mem_cons.1 h with h | h
      · exact absurd h.symm hc
      · rw [ih h]

theorem console_plain_prefix {tty : Bool} (m : Str) (h : '\\' ∉ m) {w p : Str} (hp : ConsoleText tty (m ++ w) p) :
    ∃ q, p = m ++ q ∧ ConsoleText tty w q := by
  induction m generalizing p with
  | nil => exact ⟨p, rfl, hp⟩
  | cons c m ih =>
    simp only [List.mem_cons, not_or] at h
    rw [List.cons_append] at hp
    generalize hz : m ++ w = z at hp
    cases hp with
    | char _ hp =>
      subst hz
      obtain ⟨q, rfl, h2⟩ := ih h.2 hp
      exact ⟨q, rfl, h2⟩
    | dash => exact absurd rfl h.1
    | font => exact absurd rfl h.1
    | unknown => exact absurd rfl h.1
    | other => exact absurd rfl h.1

theorem ansi_chars (tty : Bool) {d : Char} (h : d ∈ ['0', '1', '4']) : ∀ c ∈ ansi tty d, c ∉ blank ∧ c ≠ '\x00' ∧ c ≠ '\\' := by
  intro c hc
  cases tty with
  | false => cases hc
  | true =>
    simp only [ansi, if_true, List.mem_cons, List.not_mem_nil, or_false] at hc h
    rcases h with rfl | rfl | rfl <;> rcases hc with rfl | rfl | rfl | rfl <;> decide

/-- A font sequence before a text does not change what is seen. -/
theorem printedAs_mark {tty : Bool} {d : Char} (hd : d ∈ ['0', '1', '4']) {z : Str} {ps : List Str}
    (h : List.Forall₂ (ConsoleText tty) (words (ansi tty d ++ z)) ps) : PrintedAs tty ps z := by
  by_cases hm : ansi tty d = []
  · rw [hm] at h
    exact printedAs_self h
  have hch := ansi_chars tty hd
  have hs : '\\' ∉ ansi tty d := fun hc => (hch _ hc).2.2 rfl
  have hmark := adorned_ansi tty hd
  rcases words_mark (ansi tty d) z hm (fun c hc => (hch c hc).1) (fun hc => (hch _ hc).2.1 rfl) with ⟨w, ws, h1, h2⟩ | h2
  · rw [h2] at h
    cases h with
    | cons hp hps =>
      obtain ⟨q, rfl, hq⟩ := console_plain_prefix _ hs hp
      have hall : List.Forall₂ (ConsoleText tty) (words z) (q :: _) := h1 ▸ List.Forall₂.cons hq hps
      obtain ⟨qs, k1, k2, k3⟩ := forall₂_plain hall (words_noblank z)
      cases k1 with
      | cons k0 k1 => exact ⟨_, _, .cons (adorned_append hmark k0) k1, k2, k3, rfl⟩
  · rw [h2] at h
    cases h with
    | cons hp hps =>
      obtain ⟨q, rfl, hq⟩ := console_plain_prefix _ hs (by rw [List.append_nil]; exact hp)
      cases hq
      obtain ⟨qs, k1, k2, k3⟩ := forall₂_plain hps (words_noblank z)
      refine ⟨[] :: qs, qs, .cons (by rw [List.append_nil]; exact hmark) k1, ?_, k3, rfl⟩
      intro x hx c hc
      rcases List.mem_cons.1 hx with rfl | hx
      · cases hc
      · exact k2 x hx c hc

theorem forall₂_split {α β : Type} {R : α → β → Prop} {a b : List α} {l : List β} (h : List.Forall₂ R (a ++ b) l) :
    ∃ l1 l2, l = l1 ++ l2 ∧ List.Forall₂ R a l1 ∧ List.Forall₂ R b l2 := by
  induction a generalizing l with
  | nil => exact ⟨[], l, rfl, .nil, h⟩
  | cons x a ih =>
    rw [List.cons_append] at h
    cases h with
    | cons h1 h2 =>
      obtain ⟨l1, l2, rfl, k1, k2⟩ := ih h2
      exact ⟨_ :: l1, l2, rfl, .cons h1 k1, k2⟩

theorem forall₂_append {α β : Type} {R : α → β → Prop} {a b : List α} {c d : List β} (h1 : List.Forall₂ R a c)
    (h2 : List.Forall₂ R b d) : List.Forall₂ R (a ++ b) (c ++ d) := by
  induction h1 with
  | nil => exact h2
  | cons h _ ih => exact .cons h ih

/-- A bold label before a text. -/
theorem printedAs_label {tty : Bool} {x y : Str} {ps : List Str}
    (h : List.Forall₂ (ConsoleText tty) (words (ansi tty '1' ++ (x ++ [' ']) ++ ansi tty '0' ++ y)) ps) :
    PrintedAs tty ps (x ++ [' '] ++ y) := by
  have e1 : ansi tty '1' ++ (x ++ [' ']) ++ ansi tty '0' ++ y = (ansi tty '1' ++ x) ++ ' ' :: (ansi tty '0' ++ y) := by simp
  have e2 : x ++ [' '] ++ y = x ++ ' ' :: y := by simp
  rw [e1] at h
  rw [e2]
  by_cases h0 : '\x00' ∈ x
  · rw [words_cut (List.mem_append.2 (Or.inr h0))] at h
    obtain ⟨qs, zs, k1, k2, k3, k4⟩ := printedAs_mark (by simp) h
    exact ⟨qs, zs, k1, k2, by rw [words_cut h0]; exact k3, k4⟩
  · have h0' : '\x00' ∉ ansi tty '1' ++ x := by
      intro hc
      rcases List.mem_append.1 hc with hc | hc
      · exact (ansi_chars tty (d := '1') (by simp) _ hc).2.1 rfl
      · exact h0 hc
    rw [words_space h0'] at h
    obtain ⟨p1, p2, rfl, g1, g2⟩ := forall₂_split h
    obtain ⟨qs, zs, k1, k2, k3, k4⟩ := printedAs_mark (by simp) g1
    obtain ⟨qs', zs', l1, l2, l3, l4⟩ := printedAs_mark (by simp) g2
    refine ⟨qs ++ qs', zs ++ zs', forall₂_append k1 l1, ?_, by rw [words_space h0]; exact forall₂_append k3 l3, ?_⟩
    · intro q hq
      rcases List.mem_append.1 hq with hq | hq
      · exact k2 q hq
      · exact l2 q hq
    · rw [inked_append, inked_append, k4, l4]

/-! ### Elements -/

variable {W : Type}

/-- An element as printed with `boldText pe f`, and the same without bold. -/
inductive Twin (pe : PageEnv) (f : Format) : Block → Block → Prop
  | same (b : Block) : Twin pe f b b
  | label (x y : Str) (p : Bool) : Twin pe f (.line (boldText pe f (x ++ [' ']) ++ y) p) (.line (x ++ [' '] ++ y) p)
  | hint : Twin pe f
      (.line ("For full copyright and/or warranty information see ".toList ++ boldText pe f "--copyright".toList ++ ['.']) false)
      (.line ("For full copyright and/or warranty information see ".toList ++ "--copyright".toList ++ ['.']) false)

/-- The words of an element in a file. -/
def BlockShows : Block → List Str → Prop
  | .sec t, ws => Words (t.map Char.toUpper) ws
  | .subsec t, ws => Words t ws
  | .line t _, ws => Shows t ws
  | .item k d, ws => ∃ k' us vs, ConsoleText false k k' ∧ Words k' us ∧ Shows d vs ∧ ws = us ++ vs

theorem blockShows_functional {b : Block} {us vs : List Str} (h1 : BlockShows b us) (h2 : BlockShows b vs) : us = vs := by
  cases b with
  | sec t => exact words_unique h1 h2
  | subsec t => exact words_unique h1 h2
  | line t p => exact shows_functional h1 h2
  | item k d =>
    obtain ⟨k', a, b, g1, g2, g3, rfl⟩ := h1
    obtain ⟨k'', c, d, l1, l2, l3, rfl⟩ := h2
    rw [console_functional g1 l1] at g2
    rw [words_unique g2 l2, shows_functional g3 l3]

theorem line_element {tty : Bool} {ps : List Str} {s o : Str} (hp : PrintedAs tty ps s) (ho : Woven Blanks ps o) :
    ∃ x ws, Adorned tty o x ∧ Closed x ws ∧ Shows s ws := by
  obtain ⟨qs, zs, h1, h2, h3, h4⟩ := hp
  obtain ⟨x, g1, g2⟩ := woven_adorned ho h1
  exact ⟨x, inked qs, g1, woven_inked g2 h2, zs, h3, h4⟩

theorem newline_blank : '\n' ∈ blank := by decide

theorem heading_element (pe : PageEnv) (g t : Str) (hg : ∀ c ∈ g, c ∈ blank) {ws : List Str} (h : Words t ws) :
    ∃ x, Adorned pe.tty (g ++ boldText pe (.help false) t ++ "\n".toList) x ∧ Closed x ws := by
  refine ⟨g ++ t ++ ['\n'], adorned_append (adorned_append (adorned_refl _ _) (adorned_bold pe _ (by simp) (by simp) _))
    (adorned_refl _ _), ?_⟩
  exact closed_blank (words_gap hg h) newline_blank

theorem element_shows (pe : PageEnv) (f : Format) (h1 : f ≠ .html) (h2 : f ≠ .man) {b s : Block} (h : Twin pe f b s) {o : Str}
    (ho : ConsoleElement pe b o) : ∃ x ws, Adorned pe.tty o x ∧ Closed x ws ∧ BlockShows s ws := by
  have line : ∀ t s o p, ConsoleElement pe (.line t p) o → (∀ ps, List.Forall₂ (ConsoleText pe.tty) (words t) ps → PrintedAs pe.tty ps s) →
      ∃ x ws, Adorned pe.tty o x ∧ Closed x ws ∧ BlockShows (.line s p) ws := by
    rintro t s o p ⟨ws, ps, g1, g2, g3⟩ hs
    rw [words_unique g1 (words_untilZero t)] at g2
    exact line_element (hs ps g2) g3
  cases h with
  | same =>
    cases b with
    | sec t =>
      obtain ⟨ws, hw⟩ := words_exist (t.map Char.toUpper)
      obtain ⟨x, g1, g2⟩ := heading_element pe "\n".toList (t.map Char.toUpper) (by decide) hw
      have ho : o = _ := ho
      exact ⟨x, ws, ho ▸ g1, g2, hw⟩
    | subsec t =>
      obtain ⟨ws, hw⟩ := words_exist t
      obtain ⟨x, g1, g2⟩ := heading_element pe "\n  ".toList t (by decide) hw
      have ho : o = _ := ho
      exact ⟨x, ws, ho ▸ g1, g2, hw⟩
    | line t p => exact line t t o p ho fun ps hps => printedAs_self hps
    | item k d =>
      obtain ⟨k', ws, ps, g1, g2, g3, g4⟩ := ho
      rw [words_unique g2 (words_untilZero d)] at g3
      obtain ⟨k'', a1, a2⟩ := console_adorned g1
      obtain ⟨qs, b1, b2, b3⟩ := forall₂_plain g3 (words_noblank d)
      obtain ⟨x, c1, c2⟩ := woven_adorned g4 (.cons a2 b1)
      obtain ⟨us, hus⟩ := words_exist k''
      refine ⟨x, us ++ inked qs, c1, ?_, k'', us, inked qs, a1, hus, ⟨qs, b3, rfl⟩, rfl⟩
      have := woven_words c2 (.cons hus (inked_spec b2))
      rw [List.flatten_cons, ← List.flatMap_def] at this
      exact this
  | label x y p =>
    refine line _ _ o p ho fun ps hps => printedAs_label ?_
    rw [boldText_eq _ _ _ h1 h2] at hps
    exact hps
  | hint =>
    refine line _ _ o false ho fun ps hps => ?_
    rw [boldText_eq _ _ _ h1 h2] at hps
    unfold inBold at hps
    have : pe.console.tty = pe.tty := rfl
    rw [this] at hps
    cases htty : pe.tty with
    | false =>
      rw [htty] at hps
      exact printedAs_self hps
    | true =>
      rw [htty] at hps
      have hw : words ("For full copyright and/or warranty information see ".toList ++
          (ansi true '1' ++ "--copyright".toList ++ ansi true '0') ++ ['.']) =
          ["For".toList, "full".toList, "copyright".toList, "and/or".toList, "warranty".toList, "information".toList, "see".toList]
          ++ ["\x1b[1m--copyright\x1b[0m.".toList] := by decide +kernel
      have hw' : words ("For full copyright and/or warranty information see ".toList ++ "--copyright".toList ++ ['.']) =
          ["For".toList, "full".toList, "copyright".toList, "and/or".toList, "warranty".toList, "information".toList, "see".toList]
          ++ ["--copyright.".toList] := by decide +kernel
      rw [hw] at hps
      obtain ⟨l1, l2, rfl, k1, k2⟩ := forall₂_split hps
      obtain ⟨qs, b1, b2, b3⟩ := forall₂_plain k1 (by decide +kernel)
      have hc : ConsoleText true "\x1b[1m--copyright\x1b[0m.".toList "\x1b[1m--copyright\x1b[0m.".toList := toText_console true true _ _ (by decide +kernel)
      have hc' : ConsoleText false "--copyright.".toList "--copyright.".toList := toText_console true false _ _ (by decide +kernel)
      cases k2 with
      | cons m1 m2 =>
        cases m2
        rw [console_functional m1 hc]
        refine ⟨qs ++ ["--copyright.".toList], qs ++ ["--copyright.".toList], forall₂_append b1 (.cons ?_ .nil), ?_, ?_, rfl⟩
        · have := adorned_append (adorned_append (adorned_append (adorned_ansi true (d := '1') (by simp)) (adorned_refl true "--copyright".toList))
            (adorned_ansi true (d := '0') (by simp))) (adorned_refl true ".".toList)
          have e1 : ansi true '1' ++ "--copyright".toList ++ ansi true '0' ++ ".".toList = "\x1b[1m--copyright\x1b[0m.".toList := by
            decide +kernel
          have e2 : [] ++ "--copyright".toList ++ [] ++ ".".toList = "--copyright.".toList := by decide +kernel
          rw [e1, e2] at this
          exact this
        · intro q hq
          rcases List.mem_append.1 hq with hq | hq
          · exact b2 q hq
          · rw [List.mem_singleton.1 hq]; decide +kernel
        · rw [hw']
          exact forall₂_append b3 (.cons hc' .nil)

/-- Elements one after the other. -/
theorem elements_show (pe : PageEnv) (f : Format) (h1 : f ≠ .html) (h2 : f ≠ .man) {bs ss : List Block} (h : List.Forall₂ (Twin pe f) bs ss)
    {os : List Str} (ho : List.Forall₂ (ConsoleElement pe) bs os) :
    ∃ x wss, Adorned pe.tty os.flatten x ∧ Closed x wss.flatten ∧ List.Forall₂ BlockShows ss wss := by
  induction h generalizing os with
  | nil => cases ho; exact ⟨[], [], .nil, closed_nil, .nil⟩
  | cons hb _ ih =>
    cases ho with
    | cons ho hos =>
      obtain ⟨x, ws, k1, k2, k3⟩ := element_shows pe f h1 h2 hb ho
      obtain ⟨y, wss, l1, l2, l3⟩ := ih hos
      exact ⟨x ++ y, ws :: wss, adorned_append k1 l1, closed_append k2 l2, .cons k3 l3⟩

theorem blocksShow_functional {l : List Block} {a b : List (List Str)} (h1 : List.Forall₂ BlockShows l a)
    (h2 : List.Forall₂ BlockShows l b) : a = b := by
  induction h1 generalizing b with
  | nil => cases h2; rfl
  | cons h _ ih =>
    cases h2 with
    | cons h' h2 => rw [blockShows_functional h h', ih h2]

/-- Two pages made of twins have the same words. -/
theorem sameWords_of_elements (pe pe' : PageEnv) (f : Format) (h1 : f ≠ .html) (h2 : f ≠ .man) {bs bs' ss : List Block}
    (h : List.Forall₂ (Twin pe f) bs ss) (h' : List.Forall₂ (Twin pe' f) bs' ss) {os os' : List Str}
    (ho : List.Forall₂ (ConsoleElement pe) bs os) (ho' : List.Forall₂ (ConsoleElement pe') bs' os') (start : Str) :
    SameWords pe.tty pe'.tty (start ++ ['\n'] ++ os.flatten) (start ++ ['\n'] ++ os'.flatten) := by
  obtain ⟨x, wss, k1, k2, k3⟩ := elements_show pe f h1 h2 h ho
  obtain ⟨y, vss, l1, l2, l3⟩ := elements_show pe' f h1 h2 h' ho'
  obtain ⟨us, hus⟩ := words_exist start
  rw [blocksShow_functional l3 k3] at l2
  exact ⟨start ++ ['\n'] ++ x, start ++ ['\n'] ++ y, us ++ wss.flatten, adorned_append (adorned_refl _ _) k1, adorned_append (adorned_refl _ _) l1,
    closed_words (closed_append (closed_blank hus newline_blank) k2), closed_words (closed_append (closed_blank hus newline_blank) l2)⟩

end Sharg
