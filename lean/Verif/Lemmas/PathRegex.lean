import Verif.Model.PathRegex
import Verif.Spec.PathRegex

/-!
# Lemmas about the parts of paths
-/

namespace Sharg

open Spec

theorem nameIn_plain {cur p : Str} (h : '/' ∉ cur) : NameIn cur p ↔ p = cur ∧ cur ≠ [] := by
  constructor
  · rintro ⟨h1, h2, a, b, rfl, ha, hb⟩
    have ha : a = [] := by
      rcases ha with ha | ⟨a', rfl⟩
      · exact ha
      · exact absurd (by simp) h
    have hb : b = [] := by
      rcases hb with hb | ⟨b', rfl⟩
      · exact hb
      · exact absurd (by simp) h
    subst ha hb
    simpa using h1
  · rintro ⟨rfl, h1⟩
    exact ⟨h1, h, [], [], by simp, Or.inl rfl, Or.inl rfl⟩

theorem slash_cases {a b c d : Str} (h : a ++ '/' :: b = c ++ '/' :: d) (hc : '/' ∉ c) :
    (a = c ∧ b = d) ∨ ∃ e, a = c ++ '/' :: e ∧ d = e ++ '/' :: b := by
  rcases List.append_eq_append_iff.1 h with ⟨e, rfl, h1⟩ | ⟨e, rfl, h1⟩
  · cases e with
    | nil => left; simpa using h1
    | cons x e => simp only [List.cons_append, List.cons.injEq] at h1; rw [← h1.1] at hc; exact absurd (by simp) hc
  · cases e with
    | nil => left; simpa using h1.symm
    | cons x e =>
      simp only [List.cons_append, List.cons.injEq] at h1
      right
      exact ⟨e, by rw [← h1.1], h1.2⟩

theorem nameIn_slash {cur s p : Str} (h : '/' ∉ cur) : NameIn (cur ++ '/' :: s) p ↔ (p = cur ∧ cur ≠ []) ∨ NameIn s p := by
  constructor
  · rintro ⟨h1, h2, a, b, e, ha, hb⟩
    rcases ha with rfl | ⟨a', rfl⟩
    · rcases hb with rfl | ⟨b', rfl⟩
      · exact absurd (by rw [← show cur ++ '/' :: s = p by simpa using e]; simp) h2
      · rcases slash_cases (show p ++ '/' :: b' = cur ++ '/' :: s by simpa using e.symm) h with ⟨rfl, _⟩ | ⟨e, rfl, _⟩
        · exact Or.inl ⟨rfl, h1⟩
        · exact absurd (by simp) h2
    · right
      rcases slash_cases (show a' ++ '/' :: (p ++ b) = cur ++ '/' :: s by simpa using e.symm) h with ⟨_, rfl⟩ | ⟨x, _, rfl⟩
      · exact ⟨h1, h2, [], b, by simp, Or.inl rfl, hb⟩
      · exact ⟨h1, h2, x ++ ['/'], b, by simp, Or.inr ⟨x, rfl⟩, hb⟩
  · rintro (⟨rfl, h1⟩ | ⟨h1, h2, a, b, rfl, ha, hb⟩)
    · exact ⟨h1, h, [], '/' :: s, by simp, Or.inl rfl, Or.inr ⟨s, rfl⟩⟩
    · refine ⟨h1, h2, cur ++ '/' :: a, b, by simp, Or.inr ?_, hb⟩
      rcases ha with rfl | ⟨a', rfl⟩
      · exact ⟨cur, rfl⟩
      · exact ⟨cur ++ '/' :: a', by simp⟩

theorem mem_splitFrom (s : Str) : ∀ (cur p : Str), '/' ∉ cur → (p ∈ splitFrom cur s ↔ NameIn (cur ++ s) p) := by
  induction s with
  | nil =>
    intro cur p h
    rw [List.append_nil, nameIn_plain h, splitFrom]
    by_cases hc : cur = [] <;> simp [hc]
  | cons c s ih =>
    intro cur p h
    rw [splitFrom]
    by_cases hc : c = '/'
    · subst hc
      rw [if_pos rfl, nameIn_slash h, ← List.nil_append s, ← ih [] p (by simp)]
      by_cases hn : cur = [] <;> simp [hn]
    · rw [if_neg hc, ih _ _ (by simp [h, Ne.symm hc])]
      simp

theorem mem_names (t p : Str) : p ∈ splitFrom [] t ↔ NameIn t p := mem_splitFrom t [] p (by simp)

/-- The model of the iteration yields the parts of the path. -/
theorem mem_pathParts (t q : Str) : q ∈ pathParts t ↔ PartOf t q := by
  have hne : splitFrom [] t ≠ [] ↔ ∃ n, NameIn t n := by
    rw [List.ne_nil_iff_exists_cons]
    constructor
    · rintro ⟨n, l, e⟩
      exact ⟨n, (mem_names t n).1 (by rw [e]; simp)⟩
    · rintro ⟨n, hn⟩
      have := (mem_names t n).2 hn
      cases hs : splitFrom [] t with
      | nil => rw [hs] at this; cases this
      | cons a l => exact ⟨a, l, rfl⟩
  have hhead : t.head? = some '/' ↔ ∃ b, t = '/' :: b := by cases t <;> simp
  have hlast : t.getLast? = some '/' ↔ ∃ a, t = a ++ ['/'] := by rw [List.getLast?_eq_some_iff]
  unfold pathParts PartOf
  rw [List.mem_append, List.mem_append, mem_names]
  constructor
  · rintro ((h | h) | h)
    · split at h
      · rename_i h1; exact Or.inl ⟨List.mem_singleton.1 h, hhead.1 h1⟩
      · cases h
    · exact Or.inr (Or.inl h)
    · split at h
      · rename_i h1; exact Or.inr (Or.inr ⟨List.mem_singleton.1 h, hne.1 h1.1, hlast.1 h1.2⟩)
      · cases h
  · rintro (⟨rfl, h⟩ | h | ⟨rfl, h1, h2⟩)
    · left; left; rw [if_pos (hhead.2 h)]; simp
    · exact Or.inl (Or.inr h)
    · right; rw [if_pos ⟨hne.2 h1, hlast.2 h2⟩]; simp

theorem first_slash {s : Str} (h : '/' ∈ s) : ∃ a b, s = a ++ '/' :: b ∧ '/' ∉ a := by
  induction s with
  | nil => cases h
  | cons c s ih =>
    by_cases hc : c = '/'
    · exact ⟨[], s, by rw [hc]; rfl, by simp⟩
    · obtain ⟨a, b, rfl, ha⟩ := ih (by simpa [Ne.symm hc] using h)
      exact ⟨c :: a, b, rfl, by simp [ha, Ne.symm hc]⟩

/-- Every path that is not empty has a part. -/
theorem exists_part {t : Str} (h : t ≠ []) : ∃ q, PartOf t q := by
  cases t with
  | nil => exact absurd rfl h
  | cons c s =>
    by_cases hc : c = '/'
    · exact ⟨['/'], Or.inl ⟨rfl, s, by rw [hc]⟩⟩
    · by_cases hs : '/' ∈ s
      · obtain ⟨a, b, rfl, ha⟩ := first_slash hs
        refine ⟨c :: a, Or.inr (Or.inl ?_)⟩
        have := (nameIn_slash (cur := c :: a) (s := b) (p := c :: a) (by simp [ha, Ne.symm hc])).2 (Or.inl ⟨rfl, by simp⟩)
        simpa using this
      · exact ⟨c :: s, Or.inr (Or.inl ((nameIn_plain (by simp [hs, Ne.symm hc])).2 ⟨rfl, by simp⟩))⟩

/-- Only the part for the root contains a slash. -/
theorem part_slash {t q : Str} (h : PartOf t q) : q = ['/'] ∨ '/' ∉ q := by
  rcases h with ⟨h, _⟩ | h | ⟨h, _⟩
  · exact Or.inl h
  · exact Or.inr h.2.1
  · exact Or.inr (by rw [h]; simp)

/-- A path without slashes is its only part. -/
theorem part_plain {t q : Str} (h : t ≠ []) (hs : '/' ∉ t) : PartOf t q ↔ q = t := by
  constructor
  · rintro (⟨_, b, rfl⟩ | h1 | ⟨_, _, a, rfl⟩)
    · exact absurd (by simp) hs
    · exact ((nameIn_plain hs).1 h1).1
    · exact absurd (by simp) hs
  · rintro rfl
    exact Or.inr (Or.inl ((nameIn_plain hs).2 ⟨rfl, h⟩))

end Sharg
