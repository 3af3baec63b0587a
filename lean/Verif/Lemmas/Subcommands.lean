import Verif.Lemmas.History

/-! Lemmas on the list of subcommands. -/

set_option linter.unusedSimpArgs false

namespace Sharg

open Spec

variable {W : Type}

theorem char_lt_iff (a b : Char) : a < b ↔ a.toNat < b.toNat := by
  rw [Char.lt_def, UInt32.lt_iff_toNat_lt]; rfl

theorem char_eq_of_toNat {a b : Char} (h : a.toNat = b.toNat) : a = b := by
  apply Char.ext; apply UInt32.toNat_inj.1; exact h

theorem strLt_iff (s t : Str) : strLt s t = true ↔ StrBefore s t := by
  induction s generalizing t with
  | nil =>
    cases t with
    | nil => simp [strLt, StrBefore]
    | cons b t =>
      simp only [strLt, true_iff]
      exact Or.inl ⟨b, t, rfl⟩
  | cons a s ih =>
    cases t with
    | nil => simp [strLt, StrBefore]
    | cons b t =>
      simp only [strLt]
      by_cases h1 : a.toNat < b.toNat
      · simp only [h1, if_true, true_iff]
        exact Or.inr ⟨[], a, b, s, t, rfl, rfl, (char_lt_iff a b).2 h1⟩
      · simp only [h1, if_false]
        by_cases h2 : b.toNat < a.toNat
        · simp only [h2, if_true, Bool.false_eq_true, false_iff]
          rintro (⟨c, r, h⟩ | ⟨u, x, y, s', t', h3, h4, h5⟩)
          · simp at h; rw [h.1] at h2; omega
          · cases u with
            | nil =>
              simp at h3 h4
              obtain ⟨rfl, rfl⟩ := h3
              obtain ⟨rfl, rfl⟩ := h4
              exact h1 ((char_lt_iff _ _).1 h5)
            | cons z u =>
              simp at h3 h4
              rw [h3.1, h4.1] at h2; omega
        · have : a = b := char_eq_of_toNat (by omega)
          subst this
          simp only [Nat.lt_irrefl, if_false, ih]
          constructor
          · rintro (⟨c, r, rfl⟩ | ⟨u, x, y, s', t', rfl, rfl, h5⟩)
            · exact Or.inl ⟨c, r, rfl⟩
            · exact Or.inr ⟨a :: u, x, y, s', t', rfl, rfl, h5⟩
          · rintro (⟨c, r, h⟩ | ⟨u, x, y, s', t', h3, h4, h5⟩)
            · simp at h; exact Or.inl ⟨c, r, h⟩
            · cases u with
              | nil =>
                simp at h3 h4
                obtain ⟨rfl, rfl⟩ := h3
                obtain ⟨rfl, rfl⟩ := h4
                exact absurd ((char_lt_iff _ _).1 h5) (by omega)
              | cons z u =>
                simp at h3 h4
                exact Or.inr ⟨u, x, y, s', t', h3.2, h4.2, h5⟩

theorem strLt_irrefl (s : Str) : strLt s s = false := by
  induction s with
  | nil => rfl
  | cons a s ih => simp [strLt, ih]

theorem strLt_trans {s t u : Str} (h1 : strLt s t = true) (h2 : strLt t u = true) : strLt s u = true := by
  induction s generalizing t u with
  | nil =>
    cases t with
    | nil => simp [strLt] at h1
    | cons b t =>
      cases u with
      | nil => simp [strLt] at h2
      | cons c u => rfl
  | cons a s ih =>
    cases t with
    | nil => simp [strLt] at h1
    | cons b t =>
      cases u with
      | nil => simp [strLt] at h2
      | cons c u =>
        simp only [strLt] at h1 h2 ⊢
        by_cases x1 : a.toNat < b.toNat <;> by_cases x2 : b.toNat < a.toNat <;>
          by_cases x3 : b.toNat < c.toNat <;> by_cases x4 : c.toNat < b.toNat <;>
          by_cases x5 : a.toNat < c.toNat <;> by_cases x6 : c.toNat < a.toNat <;>
          simp_all <;> first | omega | exact ih h1 h2 | exact Or.inr (ih h1 h2)

theorem strLt_total {s t : Str} (h1 : strLt s t = false) (h2 : strLt t s = false) : s = t := by
  induction s generalizing t with
  | nil =>
    cases t with
    | nil => rfl
    | cons b t => simp [strLt] at h1
  | cons a s ih =>
    cases t with
    | nil => simp [strLt] at h2
    | cons b t =>
      simp only [strLt] at h1 h2
      by_cases x1 : a.toNat < b.toNat <;> by_cases x2 : b.toNat < a.toNat <;> simp_all
      exact ⟨char_eq_of_toNat (by omega), ih h1 h2⟩

theorem mem_insertSorted (x y : Str) (l : List Str) : y ∈ insertSorted x l ↔ y = x ∨ y ∈ l := by
  induction l with
  | nil => simp [insertSorted]
  | cons z l ih =>
    unfold insertSorted
    split <;> simp [ih]
    grind

theorem mem_sortStr (y : Str) (l : List Str) : y ∈ sortStr l ↔ y ∈ l := by
  unfold sortStr
  induction l with
  | nil => simp
  | cons x l ih => simp [mem_insertSorted, ih]

theorem sorted_insertSorted (x : Str) (l : List Str) (h : l.Pairwise (fun a b => strLt b a = false)) :
    (insertSorted x l).Pairwise (fun a b => strLt b a = false) := by
  induction l with
  | nil => simp [insertSorted]
  | cons z l ih =>
    rw [List.pairwise_cons] at h
    unfold insertSorted
    by_cases hz : strLt z x = true
    · rw [if_pos hz, List.pairwise_cons]
      refine ⟨fun b hb => ?_, ih h.2⟩
      rcases (mem_insertSorted x b l).1 hb with rfl | hb
      · rw [← Bool.not_eq_true]
        intro hc
        have := strLt_trans hz hc
        rw [strLt_irrefl] at this; cases this
      · exact h.1 b hb
    · rw [if_neg hz, List.pairwise_cons]
      refine ⟨fun b hb => ?_, List.pairwise_cons.2 h⟩
      simp at hb
      rcases hb with rfl | hb
      · simpa using hz
      · rw [← Bool.not_eq_true]
        intro hc
        have h3 := h.1 b hb
        by_cases h4 : strLt z b = true
        · exact hz (strLt_trans h4 hc)
        · have := strLt_total (by simpa using h4) h3
          subst this; exact hz hc

theorem sorted_sortStr (l : List Str) : (sortStr l).Pairwise (fun a b => strLt b a = false) := by
  unfold sortStr
  induction l with
  | nil => simp
  | cons x l ih => exact sorted_insertSorted x _ ih

theorem mem_dedup (y : Str) (l : List Str) : y ∈ dedupAdjacent l ↔ y ∈ l := by
  induction l with
  | nil => simp [dedupAdjacent]
  | cons x l ih =>
    unfold dedupAdjacent
    cases hd : dedupAdjacent l with
    | nil =>
      rw [hd] at ih
      simp at ih ⊢
      intro h; exact absurd h ih
    | cons z l' =>
      rw [hd] at ih
      dsimp only
      split
      · rename_i h; subst h
        rw [ih]; simp
        rintro rfl; exact ih.1 (by simp)
      · rw [List.mem_cons, ih]; simp

theorem dedup_head (x : Str) (l : List Str) : ∃ r, dedupAdjacent (x :: l) = x :: r := by
  unfold dedupAdjacent
  split
  · exact ⟨[], rfl⟩
  · split
    · rename_i h; subst h; exact ⟨_, rfl⟩
    · exact ⟨_, rfl⟩

theorem dedup_strict (l : List Str) (h : l.Pairwise (fun a b => strLt b a = false)) :
    (dedupAdjacent l).Pairwise (fun a b => strLt a b = true) := by
  induction l with
  | nil => simp [dedupAdjacent]
  | cons x l ih =>
    rw [List.pairwise_cons] at h
    have ih := ih h.2
    have hm := fun y => mem_dedup y l
    unfold dedupAdjacent
    cases hd : dedupAdjacent l with
    | nil => simp
    | cons z l' =>
      rw [hd] at ih hm
      dsimp only
      by_cases hx : x = z
      · rw [if_pos hx]; exact ih
      · rw [if_neg hx, List.pairwise_cons]
        refine ⟨fun b hb => ?_, ih⟩
        have h1 := h.1 b ((hm b).1 hb)
        have h2 := h.1 z ((hm z).1 (by simp))
        have hxz : strLt x z = true := by
          by_cases h3 : strLt x z = true
          · exact h3
          · exact absurd (strLt_total (by simpa using h3) h2) hx
        simp at hb
        rcases hb with rfl | hb
        · exact hxz
        · exact strLt_trans hxz ((List.pairwise_cons.1 ih).1 b hb)

theorem mem_addSubcommandsTo (a b : List Str) (s : Str) : s ∈ addSubcommandsTo a b ↔ s ∈ a ∨ s ∈ b := by
  unfold addSubcommandsTo
  rw [mem_dedup, mem_sortStr, List.mem_append]

theorem ascending_addSubcommandsTo (a b : List Str) : (addSubcommandsTo a b).Pairwise StrBefore := by
  have := dedup_strict _ (sorted_sortStr (a ++ b))
  exact this.imp fun h => (strLt_iff _ _).1 h

theorem StrBefore.irrefl (s : Str) : ¬ StrBefore s s := by
  rw [← strLt_iff, strLt_irrefl]; simp

theorem StrBefore.trans {s t u : Str} (h1 : StrBefore s t) (h2 : StrBefore t u) : StrBefore s u := by
  rw [← strLt_iff] at *; exact strLt_trans h1 h2

/-- Strictly ascending lists with the same elements are equal. -/
theorem ascending_unique {a b : List Str} (ha : a.Pairwise StrBefore) (hb : b.Pairwise StrBefore)
    (h : ∀ s, s ∈ a ↔ s ∈ b) : a = b := by
  induction a generalizing b with
  | nil =>
    cases b with
    | nil => rfl
    | cons y b => exact absurd ((h y).2 (by simp)) (by simp)
  | cons x a ih =>
    cases b with
    | nil => exact absurd ((h x).1 (by simp)) (by simp)
    | cons y b =>
      rw [List.pairwise_cons] at ha hb
      have hxy : x = y := by
        have h1 := (h x).1 (by simp)
        have h2 := (h y).2 (by simp)
        simp at h1 h2
        rcases h1 with h1 | h1
        · exact h1
        · rcases h2 with h2 | h2
          · exact h2.symm
          · exact absurd (StrBefore.trans (ha.1 y h2) (hb.1 x h1)) (StrBefore.irrefl x)
      subst hxy
      congr 1
      apply ih ha.2 hb.2
      intro s
      constructor
      · intro hs
        have := (h s).1 (by simp [hs])
        simp at this
        rcases this with rfl | this
        · exact absurd (ha.1 s hs) (StrBefore.irrefl s)
        · exact this
      · intro hs
        have := (h s).2 (by simp [hs])
        simp at this
        rcases this with rfl | this
        · exact absurd (hb.1 s hs) (StrBefore.irrefl s)
        · exact this

theorem effect_subcommands_mem (c : Call W) (p : Parser W) (s : Str) :
    s ∈ (c.effect p).subcommands ↔ s ∈ p.subcommands ∨ s ∈ namesOf c := by
  cases c <;> simp [Call.effect, namesOf, mem_addSubcommandsTo]

theorem effect_subcommands_ascending (c : Call W) (p : Parser W) (h : p.subcommands.Pairwise StrBefore) :
    (c.effect p).subcommands.Pairwise StrBefore := by
  cases c <;> simp [Call.effect, ascending_addSubcommandsTo, h]

/-- The subcommand list after a history. -/
theorem subcommands_history (env : Env W) (as : List (Action W)) (g : Prog W) :
    (∀ s, s ∈ (runActions env as g).parser.subcommands ↔
      s ∈ g.parser.subcommands ∨ s ∈ (accepted env as g).flatMap namesOf) ∧
    (g.parser.subcommands.Pairwise StrBefore → (runActions env as g).parser.subcommands.Pairwise StrBefore) := by
  induction as generalizing g with
  | nil => simp [runActions, accepted]
  | cons a as ih =>
    cases a with
    | parse =>
      simp only [runActions, accepted]
      obtain ⟨h1, h2⟩ := ih (Action.parse.run env g).2
      have hs : (Action.parse.run env g).2.parser.subcommands = g.parser.subcommands :=
        (parse_parser env g).1.subcommands
      rw [hs] at h1 h2
      exact ⟨h1, h2⟩
    | call c =>
      simp only [runActions, accepted]
      by_cases hc : Acceptable g.parser.situation c
      · rw [Action.call_run_acceptable env c g hc]
        obtain ⟨h1, h2⟩ := ih { g with parser := c.effect g.parser }
        refine ⟨fun s => ?_, fun h => h2 (effect_subcommands_ascending c _ h)⟩
        rw [h1, List.flatMap_cons, List.mem_append]
        dsimp only
        rw [effect_subcommands_mem, or_assoc]
      · obtain ⟨p, hp, hr⟩ := Action.call_run_rejected env c g hc
        rw [hr]
        obtain ⟨h1, h2⟩ := ih { g with parser := p }
        dsimp only at h1 h2 ⊢
        rw [(reject_operations c _ _ _ hc hp).2.1] at h1 h2
        exact ⟨h1, h2⟩

end Sharg
