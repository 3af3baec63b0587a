import Verif.Lemmas.Line
import Verif.Spec.Account

/-!
# What a successful run does with arbitrary arguments
-/

set_option linter.unusedSimpArgs false

namespace Sharg

open Spec

variable {W : Type}

/-- The identifier is one of the option. -/
def IdOf (d : OptDecl W) (id : Id) : Prop :=
  (d.short ≠ '\x00' ∧ id = .short d.short) ∨ (d.long ≠ [] ∧ id = .long d.long)

theorem IdOf.bare {d : OptDecl W} {id : Id} (h : IdOf d id) : Bare d id.dashed := by
  rcases h with ⟨h, rfl⟩ | ⟨h, rfl⟩
  · exact Or.inl ⟨h, rfl⟩
  · exact Or.inr ⟨h, rfl⟩

theorem names_iff (d : OptDecl W) (a : Str) : Names d a ↔ ∃ id, IdOf d id ∧ id.hits a = true := by
  constructor
  · rintro (⟨h, t, rfl⟩ | ⟨h, h2⟩)
    · exact ⟨.short d.short, Or.inl ⟨h, rfl⟩, (Id.hits_short_iff _ _).2 ⟨t, rfl⟩⟩
    · refine ⟨.long d.long, Or.inr ⟨h, rfl⟩, (Id.hits_long_iff _ _).2 ?_⟩
      rcases h2 with h2 | ⟨t, rfl⟩
      · exact Or.inl h2
      · exact Or.inr ⟨t, by simp⟩
  · rintro ⟨id, ⟨h, rfl⟩ | ⟨h, rfl⟩, h2⟩
    · obtain ⟨t, rfl⟩ := (Id.hits_short_iff _ _).1 h2
      exact Or.inl ⟨h, t, rfl⟩
    · rcases (Id.hits_long_iff _ _).1 h2 with h2 | ⟨t, rfl⟩
      · exact Or.inr ⟨h, Or.inl h2⟩
      · exact Or.inr ⟨h, Or.inr ⟨t, by simp⟩⟩

theorem looks_iff (D : Decls W) (a : Str) : LooksLikeOption D a ↔ ∃ d ∈ D.options, Names d a := by
  unfold LooksLikeOption Names
  constructor
  · rintro ⟨d, hd, ⟨h, t, rfl⟩ | ⟨h, h2⟩⟩
    · exact ⟨d, hd, Or.inl ⟨h, t, rfl⟩⟩
    · refine ⟨d, hd, Or.inr ⟨h, ?_⟩⟩
      rcases h2 with h2 | ⟨t, rfl⟩
      · exact Or.inl h2
      · exact Or.inr ⟨t, by simp⟩
  · rintro ⟨d, hd, ⟨h, t, rfl⟩ | ⟨h, h2⟩⟩
    · exact ⟨d, hd, Or.inl ⟨h, t, rfl⟩⟩
    · refine ⟨d, hd, Or.inr ⟨h, ?_⟩⟩
      rcases h2 with h2 | ⟨t, rfl⟩
      · exact Or.inl h2
      · exact Or.inr ⟨t, by simp⟩

theorem inlineVal_attached {d : OptDecl W} {id : Id} (h : IdOf d id) {a : Str} (ha : id.hits a = true)
    (hl : id.dashed.length < a.length) {v : Str} (hv : inlineVal id a = some v) : Attached d a := by
  rcases h with ⟨h, rfl⟩ | ⟨h, rfl⟩
  · obtain ⟨t, rfl⟩ := (Id.hits_short_iff _ _).1 ha
    simp [Id.dashed] at hl
    cases t with
    | nil => simp at hl
    | cons x t =>
      by_cases hx : x = '='
      · subst hx
        simp [inlineVal, Id.dashed] at hv
        exact ⟨t, hv.1, Or.inl ⟨h, Or.inl rfl⟩⟩
      · exact ⟨x :: t, by simp, Or.inl ⟨h, Or.inr ⟨by simp [hx], rfl⟩⟩⟩
  · rcases (Id.hits_long_iff _ _).1 ha with rfl | ⟨t, rfl⟩
    · simp [Id.dashed] at hl
    · simp [inlineVal, Id.dashed] at hv
      exact ⟨t, hv.1, Or.inr ⟨h, rfl⟩⟩

theorem uses_length {D : Decls W} {l l' : List Str} (h : Uses D l l') : l'.length = l.length := by
  induction h with
  | nil => rfl
  | keep a _ ih => simp [ih]
  | attached _ _ _ ih => simp [ih]
  | pair v _ _ _ ih => simp [ih]
  | orphan _ _ _ ih => simp at ih ⊢; omega

theorem uses_refl {D : Decls W} (l : List Str) : Uses D l l := by
  induction l with
  | nil => exact .nil
  | cons a l ih => exact .keep a ih

/-- One pass keeps the accounting. -/
theorem uses_consume {D : Decls W} {d : OptDecl W} (hd : d ∈ D.options) {id : Id} (hid : IdOf d id) :
    ∀ (n : Nat) (l l' : List Str), l.length ≤ n → Uses D l l' → ∀ vals l'', consumeAll id l' = some (vals, l'') →
      Uses D l l'' := by
  intro n
  induction n with
  | zero =>
    intro l l' hn h vals l'' hc
    have : l = [] := by simpa using hn
    subst this
    cases h
    simp [consumeAll] at hc
    rw [hc.2]; exact .nil
  | succ n ih =>
    intro l l' hn h vals l'' hc
    have hblank : ∀ {l' vals l''}, consumeAll id ([] :: l') = some (vals, l'') →
        ∃ l2, l'' = [] :: l2 ∧ consumeAll id l' = some (vals, l2) := by
      intro l' vals l'' hc
      rw [consumeAll.eq_def] at hc
      simp only [Id.not_hits_nil, Bool.false_eq_true, if_false, Option.map_eq_some_iff] at hc
      obtain ⟨⟨v, l2⟩, h1, h2⟩ := hc
      simp at h2
      exact ⟨l2, h2.2.symm, by rw [h1, h2.1]⟩
    cases h with
    | nil =>
      simp [consumeAll] at hc
      rw [hc.2]; exact .nil
    | @keep a l l' h =>
      have hn' : l.length ≤ n := by simpa using hn
      by_cases hh : id.hits a = true
      · by_cases hl : id.dashed.length < a.length
        · rw [consumeAll.eq_def] at hc
          simp only [hh, hl, if_true] at hc
          cases hi : inlineVal id a with
          | none => simp [hi] at hc
          | some v =>
            simp only [hi, Option.map_eq_some_iff] at hc
            obtain ⟨⟨vs, l2⟩, h1, h2⟩ := hc
            simp at h2
            rw [← h2.2]
            exact .attached hd (inlineVal_attached hid hh hl hi) (ih l l' hn' h vs l2 h1)
        · have hb : Bare d a := by rw [Id.hits_exact id a hh hl]; exact hid.bare
          rw [consumeAll.eq_def] at hc
          simp only [hh, hl, if_true, if_false] at hc
          cases h with
          | nil => simp at hc
          | @keep v l l' h =>
            simp only [Option.map_eq_some_iff] at hc
            obtain ⟨⟨vs, l2⟩, h1, h2⟩ := hc
            simp at h2
            rw [← h2.2]
            exact .pair v hd hb (ih l l' (by simp at hn'; omega) h vs l2 h1)
          | @attached d' a' l l' hd' ha' h =>
            simp only [Option.map_eq_some_iff] at hc
            obtain ⟨⟨vs, l2⟩, h1, h2⟩ := hc
            simp at h2
            rw [← h2.2]
            exact .orphan hd hb (.attached hd' ha' (ih l l' (by simp at hn'; omega) h vs l2 h1))
          | @pair d' a' v l l' hd' ha' h =>
            simp only [Option.map_eq_some_iff] at hc
            obtain ⟨⟨vs, l2⟩, h1, h2⟩ := hc
            simp at h2
            rw [← h2.2]
            obtain ⟨l3, rfl, h3⟩ := hblank h1
            exact .orphan hd hb (.pair v hd' ha' (ih l l' (by simp at hn'; omega) h vs l3 h3))
          | @orphan d' a' l l' hd' ha' h =>
            simp only [Option.map_eq_some_iff] at hc
            obtain ⟨⟨vs, l2⟩, h1, h2⟩ := hc
            simp at h2
            rw [← h2.2]
            obtain ⟨l3, rfl, h3⟩ := hblank h1
            exact .orphan hd hb (.orphan hd' ha' (ih l _ (by simp at hn'; omega) h vs _ h1))
      · rw [consumeAll.eq_def] at hc
        simp only [hh, Bool.false_eq_true, if_false, Option.map_eq_some_iff] at hc
        obtain ⟨⟨vs, l2⟩, h1, h2⟩ := hc
        simp at h2
        rw [← h2.2]
        exact .keep a (ih l l' hn' h vs l2 h1)
    | @attached d' a l l' hd' ha' h =>
      obtain ⟨l2, rfl, h1⟩ := hblank hc
      exact .attached hd' ha' (ih l l' (by simpa using hn) h _ _ h1)
    | @pair d' a v l l' hd' ha' h =>
      obtain ⟨l2, rfl, h1⟩ := hblank hc
      obtain ⟨l3, rfl, h2⟩ := hblank h1
      exact .pair v hd' ha' (ih l l' (by simp at hn; omega) h _ _ h2)
    | @orphan d' a l l' hd' ha' h =>
      obtain ⟨l2, rfl, h1⟩ := hblank hc
      obtain ⟨l3, rfl, h2⟩ := hblank h1
      exact .orphan hd' ha' (ih l _ (by simpa using hn) h _ _ h1)

/-- After a pass nothing is found any more; nothing new appears. -/
theorem consumeAll_after (id : Id) : ∀ (n : Nat) (l : List Str), l.length ≤ n → ∀ vals l', consumeAll id l = some (vals, l') →
    (∀ a ∈ l', id.hits a = false) ∧ ∀ a ∈ l', a = [] ∨ a ∈ l := by
  intro n
  induction n with
  | zero =>
    intro l hn vals l' hc
    have : l = [] := by simpa using hn
    subst this
    simp [consumeAll] at hc
    rw [hc.2]; simp
  | succ n ih =>
    intro l hn vals l' hc
    cases l with
    | nil =>
      simp [consumeAll] at hc
      rw [hc.2]; simp
    | cons a l =>
      have hn' : l.length ≤ n := by simpa using hn
      rw [consumeAll.eq_def] at hc
      by_cases hh : id.hits a = true
      · simp only [hh, if_true] at hc
        split at hc
        · cases hi : inlineVal id a with
          | none => simp [hi] at hc
          | some v =>
            simp only [hi, Option.map_eq_some_iff] at hc
            obtain ⟨⟨vs, l2⟩, h1, h2⟩ := hc
            simp at h2
            obtain ⟨h3, h4⟩ := ih l hn' _ _ h1
            rw [← h2.2]
            simp only [List.mem_cons]
            grind [Id.not_hits_nil]
        · cases l with
          | nil => simp at hc
          | cons v l =>
            simp only [Option.map_eq_some_iff] at hc
            obtain ⟨⟨vs, l2⟩, h1, h2⟩ := hc
            simp at h2
            obtain ⟨h3, h4⟩ := ih l (by simp at hn'; omega) _ _ h1
            rw [← h2.2]
            simp only [List.mem_cons]
            grind [Id.not_hits_nil]
      · simp only [hh, Bool.false_eq_true, if_false, Option.map_eq_some_iff] at hc
        obtain ⟨⟨vs, l2⟩, h1, h2⟩ := hc
        simp at h2
        obtain ⟨h3, h4⟩ := ih l hn' _ _ h1
        rw [← h2.2]
        simp only [List.mem_cons]
        grind [Id.not_hits_nil]

/-- State of the arguments while the options in `proc` are done. -/
structure OptionsDone (D : Decls W) (proc : List (OptDecl W)) (l l' : List Str) : Prop where
  uses : Uses D l l'
  gone : ∀ a ∈ l', ∀ d ∈ proc, ¬ Names d a
  mem : ∀ a ∈ l', a = [] ∨ a ∈ l

theorem consumeId_done {D : Decls W} {d : OptDecl W} (hd : d ∈ D.options) (id : Id)
    (hid : id.isEmpty = true ∨ IdOf d id) {l l' : List Str} (h : Uses D l l') {vals l'' : List Str}
    (hc : consumeId id l' = some (vals, l'')) :
    Uses D l l'' ∧ (id.isEmpty = true ∨ ∀ a ∈ l'', id.hits a = false) ∧ ∀ a ∈ l'', a = [] ∨ a ∈ l' := by
  unfold consumeId at hc
  rcases hid with he | hid
  · simp [he] at hc
    rw [← hc.2]
    exact ⟨h, Or.inl he, fun a ha => Or.inr ha⟩
  · have he : id.isEmpty = false := by
      rcases hid with ⟨h, rfl⟩ | ⟨h, rfl⟩ <;> simp [Id.isEmpty, h]
    simp [he] at hc
    obtain ⟨h1, h2⟩ := consumeAll_after id _ _ (Nat.le_refl _) _ _ hc
    exact ⟨uses_consume hd hid _ _ _ (Nat.le_refl _) h _ _ hc, Or.inr h1, h2⟩

theorem idOf_short (d : OptDecl W) : (Id.short d.short).isEmpty = true ∨ IdOf d (.short d.short) := by
  by_cases h : d.short = '\x00'
  · left; simp [Id.isEmpty, h]
  · right; exact Or.inl ⟨h, rfl⟩

theorem idOf_long (d : OptDecl W) : (Id.long d.long).isEmpty = true ∨ IdOf d (.long d.long) := by
  by_cases h : d.long = []
  · left; simp [Id.isEmpty, h]
  · right; exact Or.inr ⟨h, rfl⟩

theorem getOption_done {D : Decls W} {d : OptDecl W} (hd : d ∈ D.options) {proc : List (OptDecl W)} {l l' l1 l2 : List Str}
    (h : OptionsDone D proc l l') {v1 v2 : List Str} (h1 : consumeId (.short d.short) l' = some (v1, l1))
    (h2 : consumeId (.long d.long) l1 = some (v2, l2)) : OptionsDone D (proc ++ [d]) l l2 := by
  obtain ⟨a1, a2, a3⟩ := consumeId_done hd _ (idOf_short d) h.uses h1
  obtain ⟨b1, b2, b3⟩ := consumeId_done hd _ (idOf_long d) a1 h2
  have key : ∀ a ∈ l2, a = [] ∨ a ∈ l' := by
    intro a ha
    rcases b3 a ha with h | h
    · exact Or.inl h
    · exact a3 a h
  refine ⟨b1, ?_, ?_⟩
  · intro a ha d' hd' hn
    rw [List.mem_append] at hd'
    rw [names_iff] at hn
    obtain ⟨id, hid, hh⟩ := hn
    rcases hd' with hd' | hd'
    · rcases key a ha with rfl | h'
      · simp at hh
      · exact h.gone a h' d' hd' ((names_iff _ _).2 ⟨id, hid, hh⟩)
    · simp at hd'
      subst hd'
      rcases hid with ⟨h0, rfl⟩ | ⟨h0, rfl⟩
      · rcases b3 a ha with rfl | h'
        · simp at hh
        · rcases a2 with he | hno
          · simp [Id.isEmpty, h0] at he
          · rw [hno a h'] at hh; cases hh
      · rcases b2 with he | hno
        · simp [Id.isEmpty, h0] at he
        · rw [hno a ha] at hh; cases hh
  · intro a ha
    rcases key a ha with h' | h'
    · exact Or.inl h'
    · exact h.mem a h'

/-- The option phase on arbitrary arguments. -/
theorem options_done {D : Decls W} (nd : Bool) (l : List Str) (rest : List (OptDecl W)) :
    ∀ (proc : List (OptDecl W)) (s s' : FState W) (u : Unit), D.options = proc ++ rest → OptionsDone D proc l s.pre →
      M.forEach (getOption nd) rest s = .ok u s' → OptionsDone D D.options l s'.pre ∧ s'.post = s.post := by
  induction rest with
  | nil =>
    intro proc s s' u hsplit hs h
    simp at hsplit
    cases h
    exact ⟨by rw [hsplit]; exact hs, rfl⟩
  | cons d rest ih =>
    intro proc s s' u hsplit hs h
    have hd : d ∈ D.options := by rw [hsplit]; simp
    rw [M.forEach_cons, M.bind_eq_ok] at h
    obtain ⟨u1, s1, h1, h2⟩ := h
    obtain ⟨v1, l1, v2, l2, e1, e2, h3⟩ := (getOption_ok nd d s s1 u1).1 h1
    have h4 := getOption_core nd d s _ _ _ _ e1 e2
    obtain ⟨h5, h6⟩ := h4.2 u1 s1 h1
    obtain ⟨h7, h8⟩ := ih (proc ++ [d]) s1 s' u (by simp [hsplit]) (by rw [h5]; exact getOption_done hd hs e1 e2) h2
    exact ⟨h7, h8.trans h6⟩

/-! ### Arguments that cannot be values -/

theorem free_sum {D : Decls W} {l l' : List Str} (h : Uses D l l') (g : Str → Nat) :
    ∀ prev, (((free D prev l).filter fun a => ¬ ∃ d ∈ D.options, Names d a).map g).sum ≤ (l'.map g).sum := by
  have hn : ∀ {d a}, Bare (W := W) d a → Names d a := by
    intro d a hb
    rcases hb with ⟨h, rfl⟩ | ⟨h, rfl⟩
    · exact Or.inl ⟨h, ⟨[], rfl⟩⟩
    · exact Or.inr ⟨h, Or.inl rfl⟩
  induction h with
  | nil => intro prev; simp [free]
  | @keep a l l' h ih =>
    intro prev
    have := ih (decide (BareAny D a))
    simp only [free]
    split
    · simp only [List.map_cons, List.sum_cons]; omega
    · rw [List.filter_cons]
      split <;> simp only [List.map_cons, List.sum_cons] <;> omega
  | @attached d a l l' hd ha h ih =>
    intro prev
    have := ih (decide (BareAny D a))
    have hna : ∃ d ∈ D.options, Names d a := by
      refine ⟨d, hd, ?_⟩
      obtain ⟨v, hv, ⟨h, rfl | ⟨_, rfl⟩⟩ | ⟨h, rfl⟩⟩ := ha
      · exact Or.inl ⟨h, ⟨_, rfl⟩⟩
      · exact Or.inl ⟨h, ⟨_, rfl⟩⟩
      · exact Or.inr ⟨h, Or.inr ⟨v, by simp⟩⟩
    simp only [free]
    split
    · simp only [List.map_cons, List.sum_cons]; omega
    · rw [List.filter_cons_of_neg (by simpa using hna)]
      simp only [List.map_cons, List.sum_cons]; omega
  | @pair d a v l l' hd ha h ih =>
    intro prev
    have := ih (decide (BareAny D v))
    have hb : decide (BareAny D a) = true := by simpa using ⟨d, hd, ha⟩
    simp only [free, hb, if_true]
    split
    · simp only [List.map_cons, List.sum_cons]; omega
    · rw [List.filter_cons_of_neg (by simpa using ⟨d, hd, hn ha⟩)]
      simp only [List.map_cons, List.sum_cons]; omega
  | @orphan d a l l' hd ha h ih =>
    intro prev
    have := ih true
    have hb : decide (BareAny D a) = true := by simpa using ⟨d, hd, ha⟩
    simp only [free, hb]
    simp only [List.map_cons, List.sum_cons] at this ⊢
    split
    · omega
    · rw [List.filter_cons_of_neg (by simpa using ⟨d, hd, hn ha⟩)]
      omega

theorem free_mem {D : Decls W} {l l' : List Str} (h : Uses D l l') {a : Str} (ha : a ∈ free D false l)
    (hn : ∀ d ∈ D.options, ¬ Names d a) : a ∈ l' := by
  have h1 := free_sum h (fun x => if x = a then 1 else 0) false
  have h2 : 0 < (((free D false l).filter fun a => ¬ ∃ d ∈ D.options, Names d a).map
      fun x => if x = a then 1 else 0).sum := by
    rw [List.sum_pos_iff_exists_pos_nat]
    refine ⟨1, List.mem_map.2 ⟨a, List.mem_filter.2 ⟨ha, ?_⟩, by simp⟩, by simp⟩
    simpa using hn
  have h3 : 0 < (l'.map fun x => if x = a then 1 else 0).sum := by omega
  rw [List.sum_pos_iff_exists_pos_nat] at h3
  obtain ⟨n, hn, hpos⟩ := h3
  obtain ⟨b, hb, rfl⟩ := List.mem_map.1 hn
  split at hpos
  · rename_i e; rw [← e]; exact hb
  · simp at hpos

theorem free_named {D : Decls W} {l l' : List Str} (h : Uses D l l')
    (hgone : ∀ a ∈ l', ∀ d ∈ D.options, ¬ Names d a) :
    ∀ prev, ∀ a ∈ free D prev l, (∃ d ∈ D.options, Names d a) → (∃ d ∈ D.options, Attached d a) ∨
      ∃ d ∈ D.options, Bare d a := by
  induction h with
  | nil => intro prev a ha; simp [free] at ha
  | @keep b l l' h ih =>
    intro prev a ha hn
    have ih := ih (fun a ha => hgone a (by simp [ha])) (decide (BareAny D b)) a
    simp only [free] at ha
    split at ha
    · exact ih ha hn
    · rcases List.mem_cons.1 ha with rfl | ha
      · obtain ⟨d, hd, hn⟩ := hn
        exact absurd hn (hgone a (by simp) d hd)
      · exact ih ha hn
  | @attached d b l l' hd hb h ih =>
    intro prev a ha hn
    have ih := ih (fun a ha => hgone a (by simp [ha])) (decide (BareAny D b)) a
    simp only [free] at ha
    split at ha
    · exact ih ha hn
    · rcases List.mem_cons.1 ha with rfl | ha
      · exact Or.inl ⟨d, hd, hb⟩
      · exact ih ha hn
  | @pair d b v l l' hd hb h ih =>
    intro prev a ha hn
    have ih := ih (fun a ha => hgone a (by simp [ha])) (decide (BareAny D v)) a
    have hbb : decide (BareAny D b) = true := by simpa using ⟨d, hd, hb⟩
    simp only [free, hbb, if_true] at ha
    split at ha
    · exact ih ha hn
    · rcases List.mem_cons.1 ha with rfl | ha
      · exact Or.inr ⟨d, hd, hb⟩
      · exact ih ha hn
  | @orphan d b l l' hd hb h ih =>
    intro prev a ha hn
    have ih := ih (fun a ha => hgone a (List.mem_cons_of_mem _ ha)) true a
    have hbb : decide (BareAny D b) = true := by simpa using ⟨d, hd, hb⟩
    simp only [free, hbb] at ha
    split at ha
    · exact ih ha hn
    · rcases List.mem_cons.1 ha with rfl | ha
      · exact Or.inr ⟨d, hd, hb⟩
      · exact ih ha hn

/-- The last argument cannot be an identifier without value. -/
theorem last_not_bare {D : Decls W} {l l' : List Str} (h : Uses D l l')
    (hgone : ∀ a ∈ l', ∀ d ∈ D.options, ¬ Names d a) (a : Str) (hb : BareAny D a)
    (hatt : ∀ d ∈ D.options, ¬ Attached d a) :
    ∀ l1, l = l1 ++ [a] → (∀ b, l1.getLast? = some b → ¬ BareAny D b) → False := by
  have hn : ∃ d ∈ D.options, Names d a := by
    obtain ⟨d, hd, hb⟩ := hb
    refine ⟨d, hd, ?_⟩
    rcases hb with ⟨h, rfl⟩ | ⟨h, rfl⟩
    · exact Or.inl ⟨h, ⟨[], rfl⟩⟩
    · exact Or.inr ⟨h, Or.inl rfl⟩
  have tl : ∀ (b : Str) (l1 : List Str), (∀ c, (b :: l1).getLast? = some c → ¬ BareAny D c) →
      (∀ c, l1.getLast? = some c → ¬ BareAny D c) := by
    intro b l1 h c hc
    apply h c
    cases l1 with
    | nil => simp at hc
    | cons x l1 => simpa [List.getLast?_cons_cons] using hc
  induction h with
  | nil => intro l1 h; simp at h
  | @keep b l l' h ih =>
    intro l1 hl hp
    cases l1 with
    | nil =>
      simp at hl
      obtain ⟨rfl, _⟩ := hl
      obtain ⟨d, hd, hn⟩ := hn
      exact hgone b (by simp) d hd hn
    | cons c l1 =>
      simp at hl
      exact ih (fun a ha => hgone a (by simp [ha])) l1 hl.2 (tl _ _ hp)
  | @attached d b l l' hd hb' h ih =>
    intro l1 hl hp
    cases l1 with
    | nil =>
      simp at hl
      obtain ⟨rfl, _⟩ := hl
      exact hatt d hd hb'
    | cons c l1 =>
      simp at hl
      exact ih (fun a ha => hgone a (by simp [ha])) l1 hl.2 (tl _ _ hp)
  | @pair d b v l l' hd hb' h ih =>
    intro l1 hl hp
    cases l1 with
    | nil => simp at hl
    | cons c l1 =>
      simp at hl
      obtain ⟨rfl, hl⟩ := hl
      cases l1 with
      | nil =>
        exact hp b (by simp) ⟨d, hd, hb'⟩
      | cons c' l1 =>
        simp at hl
        exact ih (fun a ha => hgone a (by simp [ha])) l1 hl.2 (tl _ _ (tl _ _ hp))
  | @orphan d b l l' hd hb' h ih =>
    intro l1 hl hp
    cases l1 with
    | nil =>
      simp at hl
      obtain ⟨_, rfl⟩ := hl
      have := uses_length h
      simp at this
    | cons c l1 =>
      simp at hl
      exact ih (fun a ha => hgone a (List.mem_cons_of_mem _ ha)) l1 hl.2 (tl _ _ hp)

/-! ### Occurrences of one option -/

theorem hits_unique {D : Decls W} (hD : IdsOk D) {id id' : Id} (h : OptId D id) (h' : OptId D id') {a : Str}
    (ha : id.hits a = true) (ha' : id'.hits a = true) : id = id' := by
  cases id with
  | short c =>
    obtain ⟨hc, d, hd, rfl⟩ := h
    have hcd := (hD.shortChars _ (mem_shortIds_option hd hc)).2
    obtain ⟨t, rfl⟩ := (Id.hits_short_iff _ _).1 ha
    cases id' with
    | short c' =>
      obtain ⟨t', h⟩ := (Id.hits_short_iff _ _).1 ha'
      simp at h
      rw [h.1]
    | long s =>
      rcases (Id.hits_long_iff _ _).1 ha' with h | ⟨t', h⟩ <;> simp at h <;> exact absurd h.1 hcd
  | long s =>
    obtain ⟨hs, d, hd, rfl⟩ := h
    cases id' with
    | short c' =>
      obtain ⟨hc, d', hd', rfl⟩ := h'
      have hcd := (hD.shortChars _ (mem_shortIds_option hd' hc)).2
      obtain ⟨t, rfl⟩ := (Id.hits_short_iff _ _).1 ha'
      rcases (Id.hits_long_iff _ _).1 ha with h | ⟨t', h⟩ <;> simp at h <;> exact absurd h.1 hcd
    | long s' =>
      obtain ⟨hs', d', hd', rfl⟩ := h'
      have e1 := hD.no_eq_option hd
      have e2 := hD.no_eq_option hd'
      rcases (Id.hits_long_iff _ _).1 ha with rfl | ⟨t, rfl⟩ <;>
        rcases (Id.hits_long_iff _ _).1 ha' with h | ⟨t', h⟩ <;> simp at h
      · rw [h]
      · exfalso; apply e1; rw [h]; simp
      · exfalso; apply e2; rw [← h]; simp
      · rw [eq_of_append_eq e1 e2 h]

theorem idOf_optId {D : Decls W} {d : OptDecl W} (hd : d ∈ D.options) {id : Id} (h : IdOf d id) : OptId D id := by
  rcases h with ⟨h, rfl⟩ | ⟨h, rfl⟩
  · exact ⟨h, d, hd, rfl⟩
  · exact ⟨h, d, hd, rfl⟩

theorem bareAny_iff (D : Decls W) (a : Str) : BareAny D a ↔ ∃ id, OptId D id ∧ a = id.dashed := by
  constructor
  · rintro ⟨d, hd, ⟨h, rfl⟩ | ⟨h, rfl⟩⟩
    · exact ⟨.short d.short, ⟨h, d, hd, rfl⟩, rfl⟩
    · exact ⟨.long d.long, ⟨h, d, hd, rfl⟩, rfl⟩
  · rintro ⟨id, h, rfl⟩
    cases id with
    | short c => obtain ⟨h, d, hd, rfl⟩ := h; exact ⟨d, hd, Or.inl ⟨h, rfl⟩⟩
    | long s => obtain ⟨h, d, hd, rfl⟩ := h; exact ⟨d, hd, Or.inr ⟨h, rfl⟩⟩

/-- Number of arguments with the identifier that cannot be values. -/
def count (D : Decls W) (id : Id) (prev : Bool) (l : List Str) : Nat := ((free D prev l).filter id.hits).length

theorem count_cons (D : Decls W) (id : Id) (prev : Bool) (a : Str) (l : List Str) :
    count D id prev (a :: l) =
      (if prev = false ∧ id.hits a = true then 1 else 0) + count D id (decide (BareAny D a)) l := by
  unfold count
  cases prev
  · simp only [free, Bool.false_eq_true, if_false, List.filter_cons, true_and]
    split
    · simp; omega
    · simp
  · simp [free]

theorem count_prev (D : Decls W) (id : Id) (prev : Bool) (l : List Str) : count D id prev l ≤ count D id false l := by
  cases l with
  | nil => simp [count, free]
  | cons a l =>
    rw [count_cons, count_cons]
    cases prev <;> simp

theorem not_bare_nil (D : Decls W) : decide (BareAny D []) = false := by
  rw [decide_eq_false_iff_not, bareAny_iff]
  rintro ⟨id, _, h⟩
  exact Id.dashed_ne_nil id h.symm

theorem count_nil (D : Decls W) (id : Id) (prev : Bool) (l : List Str) : count D id prev ([] :: l) = count D id false l := by
  rw [count_cons, not_bare_nil]; simp

theorem not_bare_inline {D : Decls W} (hD : IdsOk D) {id : Id} (h : OptId D id) {a : Str} (ha : id.hits a = true)
    (hl : id.dashed.length < a.length) : decide (BareAny D a) = false := by
  rw [decide_eq_false_iff_not, bareAny_iff]
  rintro ⟨id', h', rfl⟩
  have := hits_unique hD h h' ha (Id.hits_dashed id')
  subst this
  omega

/-- A pass for one identifier leaves the occurrences of the others. -/
theorem count_other {D : Decls W} (hD : IdsOk D) {id id' : Id} (hid : OptId D id) (hid' : OptId D id') (hne : id ≠ id') :
    ∀ (n : Nat) (l : List Str), l.length ≤ n → ∀ vals l', consumeAll id l = some (vals, l') →
      ∀ prev, count D id' prev l ≤ count D id' prev l' := by
  intro n
  induction n with
  | zero =>
    intro l hn vals l' hc prev
    have : l = [] := by simpa using hn
    subst this
    simp [consumeAll] at hc
    rw [hc.2]; simp
  | succ n ih =>
    intro l hn vals l' hc prev
    cases l with
    | nil => simp [consumeAll] at hc; rw [hc.2]; simp
    | cons a l =>
      have hn' : l.length ≤ n := by simpa using hn
      rw [consumeAll.eq_def] at hc
      by_cases hh : id.hits a = true
      · have ha' : ¬ id'.hits a = true := fun h => hne (hits_unique hD hid hid' hh h)
        simp only [hh, if_true] at hc
        split at hc
        · rename_i hl
          cases hi : inlineVal id a with
          | none => simp [hi] at hc
          | some v =>
            simp only [hi, Option.map_eq_some_iff] at hc
            obtain ⟨⟨vs, l2⟩, h1, h2⟩ := hc
            simp at h2
            rw [← h2.2, count_nil, count_cons, not_bare_inline hD hid hh hl]
            have := ih l hn' _ _ h1 false
            simp [ha']
            exact this
        · rename_i hl
          have hb : decide (BareAny D a) = true := by
            rw [decide_eq_true_eq, bareAny_iff]; exact ⟨id, hid, Id.hits_exact id a hh hl⟩
          cases l with
          | nil => simp at hc
          | cons v l =>
            simp only [Option.map_eq_some_iff] at hc
            obtain ⟨⟨vs, l2⟩, h1, h2⟩ := hc
            simp at h2
            rw [← h2.2, count_nil, count_nil, count_cons, hb, count_cons]
            have h3 := ih l (by simp at hn'; omega) _ _ h1 false
            have h4 := count_prev D id' (decide (BareAny D v)) l
            simp [ha']
            omega
      · simp only [hh, Bool.false_eq_true, if_false, Option.map_eq_some_iff] at hc
        obtain ⟨⟨vs, l2⟩, h1, h2⟩ := hc
        simp at h2
        rw [← h2.2, count_cons, count_cons]
        have := ih l hn' _ _ h1 (decide (BareAny D a))
        omega

/-- A pass finds at least the occurrences that cannot be values. -/
theorem count_found {D : Decls W} {id : Id} (hid : OptId D id) :
    ∀ (n : Nat) (l : List Str), l.length ≤ n → ∀ vals l', consumeAll id l = some (vals, l') →
      ∀ prev, count D id prev l ≤ vals.length := by
  intro n
  induction n with
  | zero =>
    intro l hn vals l' hc prev
    have : l = [] := by simpa using hn
    subst this
    simp [count, free]
  | succ n ih =>
    intro l hn vals l' hc prev
    cases l with
    | nil => simp [count, free]
    | cons a l =>
      have hn' : l.length ≤ n := by simpa using hn
      rw [consumeAll.eq_def] at hc
      rw [count_cons]
      by_cases hh : id.hits a = true
      · simp only [hh, if_true] at hc
        split at hc
        · cases hi : inlineVal id a with
          | none => simp [hi] at hc
          | some v =>
            simp only [hi, Option.map_eq_some_iff] at hc
            obtain ⟨⟨vs, l2⟩, h1, h2⟩ := hc
            simp at h2
            rw [← h2.1]
            have := ih l hn' _ _ h1 (decide (BareAny D a))
            simp only [List.length_cons]
            split <;> omega
        · rename_i hl
          have hb : decide (BareAny D a) = true := by
            rw [decide_eq_true_eq, bareAny_iff]; exact ⟨id, hid, Id.hits_exact id a hh hl⟩
          cases l with
          | nil => simp at hc
          | cons v l =>
            simp only [Option.map_eq_some_iff] at hc
            obtain ⟨⟨vs, l2⟩, h1, h2⟩ := hc
            simp at h2
            rw [← h2.1, hb, count_cons]
            have h3 := ih l (by simp at hn'; omega) _ _ h1 (decide (BareAny D v))
            simp only [List.length_cons, Bool.true_eq_false, false_and, if_false]
            split <;> omega
      · simp only [hh, Bool.false_eq_true, if_false, Option.map_eq_some_iff] at hc
        obtain ⟨⟨vs, l2⟩, h1, h2⟩ := hc
        simp at h2
        rw [← h2.1]
        have := ih l hn' _ _ h1 (decide (BareAny D a))
        simp [hh]
        exact this

theorem count_other_id {D : Decls W} (hD : IdsOk D) {d : OptDecl W} (hd : d ∈ D.options) {id id' : Id}
    (hid : id.isEmpty = true ∨ IdOf d id) (hid' : OptId D id') (hne : id ≠ id') {l vals l' : List Str}
    (hc : consumeId id l = some (vals, l')) (prev : Bool) : count D id' prev l ≤ count D id' prev l' := by
  unfold consumeId at hc
  rcases hid with he | hid
  · simp [he] at hc; rw [hc.2]; exact Nat.le_refl _
  · have he : id.isEmpty = false := by
      rcases hid with ⟨h, rfl⟩ | ⟨h, rfl⟩ <;> simp [Id.isEmpty, h]
    simp [he] at hc
    exact count_other hD (idOf_optId hd hid) hid' hne _ _ (Nat.le_refl _) _ _ hc prev

/-- Different options have different identifiers. -/
theorem idOf_ne {D : Decls W} (hD : IdsOk D) {proc rest : List (OptDecl W)} {d e : OptDecl W}
    (hsplit : D.options = proc ++ d :: rest) (he : e ∈ proc) {id : Id} (hid : IdOf d id) :
    (Id.short e.short) ≠ id ∧ (Id.long e.long) ≠ id := by
  have hn1 := hD.shortNodup
  have hn2 := hD.longNodup
  unfold shortIds at hn1
  unfold longIds at hn2
  rw [hsplit] at hn1 hn2
  simp only [List.map_append, List.map_cons, List.append_assoc, List.filter_append, List.nodup_append] at hn1 hn2
  rcases hid with ⟨h, rfl⟩ | ⟨h, rfl⟩
  · refine ⟨fun e' => ?_, by simp⟩
    simp at e'
    have h1 : e.short ∈ List.filter (fun x => decide (x ≠ '\x00')) (proc.map (·.short)) := by
      simp only [List.mem_filter, List.mem_map, decide_eq_true_eq]; exact ⟨⟨e, he, rfl⟩, e' ▸ h⟩
    refine hn1.2.2 _ h1 d.short ?_ e'
    rw [List.mem_append, List.filter_cons_of_pos (by simpa using h)]; simp
  · refine ⟨by simp, fun e' => ?_⟩
    simp at e'
    have h1 : e.long ∈ List.filter (fun x => decide (x ≠ [])) (proc.map (·.long)) := by
      simp only [List.mem_filter, List.mem_map, decide_eq_true_eq]; exact ⟨⟨e, he, rfl⟩, e' ▸ h⟩
    refine hn2.2.2 _ h1 d.long ?_ e'
    rw [List.mem_append, List.filter_cons_of_pos (by simpa using h)]; simp

end Sharg
