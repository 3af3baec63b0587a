import Verif.Lemmas.Account

/-!
# What a successful run does with arbitrary arguments, continued: single options, flags, positional options
-/

set_option linter.unusedSimpArgs false

namespace Sharg

open Spec

variable {W : Type}

theorem forEach_append {σ α : Type} (f : α → M σ Unit) (l1 l2 : List α) :
    M.forEach f (l1 ++ l2) = M.bind (M.forEach f l1) fun _ => M.forEach f l2 := by
  induction l1 with
  | nil => rfl
  | cons a l ih =>
    funext s
    rw [List.cons_append, M.forEach_cons, M.forEach_cons, ih]
    simp only [M.bind_run]
    cases f a s <;> rfl

theorem count_options {D : Decls W} (hD : IdsOk D) {d : OptDecl W} {before after : List (OptDecl W)}
    (hsplit : D.options = before ++ d :: after) (nd : Bool) {id : Id} (hid : IdOf d id) (proc : List (OptDecl W)) :
    ∀ (s s' : FState W) (u : Unit), (∀ e ∈ proc, e ∈ before) →
      M.forEach (getOption nd) proc s = .ok u s' → count D id false s.pre ≤ count D id false s'.pre := by
  induction proc with
  | nil => intro s s' u _ h; cases h; exact Nat.le_refl _
  | cons e proc ih =>
    intro s s' u hsub h
    rw [M.forEach_cons, M.bind_eq_ok] at h
    obtain ⟨u1, s1, h1, h2⟩ := h
    have he : e ∈ before := hsub e (by simp)
    have heD : e ∈ D.options := by rw [hsplit]; simp [he]
    have hdD : d ∈ D.options := by rw [hsplit]; simp
    obtain ⟨v1, l1, v2, l2, e1, e2, h3⟩ := (getOption_ok nd e s s1 u1).1 h1
    obtain ⟨h5, _⟩ := (getOption_core nd e s _ _ _ _ e1 e2).2 u1 s1 h1
    obtain ⟨n1, n2⟩ := idOf_ne hD hsplit he hid
    have a1 := count_other_id hD heD (idOf_short e) (idOf_optId hdD hid) n1 e1 false
    have a2 := count_other_id hD heD (idOf_long e) (idOf_optId hdD hid) n2 e2 false
    have a3 := ih s1 s' u (fun x hx => hsub x (by simp [hx])) h2
    rw [h5] at a3
    omega

/-- The run of one option inside the option phase. -/
theorem options_at {D : Decls W} (hD : IdsOk D) {d : OptDecl W} {before after : List (OptDecl W)}
    (hsplit : D.options = before ++ d :: after) (nd : Bool) (s s' : FState W) (u : Unit)
    (h : M.forEach (getOption nd) D.options s = .ok u s') :
    ∃ s1 s2 u1 v1 l1 v2 l2,
      M.forEach (getOption nd) before s = .ok () s1 ∧ getOption nd d s1 = .ok u1 s2 ∧
      M.forEach (getOption nd) after s2 = .ok u s' ∧
      (∀ a ∈ s1.pre, a = [] ∨ a ∈ s.pre) ∧
      (∀ id, IdOf d id → count D id false s.pre ≤ count D id false s1.pre) ∧
      consumeId (.short d.short) s1.pre = some (v1, l1) ∧ consumeId (.long d.long) l1 = some (v2, l2) ∧
      ((v1 = [] ∧ v2 = [] ∧ d.required = false ∧ s2 = s1) ∨
        (¬ (v1 = [] ∧ v2 = []) ∧ ∃ val w, optValue nd d v1 v2 = some val ∧ d.validator val s1.world = (true, w) ∧
          s2 = { s1 with pre := l2, store := s1.store.set d.var val, world := w })) := by
  rw [hsplit, forEach_append, M.bind_eq_ok] at h
  obtain ⟨u0, s1, h1, h2⟩ := h
  rw [M.forEach_cons, M.bind_eq_ok] at h2
  obtain ⟨u1, s2, h3, h4⟩ := h2
  obtain ⟨v1, l1, v2, l2, e1, e2, h5⟩ := (getOption_ok nd d s1 s2 u1).1 h3
  have := options_done (D := { D with options := before }) nd s.pre before [] s s1 u0 rfl
    ⟨uses_refl _, by simp, fun a ha => Or.inr ha⟩ h1
  exact ⟨s1, s2, u1, v1, l1, v2, l2, h1, h3, h4, this.1.mem,
    fun id hid => count_options hD hsplit nd hid before s s1 u0 (fun _ h => h) h1, e1, e2, h5⟩

/-- Number of arguments naming an option, not counting possible values. -/
def occurrences (D : Decls W) (d : OptDecl W) (l : List Str) : Nat := ((free D false l).filter fun a => Names d a).length

theorem occurrences_le (D : Decls W) (d : OptDecl W) (l : List Str) :
    occurrences D d l ≤ (if d.short = '\x00' then 0 else count D (.short d.short) false l) +
      (if d.long = [] then 0 else count D (.long d.long) false l) := by
  unfold occurrences count
  generalize free D false l = m
  induction m with
  | nil => simp
  | cons a m ih =>
    by_cases h : Names d a
    · rw [List.filter_cons_of_pos (by simpa using h), List.length_cons]
      obtain ⟨id, hid, hh⟩ := (names_iff d a).1 h
      rcases hid with ⟨h0, rfl⟩ | ⟨h0, rfl⟩
      · simp only [h0, if_false] at ih ⊢
        rw [List.filter_cons_of_pos hh, List.length_cons]
        have : (List.filter (Id.long d.long).hits m).length ≤ (List.filter (Id.long d.long).hits (a :: m)).length := by
          rw [List.filter_cons]; split <;> simp
        split at ih <;> split <;> first | omega | contradiction
      · simp only [h0, if_false] at ih ⊢
        rw [List.filter_cons_of_pos (p := (Id.long d.long).hits) hh, List.length_cons]
        have : (List.filter (Id.short d.short).hits m).length ≤ (List.filter (Id.short d.short).hits (a :: m)).length := by
          rw [List.filter_cons]; split <;> simp
        split at ih <;> split <;> first | omega | contradiction
    · rw [List.filter_cons_of_neg (by simpa using h)]
      have h1 : (List.filter (Id.long d.long).hits m).length ≤ (List.filter (Id.long d.long).hits (a :: m)).length := by
        rw [List.filter_cons]; split <;> simp
      have h2 : (List.filter (Id.short d.short).hits m).length ≤ (List.filter (Id.short d.short).hits (a :: m)).length := by
        rw [List.filter_cons]; split <;> simp
      split at ih <;> split at ih <;> simp_all <;> omega

theorem consumeId_count {D : Decls W} {id : Id} (hid : OptId D id) {l vals l' : List Str}
    (he : id.isEmpty = false) (hc : consumeId id l = some (vals, l')) : count D id false l ≤ vals.length := by
  unfold consumeId at hc
  simp [he] at hc
  exact count_found hid _ _ (Nat.le_refl _) _ _ hc false

theorem scalar_once {D : Decls W} (hD : IdsOk D) {d : OptDecl W} (hd : d ∈ D.options) (hl : d.isList = false) (nd : Bool)
    (s s' : FState W) (u : Unit) (h : M.forEach (getOption nd) D.options s = .ok u s') :
    occurrences D d s.pre ≤ 1 := by
  obtain ⟨before, after, hsplit⟩ := List.append_of_mem hd
  obtain ⟨s1, s2, u1, v1, l1, v2, l2, _, _, _, _, hcount, e1, e2, h5⟩ := options_at hD hsplit nd s s' u h
  have hlen : v1.length + v2.length ≤ 1 := by
    rcases h5 with ⟨rfl, rfl, _⟩ | ⟨_, val, w, hv, _⟩
    · simp
    · rcases Nat.lt_or_ge (v1 ++ v2).length 2 with h2 | h2
      · simp at h2; omega
      · rw [optValue_two nd d v1 v2 hl h2] at hv; cases hv
  have h0 := occurrences_le D d s.pre
  have hs : (if d.short = '\x00' then 0 else count D (.short d.short) false s.pre) ≤ v1.length := by
    split
    · simp
    · rename_i hc
      have hid : IdOf d (.short d.short) := Or.inl ⟨hc, rfl⟩
      exact Nat.le_trans (hcount _ hid) (consumeId_count (idOf_optId hd hid) (by simp [Id.isEmpty, hc]) e1)
  have hlg : (if d.long = [] then 0 else count D (.long d.long) false s.pre) ≤ v2.length := by
    split
    · simp
    · rename_i hc
      have hid : IdOf d (.long d.long) := Or.inr ⟨hc, rfl⟩
      refine Nat.le_trans (hcount _ hid) (Nat.le_trans ?_ (consumeId_count (idOf_optId hd hid) (by simp [Id.isEmpty, hc]) e2))
      exact count_other_id hD hd (idOf_short d) (idOf_optId hd hid) (by simp) e1 false
  omega

/-- Texts are only found where the option is named. -/
theorem consumeId_named {d : OptDecl W} {id : Id} (hid : id.isEmpty = true ∨ IdOf d id) {l vals l' : List Str}
    (hc : consumeId id l = some (vals, l')) (hne : vals ≠ []) : ∃ a ∈ l, Names d a := by
  unfold consumeId at hc
  rcases hid with he | hid
  · simp [he] at hc; exact absurd hc.1.symm (by simpa using hne)
  · have he : id.isEmpty = false := by
      rcases hid with ⟨h, rfl⟩ | ⟨h, rfl⟩ <;> simp [Id.isEmpty, h]
    simp [he] at hc
    apply Classical.byContradiction
    intro hno
    have : ∀ a ∈ l, id.hits a = false := by
      intro a ha
      rw [← Bool.not_eq_true]
      exact fun hh => hno ⟨a, ha, (names_iff d a).2 ⟨id, hid, hh⟩⟩
    rw [consumeAll_none_hit id l this] at hc
    simp at hc
    exact hne hc.1

theorem consumeId_mem (id : Id) {l vals l' : List Str} (hc : consumeId id l = some (vals, l')) :
    ∀ a ∈ l', a = [] ∨ a ∈ l := by
  unfold consumeId at hc
  split at hc
  · simp at hc; rw [hc.2]; exact fun a ha => Or.inr ha
  · exact (consumeAll_after id _ _ (Nat.le_refl _) _ _ hc).2

theorem not_names_nil (d : OptDecl W) : ¬ Names d [] := by
  rw [names_iff]
  rintro ⟨id, _, h⟩
  simp at h

/-- Something was found for the option: it is named. -/
theorem found_named {d : OptDecl W} {l v1 l1 v2 l2 : List Str} (e1 : consumeId (.short d.short) l = some (v1, l1))
    (e2 : consumeId (.long d.long) l1 = some (v2, l2)) (h : ¬ (v1 = [] ∧ v2 = [])) : ∃ a ∈ l, Names d a := by
  by_cases h1 : v1 = []
  · obtain ⟨a, ha, hn⟩ := consumeId_named (idOf_long d) e2 (fun h2 => h ⟨h1, h2⟩)
    rcases consumeId_mem _ e1 a ha with rfl | ha
    · exact absurd hn (not_names_nil d)
    · exact ⟨a, ha, hn⟩
  · exact consumeId_named (idOf_short d) e1 h1

/-! ### Flags -/

theorem flagShort_spec (c : Char) (l l' : List Str) (h : flagShort c l = some l') :
    ∃ l1 a a' l2, l = l1 ++ a :: l2 ∧ l' = l1 ++ a' :: l2 ∧ flagCell c a = some a' ∧ ∀ b ∈ l1, flagCell c b = none := by
  induction l generalizing l' with
  | nil => simp [flagShort] at h
  | cons a l ih =>
    simp only [flagShort] at h
    cases hc : flagCell c a with
    | some a' =>
      simp [hc] at h
      exact ⟨[], a, a', l, rfl, h.symm, hc, by simp⟩
    | none =>
      simp only [hc, Option.map_eq_some_iff] at h
      obtain ⟨l2, h1, rfl⟩ := h
      obtain ⟨x, b, b', y, rfl, rfl, h3, h4⟩ := ih l2 h1
      refine ⟨a :: x, b, b', y, rfl, rfl, h3, ?_⟩
      intro b hb
      rcases List.mem_cons.1 hb with rfl | hb
      · exact hc
      · exact h4 b hb

theorem flagLong_spec (s : Str) (l l' : List Str) (h : flagLong s l = some l') :
    ∃ l1 l2, l = l1 ++ ('-' :: '-' :: s) :: l2 ∧ l' = l1 ++ [] :: l2 := by
  induction l generalizing l' with
  | nil => simp [flagLong] at h
  | cons a l ih =>
    simp only [flagLong] at h
    split at h
    · rename_i e
      simp at h
      exact ⟨[], l, by rw [e]; rfl, h.symm⟩
    · simp only [Option.map_eq_some_iff] at h
      obtain ⟨l2, h1, rfl⟩ := h
      obtain ⟨x, y, rfl, rfl⟩ := ih l2 h1
      exact ⟨a :: x, y, rfl, rfl⟩

theorem flagCell_spec (c : Char) (hc : c ≠ '-') (a a' : Str) (h : flagCell c a = some a') :
    ∃ y t, a = '-' :: y :: t ∧ y ≠ '-' ∧ c ∈ y :: t ∧ a' = (if (y :: t).erase c = [] then [] else '-' :: (y :: t).erase c) := by
  unfold flagCell at h
  split at h
  · rename_i y t
    split at h
    · rename_i hy
      have hmem : c ∈ y :: t := by
        rcases List.mem_cons.1 hy.2 with e | e
        · exact absurd e hc
        · exact e
      refine ⟨y, t, rfl, hy.1, hmem, ?_⟩
      have e : ('-' :: y :: t).erase c = '-' :: (y :: t).erase c :=
        List.erase_cons_tail (by simpa using fun e => hc e.symm)
      rw [e] at h
      simp only [Option.some.injEq] at h
      rw [← h]
      by_cases hn : (y :: t).erase c = []
      · rw [if_pos hn, hn]; rfl
      · rw [if_neg hn, if_neg (by simpa using hn)]
    · cases h
  · cases h

theorem becomes_short {D : Decls W} {f : FlagDecl} (hf : f ∈ D.flags) (hc : f.short ≠ '-') {a b b' : Str}
    (h : Becomes D a b) (hb : flagCell f.short b = some b') : Becomes D a b' := by
  obtain ⟨y, t, rfl, hy, hmem, rfl⟩ := flagCell_spec _ hc _ _ hb
  have key : ∀ t0 : Str, t0.head? ≠ some '-' → Shrinks D t0 (y :: t) →
      Becomes D ('-' :: t0) (if (y :: t).erase f.short = [] then [] else '-' :: (y :: t).erase f.short) := by
    intro t0 h0 hs
    have hs' : Shrinks D t0 ((y :: t).erase f.short) := by
      obtain ⟨xs, h1, h2, h3⟩ := hs
      refine ⟨xs ++ [f.short], ?_, ?_, (List.erase_sublist).trans h3⟩
      · intro x hx
        simp at hx
        rcases hx with hx | rfl
        · exact h1 x hx
        · exact ⟨f, hf, rfl⟩
      · rw [List.append_assoc]
        exact h2.trans ((List.perm_cons_erase hmem).append_left xs)
    split
    · rename_i he
      rw [he] at hs'
      refine .gone (Or.inr ⟨t0, [], rfl, ?_, h0, hs', Or.inl rfl⟩)
      rintro rfl
      exact absurd (hs.choose_spec.2.2.length_le) (by simp)
    · rename_i he
      exact .shrink he h0 hs'
  cases h with
  | same => exact key (y :: t) (by simpa using hy) ⟨[], by simp, .refl _, .refl _⟩
  | shrink h1 h2 h3 => exact key _ h2 h3

theorem becomes_long {D : Decls W} {f : FlagDecl} (hf : f ∈ D.flags) {a : Str}
    (h : Becomes D a ('-' :: '-' :: f.long)) : Becomes D a [] := by
  cases h with
  | same => exact .gone (Or.inl ⟨f, hf, rfl⟩)
  | shrink h1 h2 h3 => 
    refine .gone (Or.inr ⟨_, _, rfl, ?_, h2, h3, Or.inr ⟨f, hf, rfl⟩⟩)
    rintro rfl
    exact absurd (h3.choose_spec.2.2.length_le) (by simp)

theorem forall2_update {α β : Type} {R : α → β → Prop} {l : List α} {l1 l2 : List β} {b b' : β}
    (h : Pointwise R l (l1 ++ b :: l2)) (hb : ∀ a, R a b → R a b') : Pointwise R l (l1 ++ b' :: l2) := by
  induction l1 generalizing l with
  | nil => cases h with | cons h1 h2 => exact .cons (hb _ h1) h2
  | cons c l1 ih => cases h with | cons h1 h2 => exact .cons h1 (ih h2)

theorem getFlag_becomes {D : Decls W} {f : FlagDecl} (hf : f ∈ D.flags) (hc : f.short ≠ '-') {l m : List Str}
    (s s' : FState W) (u : Unit) (h1 : Pointwise (Becomes D) l s.pre) (h2 : Pointwise (Becomes D) m s.post)
    (h : getFlag f s = .ok u s') : Pointwise (Becomes D) l s'.pre ∧ Pointwise (Becomes D) m s'.post ∧
      s'.world = s.world := by
  unfold getFlag at h
  split at h
  · rename_i pre' hp
    cases h
    obtain ⟨x, a, a', y, e1, rfl, e3, _⟩ := flagShort_spec _ _ _ hp
    rw [e1] at h1
    exact ⟨forall2_update h1 (fun _ h => becomes_short hf hc h e3), h2, rfl⟩
  · split at h
    · rename_i post' hp
      cases h
      obtain ⟨x, a, a', y, e1, rfl, e3, _⟩ := flagShort_spec _ _ _ hp
      rw [e1] at h2
      exact ⟨h1, forall2_update h2 (fun _ h => becomes_short hf hc h e3), rfl⟩
    · split at h
      · rename_i pre' hp
        cases h
        obtain ⟨x, y, e1, rfl⟩ := flagLong_spec _ _ _ hp
        rw [e1] at h1
        exact ⟨forall2_update h1 (fun _ h => becomes_long hf h), h2, rfl⟩
      · cases h
        exact ⟨h1, h2, rfl⟩

theorem forall2_refl {α : Type} {R : α → α → Prop} (h : ∀ a, R a a) (l : List α) : Pointwise R l l := by
  induction l with
  | nil => exact .nil
  | cons a l ih => exact .cons (h a) ih

theorem flag_short_dash {D : Decls W} (hD : IdsOk D) {f : FlagDecl} (hf : f ∈ D.flags) : f.short ≠ '-' := by
  by_cases h : f.short = '\x00'
  · rw [h]; decide
  · exact (hD.shortChars _ (mem_shortIds_flag hf h)).2

theorem flags_becomes {D : Decls W} (hD : IdsOk D) {l m : List Str} (fs : List FlagDecl) :
    ∀ (s s' : FState W) (u : Unit), (∀ f ∈ fs, f ∈ D.flags) → Pointwise (Becomes D) l s.pre →
      Pointwise (Becomes D) m s.post → M.forEach getFlag fs s = .ok u s' →
      Pointwise (Becomes D) l s'.pre ∧ Pointwise (Becomes D) m s'.post ∧ s'.world = s.world := by
  induction fs with
  | nil => intro s s' u _ h1 h2 h; cases h; exact ⟨h1, h2, rfl⟩
  | cons f fs ih =>
    intro s s' u hsub h1 h2 h
    rw [M.forEach_cons, M.bind_eq_ok] at h
    obtain ⟨u1, s1, e1, e2⟩ := h
    have hf := hsub f (by simp)
    obtain ⟨a1, a2, a3⟩ := getFlag_becomes hf (flag_short_dash hD hf) s s1 u1 h1 h2 e1
    obtain ⟨b1, b2, b3⟩ := ih s1 s' u (fun f hf => hsub f (by simp [hf])) a1 a2 e2
    exact ⟨b1, b2, b3.trans a3⟩

theorem flags_never_throw (fs : List FlagDecl) (s : FState W) : ∃ s', M.forEach getFlag fs s = .ok () s' := by
  induction fs generalizing s with
  | nil => exact ⟨s, rfl⟩
  | cons f fs ih =>
    have : ∃ s1, getFlag f s = .ok () s1 := by
      unfold getFlag
      split
      · exact ⟨_, rfl⟩
      · split
        · exact ⟨_, rfl⟩
        · split <;> exact ⟨_, rfl⟩
    obtain ⟨s1, h1⟩ := this
    obtain ⟨s2, h2⟩ := ih s1
    exact ⟨s2, by rw [M.forEach_cons, M.bind_run, h1]; exact h2⟩

/-! ### How often a flag is mentioned -/

theorem cellMentions_nil (f : FlagDecl) : cellMentions f [] = 0 := rfl

theorem cellMentions_group (f : FlagDecl) (y : Char) (t : Str) (hy : y ≠ '-') :
    cellMentions f ('-' :: y :: t) = if '-' ∈ y :: t ∨ f.short = '\x00' then 0 else (y :: t).count f.short := by
  unfold cellMentions
  split
  · rename_i h; simp at h; exact absurd h.1 hy
  · rename_i t' _ h
    simp only [List.cons.injEq, true_and] at h
    subst h; rfl
  · rename_i h1; exact absurd rfl (h1 _)

theorem cellMentions_dash (f : FlagDecl) : cellMentions f ['-'] = 0 := by
  unfold cellMentions
  simp

theorem cellMentions_of_group (f : FlagDecl) (rest : Str) (h : '-' ∉ rest) :
    cellMentions f ('-' :: rest) = if f.short = '\x00' then 0 else rest.count f.short := by
  cases rest with
  | nil => rw [cellMentions_dash]; simp
  | cons y t =>
    rw [cellMentions_group f y t (by rintro rfl; simp at h)]
    simp only [h, false_or]

theorem cellMentions_short_step (f : FlagDecl) (c : Char) (hc : c ≠ '-') (b b' : Str) (h : flagCell c b = some b') :
    cellMentions f b ≤ cellMentions f b' + (if c = f.short then 1 else 0) := by
  obtain ⟨y, t, rfl, hy, hmem, rfl⟩ := flagCell_spec c hc b b' h
  rw [cellMentions_group f y t hy]
  by_cases hd : '-' ∈ y :: t
  · simp [hd]
  · by_cases h0 : f.short = '\x00'
    · simp [h0]
    · have hd' : '-' ∉ (y :: t).erase c := fun hm => hd (List.mem_of_mem_erase hm)
      have hcount : (y :: t).count f.short = ((y :: t).erase c).count f.short + (if c = f.short then 1 else 0) := by
        rw [(List.perm_cons_erase hmem).count_eq, List.count_cons]
        congr 1
        simp
      have h1 : ¬ ('-' ∈ y :: t ∨ f.short = '\x00') := by simp only [hd, h0, or_self, not_false_eq_true]
      rw [if_neg h1, hcount]
      by_cases he : (y :: t).erase c = []
      · rw [if_pos he, he, cellMentions_nil]; simp
      · rw [if_neg he, cellMentions_of_group f _ hd', if_neg h0]; exact Nat.le_refl _

theorem cellMentions_long (f : FlagDecl) (s : Str) :
    cellMentions f ('-' :: '-' :: s) = if s = f.long ∧ f.long ≠ [] then 1 else 0 := rfl

theorem argMentions_update (f : FlagDecl) (l1 l2 : List Str) (b b' : Str) (k : Nat)
    (h : cellMentions f b ≤ cellMentions f b' + k) :
    argMentions f (l1 ++ b :: l2) ≤ argMentions f (l1 ++ b' :: l2) + k := by
  unfold argMentions
  simp only [List.map_append, List.map_cons, List.sum_append, List.sum_cons]
  omega

/-- The same flag. -/
def sameFlag (f g : FlagDecl) : Prop :=
  (f.short ≠ '\x00' ∧ g.short = f.short) ∨ (f.long ≠ [] ∧ g.long = f.long)

theorem getFlag_mentions (f g : FlagDecl) (hg : g.short ≠ '-') (s s' : FState W) (u : Unit)
    (h : getFlag g s = .ok u s') :
    argMentions f s.pre ≤ argMentions f s'.pre + 1 ∧
    (¬ sameFlag f g → argMentions f s.pre ≤ argMentions f s'.pre) := by
  have hshort : ∀ b b', flagCell g.short b = some b' → cellMentions f b ≤ cellMentions f b' + 1 ∧
      (¬ sameFlag f g → cellMentions f b ≤ cellMentions f b' + 0) := by
    intro b b' hb
    have h1 := cellMentions_short_step f g.short hg b b' hb
    constructor
    · split at h1 <;> omega
    · intro hns
      split at h1
      · rename_i he
        obtain ⟨y, t, rfl, hy, _, rfl⟩ := flagCell_spec _ hg _ _ hb
        have h0 : f.short = '\x00' := by
          apply Classical.byContradiction; intro h0; exact hns (Or.inl ⟨h0, he⟩)
        rw [cellMentions_group f y t hy]
        simp [h0]
      · omega
  have hlong : cellMentions f ('-' :: '-' :: g.long) ≤ cellMentions f [] + 1 ∧
      (¬ sameFlag f g → cellMentions f ('-' :: '-' :: g.long) ≤ cellMentions f [] + 0) := by
    rw [cellMentions_long, cellMentions_nil]
    constructor
    · split <;> omega
    · intro hns
      split
      · rename_i h1; exact absurd (Or.inr ⟨h1.2, h1.1⟩) hns
      · omega
  unfold getFlag at h
  split at h
  · rename_i pre' hp
    cases h
    obtain ⟨x, a, a', y, e1, rfl, e3, _⟩ := flagShort_spec _ _ _ hp
    rw [e1]
    exact ⟨argMentions_update f x y a a' 1 (hshort _ _ e3).1,
      fun hns => argMentions_update f x y a a' 0 ((hshort _ _ e3).2 hns)⟩
  · split at h
    · cases h; exact ⟨Nat.le_succ _, fun _ => Nat.le_refl _⟩
    · split at h
      · rename_i pre' hp
        cases h
        obtain ⟨x, y, e1, rfl⟩ := flagLong_spec _ _ _ hp
        rw [e1]
        exact ⟨argMentions_update f x y _ _ 1 hlong.1, fun hns => argMentions_update f x y _ _ 0 (hlong.2 hns)⟩
      · cases h; exact ⟨Nat.le_succ _, fun _ => Nat.le_refl _⟩

theorem flags_mentions_other (f : FlagDecl) (fs : List FlagDecl) :
    ∀ (s s' : FState W) (u : Unit), (∀ g ∈ fs, g.short ≠ '-' ∧ ¬ sameFlag f g) →
      M.forEach getFlag fs s = .ok u s' → argMentions f s.pre ≤ argMentions f s'.pre := by
  induction fs with
  | nil => intro s s' u _ h; cases h; exact Nat.le_refl _
  | cons g fs ih =>
    intro s s' u hg h
    rw [M.forEach_cons, M.bind_eq_ok] at h
    obtain ⟨u1, s1, e1, e2⟩ := h
    have a := (getFlag_mentions f g (hg g (by simp)).1 s s1 u1 e1).2 (hg g (by simp)).2
    have b := ih s1 s' u (fun g h => hg g (by simp [h])) e2
    omega

theorem not_sameFlag {D : Decls W} (hD : IdsOk D) {f : FlagDecl} {fs gs : List FlagDecl}
    (hsplit : D.flags = fs ++ f :: gs) (g : FlagDecl) (hg : g ∈ fs ∨ g ∈ gs) : ¬ sameFlag f g := by
  have h1 := hD.shortNodup
  have h2 := hD.longNodup
  unfold shortIds at h1
  unfold longIds at h2
  rw [hsplit] at h1 h2
  rintro (⟨h0, e⟩ | ⟨h0, e⟩)
  · rw [List.filter_append, List.nodup_append] at h1
    obtain ⟨_, h1, _⟩ := h1
    rw [List.map_append, List.map_cons, List.filter_append, List.filter_cons_of_pos (by simpa using h0),
      List.nodup_append] at h1
    obtain ⟨_, h1, h3⟩ := h1
    rcases hg with hg | hg
    · exact h3 f.short (List.mem_filter.2 ⟨List.mem_map.2 ⟨g, hg, e⟩, by simpa using h0⟩) f.short (by simp) rfl
    · rw [List.nodup_cons] at h1
      exact h1.1 (List.mem_filter.2 ⟨List.mem_map.2 ⟨g, hg, e⟩, by simpa using h0⟩)
  · rw [List.filter_append, List.nodup_append] at h2
    obtain ⟨_, h2, _⟩ := h2
    rw [List.map_append, List.map_cons, List.filter_append, List.filter_cons_of_pos (by simpa using h0),
      List.nodup_append] at h2
    obtain ⟨_, h2, h3⟩ := h2
    rcases hg with hg | hg
    · exact h3 f.long (List.mem_filter.2 ⟨List.mem_map.2 ⟨g, hg, e⟩, by simpa using h0⟩) f.long (by simp) rfl
    · rw [List.nodup_cons] at h2
      exact h2.1 (List.mem_filter.2 ⟨List.mem_map.2 ⟨g, hg, e⟩, by simpa using h0⟩)

theorem flags_mentions {D : Decls W} (hD : IdsOk D) {f : FlagDecl} (hf : f ∈ D.flags) (s s' : FState W) (u : Unit)
    (h : M.forEach getFlag D.flags s = .ok u s') : argMentions f s.pre ≤ argMentions f s'.pre + 1 := by
  obtain ⟨fs, gs, hsplit⟩ := List.append_of_mem hf
  rw [hsplit, forEach_append, M.bind_eq_ok] at h
  obtain ⟨u0, s1, h1, h2⟩ := h
  rw [M.forEach_cons, M.bind_eq_ok] at h2
  obtain ⟨u1, s2, h3, h4⟩ := h2
  have hd : ∀ g ∈ D.flags, g.short ≠ '-' := fun g hg => flag_short_dash hD hg
  have a := flags_mentions_other f fs s s1 u0
    (fun g hg => ⟨hd g (by rw [hsplit]; simp [hg]), not_sameFlag hD hsplit g (Or.inl hg)⟩) h1
  have b := (getFlag_mentions f f (hd f hf) s1 s2 u1 h3).1
  have c := flags_mentions_other f gs s2 s' u
    (fun g hg => ⟨hd g (by rw [hsplit]; simp [hg]), not_sameFlag hD hsplit g (Or.inr hg)⟩) h4
  omega

theorem argMentions_zero (f : FlagDecl) (l : List Str) (h : ∀ a ∈ l, looksLikeId a = false) : argMentions f l = 0 := by
  induction l with
  | nil => rfl
  | cons a l ih =>
    have ha := h a (by simp)
    have := ih (fun a ha => h a (by simp [ha]))
    unfold argMentions at this ⊢
    rw [List.map_cons, List.sum_cons, this]
    unfold cellMentions
    split
    · simp [looksLikeId] at ha
    · rename_i t _
      cases t with
      | nil => simp
      | cons y t => simp [looksLikeId] at ha
    · rfl

/-! ### All phases of a successful run -/

theorem fits_of_run (nd : Bool) (ds : List (PosDecl W)) (hlist : ∀ d ∈ ds.dropLast, d.isList = false) :
    ∀ (s s' : FState W) (u : Unit),
      M.bind (runPositionals nd ds) (fun _ => checkForLeftOverArgs) s = .ok u s' → Fits ds (remaining s.pre).length := by
  induction ds with
  | nil =>
    intro s s' u h
    rw [M.bind_eq_ok] at h
    obtain ⟨u1, s1, h1, h2⟩ := h
    simp only [runPositionals] at h1
    cases h1
    have := ((checkForLeftOverArgs_ok _ _ _).1 h2).1
    simp [Fits, this]
  | cons d ds ih =>
    intro s s' u h
    rw [M.bind_eq_ok] at h
    obtain ⟨u1, s1, h1, h2⟩ := h
    simp only [runPositionals] at h1
    rw [M.bind_eq_ok] at h1
    obtain ⟨u2, s2, h3, h4⟩ := h1
    have h5 : M.bind (runPositionals nd ds) (fun _ => checkForLeftOverArgs) s2 = .ok u s' := by
      rw [M.bind_eq_ok]; exact ⟨u1, s1, h4, h2⟩
    have hrec := ih (fun e he => hlist e (by
      cases ds with
      | nil => simp at he
      | cons x xs => simp only [List.dropLast_cons_cons, List.mem_cons]; exact Or.inr he)) s2 s' u h5
    cases hl : d.isList with
    | true =>
      obtain ⟨_, hne, _⟩ := (getPositional_list_ok nd _ d hl s s2 u2).1 h3
      simp only [Fits, hl, if_true]
      refine ⟨List.length_pos_iff.2 hne, ?_⟩
      cases ds with
      | nil => rfl
      | cons x xs => rw [hlist d (by simp)] at hl; cases hl
    | false =>
      obtain ⟨t, ts, e, w, pre', hr, _, _, _, hr', rfl⟩ := (getPositional_scalar_ok nd _ d hl s s2 u2).1 h3
      simp only [Fits, hl, Bool.false_eq_true, if_false]
      refine ⟨ts.length, by rw [hr]; simp, ?_⟩
      simp only [hr'] at hrec
      exact hrec

structure Phases (nd : Bool) (D : Decls W) (args : List Str) (st : Store) (w : W) (s : FState W) where
  opt : FState W
  flg : FState W
  optRun : M.forEach (getOption nd) D.options ⟨before args, args.dropWhile (· ≠ endMarker), st, w⟩ = .ok () opt
  optDone : OptionsDone D D.options (before args) opt.pre
  optPost : opt.post = args.dropWhile (· ≠ endMarker)
  flgRun : M.forEach getFlag D.flags opt = .ok () flg
  flgPre : Pointwise (Becomes D) opt.pre flg.pre
  flgPost : Pointwise (Becomes D) opt.post flg.post
  noIds : ∀ a ∈ flg.pre, looksLikeId a = false
  posRun : M.bind (runPositionals nd D.positionals) (fun _ => checkForLeftOverArgs)
    { flg with pre := flg.pre ++ blankHead flg.post, post := [] } = .ok () s

theorem phases (nd : Bool) {D : Decls W} (hD : IdsOk D) (args : List Str) (st : Store) (w : W) (s : FState W) (u : Unit)
    (h : formatParse nd D args st w = .ok u s) : Nonempty (Phases nd D args st w s) := by
  unfold formatParse parseBody at h
  rw [M.bind_eq_ok] at h
  obtain ⟨u1, s1, h1, h⟩ := h
  rw [M.bind_eq_ok] at h
  obtain ⟨u2, s2, h2, h⟩ := h
  rw [M.bind_eq_ok] at h
  obtain ⟨u3, s3, h3, h⟩ := h
  rw [M.bind_eq_ok] at h
  obtain ⟨u4, s4, h4, h⟩ := h
  obtain ⟨a1, a2⟩ := options_done nd (before args) D.options [] _ s1 u1 rfl
    ⟨uses_refl _, by simp, fun a ha => Or.inr ha⟩ h1
  obtain ⟨b1, b2, _⟩ := flags_becomes hD D.flags s1 s2 u2 (fun _ h => h) (forall2_refl .same _) (forall2_refl .same _) h2
  unfold checkForUnknownIds at h3
  split at h3
  · cases h3
  · rename_i hno
    cases h3
    simp at hno
    simp only [blankEndOfOptions, M.modify] at h4
    cases h4
    exact ⟨⟨s1, s2, h1, a1, a2, h2, b1, b2, hno, h⟩⟩

end Sharg
