import Verif.Props.Lines
import Verif.Props.Values
import Verif.Spec.Recipe

/-!
# Lemmas for C95: what the line written by a script says
-/

namespace Sharg

open Spec

variable {W : Type}

/-! ### Every option and every flag has an identifier -/

theorem option_has_id {p : Parser W} (hi : Inv p) {d : OptDecl W} (hd : d ∈ (declsOf p.operations).options) :
    d.short ≠ '\x00' ∨ d.long ≠ [] := by
  simp only [declsOf, List.mem_filterMap] at hd
  obtain ⟨e, he, h⟩ := hd
  cases e <;> simp only [Option.some.injEq, reduceCtorEq] at h
  subst h
  exact (hi.cfgs _ (List.mem_filterMap.2 ⟨_, he, rfl⟩)).1

theorem flag_has_id {p : Parser W} (hi : Inv p) {f : FlagDecl} (hf : f ∈ (declsOf p.operations).flags) :
    f.short ≠ '\x00' ∨ f.long ≠ [] := by
  simp only [declsOf, List.mem_filterMap] at hf
  obtain ⟨e, he, h⟩ := hf
  cases e <;> simp only [Option.some.injEq, reduceCtorEq] at h
  subst h
  exact (hi.cfgs _ (List.mem_filterMap.2 ⟨_, he, rfl⟩)).1

/-! ### Identifiers are unique -/

theorem nodup_filter_apart {α β : Type} [DecidableEq β] {g : α → β} {z : β} {l : List β} {A B : List α} {a e : α}
    (h : (((A ++ a :: B).map g ++ l).filter (fun x => decide (x ≠ z))).Nodup) (ha : g a ≠ z) (he : e ∈ A ∨ e ∈ B) : g e ≠ g a := by
  intro hge
  simp only [List.map_append, List.map_cons, List.append_assoc, List.cons_append, List.filter_append, List.filter_cons,
    decide_eq_true ha, if_true] at h
  rw [List.nodup_append] at h
  have he' : g a ∈ (A.map g).filter (fun x => decide (x ≠ z)) ∨ g a ∈ (B.map g).filter (fun x => decide (x ≠ z)) := by
    rcases he with he | he
    · exact Or.inl (List.mem_filter.2 ⟨List.mem_map.2 ⟨e, he, hge⟩, by simpa using ha⟩)
    · exact Or.inr (List.mem_filter.2 ⟨List.mem_map.2 ⟨e, he, hge⟩, by simpa using ha⟩)
  rcases he' with he' | he'
  · exact h.2.2 _ he' _ (by simp) rfl
  · exact (List.nodup_cons.1 h.2.1).1 (by simp only [List.mem_append]; exact Or.inl he')

theorem nodup_filter_prefix {β : Type} {p : β → Bool} {l m : List β} (h : ((l ++ m).filter p).Nodup) :
    ((m ++ l).filter p).Nodup := by
  rw [List.filter_append] at h ⊢
  exact (List.perm_append_comm.nodup_iff).1 h

theorem option_short_apart {D : Decls W} (hD : IdsOk D) {A B : List (OptDecl W)} {d e : OptDecl W}
    (hs : D.options = A ++ d :: B) (hd : d.short ≠ '\x00') (he : e ∈ A ∨ e ∈ B) : e.short ≠ d.short := by
  have h := hD.shortNodup
  unfold shortIds at h
  rw [hs] at h
  exact nodup_filter_apart (g := fun d : OptDecl W => d.short) h hd he

theorem option_long_apart {D : Decls W} (hD : IdsOk D) {A B : List (OptDecl W)} {d e : OptDecl W}
    (hs : D.options = A ++ d :: B) (hd : d.long ≠ []) (he : e ∈ A ∨ e ∈ B) : e.long ≠ d.long := by
  have h := hD.longNodup
  unfold longIds at h
  rw [hs] at h
  exact nodup_filter_apart (g := fun d : OptDecl W => d.long) h hd he

theorem flag_short_apart {D : Decls W} (hD : IdsOk D) {A B : List FlagDecl} {d e : FlagDecl}
    (hs : D.flags = A ++ d :: B) (hd : d.short ≠ '\x00') (he : e ∈ A ∨ e ∈ B) : e.short ≠ d.short := by
  have h := nodup_filter_prefix hD.shortNodup
  rw [hs] at h
  exact nodup_filter_apart (g := fun d : FlagDecl => d.short) h hd he

theorem flag_long_apart {D : Decls W} (hD : IdsOk D) {A B : List FlagDecl} {d e : FlagDecl}
    (hs : D.flags = A ++ d :: B) (hd : d.long ≠ []) (he : e ∈ A ∨ e ∈ B) : e.long ≠ d.long := by
  have h := nodup_filter_prefix hD.longNodup
  rw [hs] at h
  exact nodup_filter_apart (g := fun d : FlagDecl => d.long) h hd he

/-! ### What the line says -/

theorem valueFor_self {d : OptDecl W} (v : Str) : Item.valueFor d (giveItem d v) = some v := by
  unfold giveItem
  split <;> simp [Item.valueFor]

theorem valueFor_other {d e : OptDecl W} (v : Str) (hid : e.short ≠ '\x00' ∨ e.long ≠ [])
    (h1 : e.short ≠ '\x00' → e.short ≠ d.short) (h2 : e.long ≠ [] → e.long ≠ d.long) :
    Item.valueFor d (giveItem e v) = none := by
  unfold giveItem
  split
  · rename_i h; simp [Item.valueFor, h2 h]
  · rename_i h
    have : e.short ≠ '\x00' := hid.resolve_right h
    simp [Item.valueFor, h1 this]

theorem valueFor_flag (d : OptDecl W) (f : FlagDecl) : Item.valueFor d (giveFlag f) = none := by
  unfold giveFlag; split <;> rfl

theorem filterMap_nil {α β : Type} {f : α → Option β} {l : List α} (h : ∀ a ∈ l, f a = none) : l.filterMap f = [] := by
  induction l with
  | nil => rfl
  | cons a l ih => rw [List.filterMap_cons, h a (by simp)]; exact ih (fun b hb => h b (by simp [hb]))

theorem filterMap_some {α β γ : Type} {f : α → Option β} {g : γ → α} {k : γ → β} {l : List γ} (h : ∀ a ∈ l, f (g a) = some (k a)) :
    (l.map g).filterMap f = l.map k := by
  induction l with
  | nil => rfl
  | cons a l ih =>
    rw [List.map_cons, List.filterMap_cons, h a (by simp), List.map_cons]
    exact congrArg _ (ih (fun b hb => h b (by simp [hb])))

theorem given_recipe {p : Parser W} (hi : Inv p) (hD : IdsOk (declsOf p.operations)) (vals : OptDecl W → List Str) (on : FlagDecl → Bool)
    {d : OptDecl W} (hd : d ∈ (declsOf p.operations).options) : given d (recipe (declsOf p.operations) vals on) = vals d := by
  obtain ⟨A, B, hs⟩ := List.append_of_mem hd
  have hother : ∀ e, e ∈ A ∨ e ∈ B → ∀ it ∈ (vals e).map (giveItem e), Item.valueFor d it = none := by
    intro e he it hit
    obtain ⟨v, _, rfl⟩ := List.mem_map.1 hit
    have he' : e ∈ (declsOf p.operations).options := by rw [hs]; rcases he with he | he <;> simp [he]
    refine valueFor_other v (option_has_id hi he') (fun h1 h2 => ?_) (fun h1 h2 => ?_)
    · exact option_short_apart hD hs (h2 ▸ h1) he h2
    · exact option_long_apart hD hs (h2 ▸ h1) he h2
  unfold given recipe
  rw [hs]
  simp only [List.flatMap_append, List.flatMap_cons, List.filterMap_append]
  have hA : (A.flatMap fun d => (vals d).map (giveItem d)).filterMap (Item.valueFor d) = [] :=
    filterMap_nil (fun it hit => by
      obtain ⟨e, he, hit⟩ := List.mem_flatMap.1 hit
      exact hother e (Or.inl he) it hit)
  have hB : (B.flatMap fun d => (vals d).map (giveItem d)).filterMap (Item.valueFor d) = [] :=
    filterMap_nil (fun it hit => by
      obtain ⟨e, he, hit⟩ := List.mem_flatMap.1 hit
      exact hother e (Or.inr he) it hit)
  have hF : (((declsOf p.operations).flags.filter on).map giveFlag).filterMap (Item.valueFor d) = [] :=
    filterMap_nil (fun it hit => by
      obtain ⟨f, _, rfl⟩ := List.mem_map.1 hit
      exact valueFor_flag d f)
  rw [hA, hB, hF, filterMap_some (k := id) (fun v _ => valueFor_self v)]
  simp

theorem mentions_append (f : FlagDecl) (a b : List Item) : mentions f (a ++ b) = mentions f a + mentions f b := by
  simp [mentions]

theorem mentions_zero {f : FlagDecl} {l : List Item} (h : ∀ it ∈ l, Item.mentions f it = 0) : mentions f l = 0 := by
  induction l with
  | nil => rfl
  | cons a l ih =>
    have := ih (fun it hit => h it (by simp [hit]))
    unfold mentions at this ⊢
    rw [List.map_cons, List.sum_cons, h a (by simp), this]

theorem mentions_give (f : FlagDecl) (d : OptDecl W) (v : Str) : Item.mentions f (giveItem d v) = 0 := by
  unfold giveItem; split <;> rfl

theorem mentions_recipe {p : Parser W} (hi : Inv p) (hD : IdsOk (declsOf p.operations)) (vals : OptDecl W → List Str) (on : FlagDecl → Bool)
    {f : FlagDecl} (hf : f ∈ (declsOf p.operations).flags) :
    mentions f (recipe (declsOf p.operations) vals on) = if on f then 1 else 0 := by
  obtain ⟨A, B, hs⟩ := List.append_of_mem hf
  have hother : ∀ e, e ∈ A ∨ e ∈ B → Item.mentions f (giveFlag e) = 0 := by
    intro e he
    have he' : e ∈ (declsOf p.operations).flags := by rw [hs]; rcases he with he | he <;> simp [he]
    unfold giveFlag
    split
    · rename_i h
      have : e.short ≠ f.short := fun h2 => flag_short_apart hD hs (h2 ▸ h) he h2
      simp [Item.mentions, this]
    · rename_i h
      have hl : e.long ≠ [] := (flag_has_id hi he').resolve_left h
      have : e.long ≠ f.long := fun h2 => flag_long_apart hD hs (h2 ▸ hl) he h2
      simp [Item.mentions, this]
  have hself : Item.mentions f (giveFlag f) = 1 := by
    unfold giveFlag; split <;> simp [Item.mentions]
  unfold recipe
  rw [mentions_append, mentions_zero (l := List.flatMap _ _) (fun it hit => by
    obtain ⟨e, _, hit⟩ := List.mem_flatMap.1 hit
    obtain ⟨v, _, rfl⟩ := List.mem_map.1 hit
    exact mentions_give f e v), hs, List.filter_append, List.map_append, mentions_append,
    mentions_zero (l := (A.filter on).map giveFlag) (fun it hit => by
      obtain ⟨e, he, rfl⟩ := List.mem_map.1 hit
      exact hother e (Or.inl (List.mem_filter.1 he).1)), List.filter_cons]
  have hB := mentions_zero (f := f) (l := (B.filter on).map giveFlag) (fun it hit => by
      obtain ⟨e, he, rfl⟩ := List.mem_map.1 hit
      exact hother e (Or.inr (List.mem_filter.1 he).1))
  cases on f with
  | false => simp only [Bool.false_eq_true, if_false, hB]
  | true =>
    simp only [if_true, List.map_cons]
    rw [show giveFlag f :: (B.filter on).map giveFlag = [giveFlag f] ++ (B.filter on).map giveFlag from rfl, mentions_append, hB]
    simp [mentions, hself]

theorem word_recipe {D : Decls W} (vals : OptDecl W → List Str) (on : FlagDecl → Bool) (ws : List Str) :
    Spec.words (recipe D vals on) (some ws) = ws := by
  unfold Spec.words
  rw [filterMap_nil]
  · rfl
  · intro it hit
    unfold recipe at hit
    rcases List.mem_append.1 hit with hit | hit
    · obtain ⟨e, _, hit⟩ := List.mem_flatMap.1 hit
      obtain ⟨v, _, rfl⟩ := List.mem_map.1 hit
      unfold giveItem; split <;> rfl
    · obtain ⟨f, _, rfl⟩ := List.mem_map.1 hit
      unfold giveFlag; split <;> rfl

theorem separateOk_nil (D : Decls W) : SeparateOk D [] := by
  refine ⟨?_, by simp⟩
  rintro ⟨d, _, ⟨_, t, h⟩ | ⟨_, h | ⟨t, h⟩⟩⟩ <;> cases h

theorem giveItem_ok {p : Parser W} (hi : Inv p) {d : OptDecl W} (hd : d ∈ (declsOf p.operations).options) (v : Str) :
    (giveItem d v).Ok (declsOf p.operations) := by
  unfold giveItem
  split
  · rename_i h
    refine ⟨h, ⟨d, hd, rfl⟩, ?_⟩
    cases v with
    | nil => exact separateOk_nil _
    | cons c v => simp
  · rename_i h
    refine ⟨(option_has_id hi hd).resolve_right h, ⟨d, hd, rfl⟩, ?_⟩
    cases v with
    | nil => exact separateOk_nil _
    | cons c v => simp

theorem giveFlag_ok {p : Parser W} (hi : Inv p) {f : FlagDecl} (hf : f ∈ (declsOf p.operations).flags) :
    (giveFlag f).Ok (declsOf p.operations) := by
  unfold giveFlag
  split
  · rename_i h
    refine ⟨by simp, ?_⟩
    intro c hc
    obtain rfl := List.mem_singleton.1 hc
    exact ⟨h, f, hf, rfl⟩
  · rename_i h
    exact ⟨(flag_has_id hi hf).resolve_left h, f, hf, rfl⟩

theorem recipe_cases {D : Decls W} {vals : OptDecl W → List Str} {on : FlagDecl → Bool} {it : Item} (h : it ∈ recipe D vals on) :
    (∃ d ∈ D.options, ∃ v ∈ vals d, it = giveItem d v) ∨ ∃ f ∈ D.flags, it = giveFlag f := by
  unfold recipe at h
  rcases List.mem_append.1 h with hit | hit
  · obtain ⟨e, he, hit⟩ := List.mem_flatMap.1 hit
    obtain ⟨v, hv, rfl⟩ := List.mem_map.1 hit
    exact Or.inl ⟨e, he, v, hv, rfl⟩
  · obtain ⟨f, hf, rfl⟩ := List.mem_map.1 hit
    exact Or.inr ⟨f, (List.mem_filter.1 hf).1, rfl⟩

theorem recipe_ok {p : Parser W} (hi : Inv p) (hD : IdsOk (declsOf p.operations)) (vals : OptDecl W → List Str) (on : FlagDecl → Bool)
    (ws : List Str) (hw : Passable (declsOf p.operations) ws) :
    LineOk (declsOf p.operations) (recipe (declsOf p.operations) vals on) (some ws) where
  itemsOk it hit := by
    rcases recipe_cases hit with ⟨d, hd, v, _, rfl⟩ | ⟨f, hf, rfl⟩
    · exact giveItem_ok hi hd v
    · exact giveFlag_ok hi hf
  flagsOnce f hf := by rw [mentions_recipe hi hD vals on hf]; split <;> omega
  listsUniform d hd _ := by
    rintro ⟨⟨form, v, h1⟩, ⟨sep, v', h2⟩⟩
    rcases recipe_cases h1 with ⟨e, he, u, _, h1⟩ | ⟨f, _, h1⟩
    · unfold giveItem at h1
      split at h1
      · cases h1
      · rename_i hel
        simp only [Item.short.injEq] at h1
        have hes := (option_has_id hi he).resolve_right hel
        obtain ⟨A, B, hs⟩ := List.append_of_mem hd
        have hed : e = d := by
          rw [hs] at he
          rcases List.mem_append.1 he with he | he
          · exact absurd h1.1.symm (option_short_apart hD hs (h1.1 ▸ hes) (Or.inl he))
          · rcases List.mem_cons.1 he with he | he
            · exact he
            · exact absurd h1.1.symm (option_short_apart hD hs (h1.1 ▸ hes) (Or.inr he))
        subst hed
        rcases recipe_cases h2 with ⟨e', he', u', _, h2⟩ | ⟨f, _, h2⟩
        · unfold giveItem at h2
          split at h2
          · rename_i hl
            simp only [Item.long.injEq] at h2
            exact hel (by rw [h2.1]; exact hl)
          · cases h2
        · unfold giveFlag at h2
          split at h2 <;> cases h2
    · unfold giveFlag at h1
      split at h1 <;> cases h1
  tailOk ws' h w hw' := by
    cases h
    exact ⟨(hw w hw').1, (hw w hw').2.2⟩

/-! ### Values and texts -/

theorem denoteAll_unique {ty : ElemTy} : ∀ {ts : List Str} {es es' : List Elem}, DenoteAll ty ts es → DenoteAll ty ts es' → es = es'
  | [], [], [], _, _ => rfl
  | [], _ :: _, _, h, _ => by cases h
  | [], [], _ :: _, _, h => by cases h
  | _ :: _, [], _, h, _ => by cases h
  | _ :: _, _ :: _, [], _, h => by cases h
  | _ :: ts, _ :: _, _ :: _, h, h' => by rw [denotes_unique h.1 h'.1, denoteAll_unique h.2 h'.2]

theorem valueOf_unique {l : Bool} {ty : ElemTy} {ts : List Str} {v v' : Val} (h : ValueOf l ty ts v) (h' : ValueOf l ty ts v') :
    v = v' := by
  unfold ValueOf at h h'
  split at h
  · rename_i hl
    rw [if_pos hl] at h'
    obtain ⟨es, rfl, h⟩ := h
    obtain ⟨es', rfl, h'⟩ := h'
    rw [denoteAll_unique h h']
  · rename_i hl
    rw [if_neg hl] at h'
    obtain ⟨t, e, rfl, rfl, h⟩ := h
    obtain ⟨t', e', he, rfl, h'⟩ := h'
    simp only [List.cons.injEq, and_true] at he
    subst he
    rw [denotes_unique h h']

theorem denoteAll_exists {ty : ElemTy} : ∀ (es : List Elem), (∀ e ∈ es, Expressible ty e) → ∃ ts, DenoteAll ty ts es
  | [], _ => ⟨[], trivial⟩
  | e :: es, h => by
    obtain ⟨t, ht⟩ := h e (by simp)
    obtain ⟨ts, hts⟩ := denoteAll_exists es (fun e he => h e (by simp [he]))
    exact ⟨t :: ts, ht, hts⟩

theorem expressible_texts {l : Bool} {ty : ElemTy} {val : Val} (h : ExpressibleVal l ty val) : ∃ ts, ts ≠ [] ∧ ValueOf l ty ts val := by
  unfold ExpressibleVal at h
  unfold ValueOf
  split at h
  · rename_i hl
    obtain ⟨es, rfl, hne, h⟩ := h
    obtain ⟨ts, hts⟩ := denoteAll_exists es h
    refine ⟨ts, ?_, by rw [if_pos hl]; exact ⟨es, rfl, hts⟩⟩
    rintro rfl
    cases es with
    | nil => exact hne rfl
    | cons => cases hts
  · rename_i hl
    obtain ⟨e, rfl, t, ht⟩ := h
    exact ⟨[t], by simp, by rw [if_neg hl]; exact ⟨t, e, rfl, rfl, ht⟩⟩

end Sharg
