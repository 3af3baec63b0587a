import Verif.Lemmas.Stage

/-!
# A well-formed line goes through all phases
-/

set_option linter.unusedSimpArgs false

namespace Sharg

open Spec

/-! ### Values -/

theorem readListElem_of_denotes (nd : Bool) (ty : ElemTy) (t : Str) (e : Elem) (h : Denotes ty t e) :
    readListElem nd ty t = .ok [e] := by
  have := (readElem_some ty t e).1 ((readElem_iff ty t e).2 h)
  simp [readListElem, this, throwOnInputError]

theorem readListElem_denotes (nd : Bool) (ty : ElemTy) (t : Str) (es : List Elem) (hk : nd = false ∨ ¬ OutOfRange ty t)
    (h : readListElem nd ty t = .ok es) : ∃ e, es = [e] ∧ Denotes ty t e := by
  unfold readListElem at h
  cases hp : parseElem ty t with
  | error e => simp [hp] at h
  | ok r =>
    obtain ⟨res, written⟩ := r
    cases res with
    | success =>
      obtain ⟨e, rfl, he⟩ := parseElem_success ty t written hp
      simp [hp, throwOnInputError] at h
      exact ⟨e, h.symm, (readElem_iff ty t e).1 he⟩
    | error => simp [hp, throwOnInputError] at h
    | overflowError =>
      rcases hk with rfl | hk
      · simp [hp, throwOnInputError] at h
      · exact absurd ((parseElem_outOfRange ty t).1 ⟨_, hp⟩) hk

theorem readListElems_of_denoteAll (nd : Bool) (ty : ElemTy) (ts : List Str) (es : List Elem)
    (h : DenoteAll ty ts es) : readListElems nd ty ts = .ok es := by
  induction ts generalizing es with
  | nil => cases es <;> simp [DenoteAll, readListElems] at h ⊢
  | cons t ts ih =>
    cases es with
    | nil => simp [DenoteAll] at h
    | cons e es =>
      simp [readListElems, readListElem_of_denotes nd ty t e h.1, ih es h.2]

theorem readListElems_denote (nd : Bool) (ty : ElemTy) (ts : List Str) (es : List Elem)
    (hk : ∀ t ∈ ts, nd = false ∨ ¬ OutOfRange ty t) (h : readListElems nd ty ts = .ok es) : DenoteAll ty ts es := by
  induction ts generalizing es with
  | nil => simp [readListElems] at h; simp [DenoteAll, h]
  | cons t ts ih =>
    simp only [readListElems] at h
    cases h1 : readListElem nd ty t with
    | error e => simp [h1] at h
    | ok es1 =>
      cases h2 : readListElems nd ty ts with
      | error e => simp [h1, h2] at h
      | ok es2 =>
        simp [h1, h2] at h
        obtain ⟨e, rfl, hd⟩ := readListElem_denotes nd ty t es1 (hk t (by simp)) h1
        subst h
        exact ⟨hd, ih es2 (fun t ht => hk t (by simp [ht])) h2⟩

theorem optValue_of_valueOf {W : Type} (nd : Bool) (d : OptDecl W) (ts : List Str) (val : Val)
    (h : ValueOf d.isList d.ty ts val) : optValue nd d ts [] = some val := by
  unfold ValueOf at h
  unfold optValue
  split at h
  · rename_i hl
    obtain ⟨es, rfl, hd⟩ := h
    simp [hl, readListElems_of_denoteAll nd d.ty ts es hd, readListElems]
  · rename_i hl
    obtain ⟨t, e, rfl, rfl, hd⟩ := h
    simp [hl, (readElem_iff _ _ _).2 hd]

theorem valueOf_of_optValue {W : Type} (nd : Bool) (d : OptDecl W) (ts : List Str) (val : Val)
    (hnd : d.isList = true → ∀ t ∈ ts, nd = false ∨ ¬ OutOfRange d.ty t) (h : optValue nd d ts [] = some val) : ValueOf d.isList d.ty ts val := by
  unfold ValueOf
  unfold optValue at h
  split at h
  · rename_i hl
    cases hr : readListElems nd d.ty ts with
    | error e => simp [hr] at h
    | ok es =>
      simp [hr, readListElems] at h
      simp [hl]
      exact ⟨es, h.symm, readListElems_denote nd d.ty ts es (hnd hl) hr⟩
  · rename_i hl
    simp [hl]
    match ts, h with
    | [t], h =>
      simp at h
      obtain ⟨e, he, rfl⟩ := h
      exact ⟨t, rfl, e, rfl, (readElem_iff _ _ _).1 he⟩

/-! ### Options -/

theorem options_stage {W : Type} {D : Decls W} (hD : IdsOk D) (items : List Item) (hit : ∀ it ∈ items, it.Loose D)
    (huni : ∀ d ∈ D.options, d.isList = true →
      ¬ ((∃ form v, Item.short d.short form v ∈ items) ∧ (∃ sep v, Item.long d.long sep v ∈ items)))
    (nd : Bool) (rest : List (OptDecl W)) :
    ∀ (proc : List (OptDecl W)) (s : FState W) (st' : Store) (w' : W), D.options = proc ++ rest →
      s.pre = stage (doneBy proc) items → OptionsMean items rest s.store s.world st' w' →
      M.forEach (getOption nd) rest s =
        .ok () { s with pre := stage (doneBy D.options) items, store := st', world := w' } := by
  induction rest with
  | nil =>
    intro proc s st' w' hsplit hs hm
    simp at hsplit
    obtain ⟨rfl, rfl⟩ := hm
    simp [hsplit, ← hs]
  | cons d rest ih =>
    intro proc s st' w' hsplit hs hm
    have hd : d ∈ D.options := by rw [hsplit]; simp
    have key := getOption_stage hD hsplit items hit (huni d hd) nd s
    rw [M.forEach_cons, M.bind_run]
    rcases hm with ⟨h1, h2, h3⟩ | ⟨h1, val, w1, h2, h3, h4⟩
    · rw [(key _ () hs).2 (Or.inl ⟨h1, h2, rfl⟩)]
      exact ih (proc ++ [d]) _ st' w' (by simp [hsplit]) rfl h3
    · rw [(key _ () hs).2 (Or.inr ⟨h1, val, w1, optValue_of_valueOf nd d _ _ h2, h3, rfl⟩)]
      exact ih (proc ++ [d]) _ st' w' (by simp [hsplit]) rfl h4

theorem options_stage_conv {W : Type} {D : Decls W} (hD : IdsOk D) (items : List Item) (hit : ∀ it ∈ items, it.Loose D)
    (huni : ∀ d ∈ D.options, d.isList = true →
      ¬ ((∃ form v, Item.short d.short form v ∈ items) ∧ (∃ sep v, Item.long d.long sep v ∈ items)))
    (nd : Bool) (hnd : ∀ d ∈ D.options, d.isList = true → ∀ t ∈ given d items, nd = false ∨ ¬ OutOfRange d.ty t)
    (rest : List (OptDecl W)) :
    ∀ (proc : List (OptDecl W)) (s s' : FState W) (u : Unit), D.options = proc ++ rest →
      s.pre = stage (doneBy proc) items → M.forEach (getOption nd) rest s = .ok u s' →
      s'.pre = stage (doneBy D.options) items ∧ s'.post = s.post ∧
        OptionsMean items rest s.store s.world s'.store s'.world := by
  induction rest with
  | nil =>
    intro proc s s' u hsplit hs hm
    simp at hsplit
    cases hm
    exact ⟨by rw [hs, hsplit], rfl, rfl, rfl⟩
  | cons d rest ih =>
    intro proc s s' u hsplit hs hm
    have hd : d ∈ D.options := by rw [hsplit]; simp
    rw [M.forEach_cons, M.bind_eq_ok] at hm
    obtain ⟨u1, s1, h1, h2⟩ := hm
    rcases (getOption_stage hD hsplit items hit (huni d hd) nd s s1 u1 hs).1 h1 with
      ⟨h3, h4, rfl⟩ | ⟨h3, val, w, h4, h5, rfl⟩
    · obtain ⟨a, b, c⟩ := ih (proc ++ [d]) _ s' u (by simp [hsplit]) rfl h2
      exact ⟨a, b, Or.inl ⟨h3, h4, c⟩⟩
    · obtain ⟨a, b, c⟩ := ih (proc ++ [d]) _ s' u (by simp [hsplit]) rfl h2
      exact ⟨a, b, Or.inr ⟨h3, val, w, valueOf_of_optValue nd d _ _ (hnd d hd) h4, h5, c⟩⟩

/-! ### Flags -/

def groupCell (cs : List Char) : Str := if cs = [] then [] else '-' :: cs

/-- Arguments of an item during the flag phase: options are used up; `R`, `L` tell which flags are. -/
def flagCells (R : Char → Bool) (L : Str → Bool) : Item → List Str
  | .flags cs => [groupCell (cs.filter fun c => !R c)]
  | .longFlag s => [if L s then [] else '-' :: '-' :: s]
  | .word w => [w]
  | it => it.render.map fun _ => []

def flagStage (R : Char → Bool) (L : Str → Bool) (items : List Item) : List Str := items.flatMap (flagCells R L)

theorem flagShort_append (c : Char) (l1 l2 : List Str) :
    flagShort c (l1 ++ l2) = match flagShort c l1 with
      | some l => some (l ++ l2)
      | none => (flagShort c l2).map (l1 ++ ·) := by
  induction l1 with
  | nil => simp [flagShort]
  | cons a l ih =>
    simp only [List.cons_append, flagShort]
    cases flagCell c a with
    | some a' => simp
    | none =>
      simp only [ih]
      cases flagShort c l with
      | some l' => simp
      | none => simp [Option.map_map, Function.comp_def]

theorem flagShort_none (c : Char) (l : List Str) (h : ∀ a ∈ l, flagCell c a = none) : flagShort c l = none := by
  induction l with
  | nil => rfl
  | cons a l ih => simp [flagShort, h a (by simp), ih (fun b hb => h b (by simp [hb]))]

theorem flagLong_append (s : Str) (l1 l2 : List Str) :
    flagLong s (l1 ++ l2) = match flagLong s l1 with
      | some l => some (l ++ l2)
      | none => (flagLong s l2).map (l1 ++ ·) := by
  induction l1 with
  | nil => simp [flagLong]
  | cons a l ih =>
    simp only [List.cons_append, flagLong]
    split
    · simp
    · simp only [ih]
      cases flagLong s l with
      | some l' => simp
      | none => simp [Option.map_map, Function.comp_def]

theorem flagLong_none (s : Str) (l : List Str) (h : ∀ a ∈ l, a ≠ '-' :: '-' :: s) : flagLong s l = none := by
  induction l with
  | nil => rfl
  | cons a l ih =>
    have := h a (by simp)
    simp [flagLong, Id.dashed, this, ih (fun b hb => h b (by simp [hb]))]

theorem erase_eq_filter (c : Char) (l : List Char) (h : l.count c ≤ 1) : l.erase c = l.filter (· ≠ c) := by
  induction l with
  | nil => rfl
  | cons a l ih =>
    by_cases hac : a = c
    · subst hac
      simp at h
      simp
      symm
      rw [List.filter_eq_self]
      intro b hb
      simp
      rintro rfl
      exact List.count_eq_zero.1 h hb
    · simp [hac] at h ⊢
      simpa using ih h

def shortCount (c : Char) : Item → Nat
  | .flags cs => cs.count c
  | _ => 0

/-- Cells of an item in the flag phase that do not contain the short flag `c`. -/
theorem flagCells_no_short {W : Type} {D : Decls W} (c : Char) (hc : c ≠ '-')
    (R : Char → Bool) (L : Str → Bool) (it : Item) (hit : it.Ok D) (h : shortCount c it = 0) :
    flagShort c (flagCells R L it) = none := by
  cases it with
  | short c' form v => cases form <;> simp [flagCells, Item.render, flagShort, flagCell]
  | long s sep v => cases sep <;> simp [flagCells, Item.render, flagShort, flagCell]
  | flags cs =>
    simp [shortCount, List.count_eq_zero] at h
    simp only [flagCells, groupCell]
    split
    · simp [flagShort, flagCell]
    · have : flagCell c ('-' :: cs.filter fun c => !R c) = none := by
        unfold flagCell
        split
        · split
          · rename_i h'
            exfalso
            have := h'.2
            simp [hc, h] at this
          · rfl
        · rfl
      simp [flagShort, this]
  | longFlag s =>
    simp only [flagCells]
    split <;> simp [flagShort, flagCell]
  | word w =>
    obtain ⟨h1, h2⟩ := hit
    have : flagCell c w = none := by
      unfold flagCell
      split
      · simp at h2
      · rfl
    simp [flagCells, flagShort, this]

theorem filter_filter_ne (cs : List Char) (R : Char → Bool) (c : Char) :
    (cs.filter fun a => !R a).filter (· ≠ c) = cs.filter fun a => !(R a || a == c) := by
  rw [List.filter_filter]
  apply List.filter_congr
  intro a _
  by_cases h : a = c <;> simp [h]

theorem flagCells_short_congr (c : Char) (R : Char → Bool) (L : Str → Bool) (it : Item) (h : shortCount c it = 0) :
    flagCells (fun a => R a || a == c) L it = flagCells R L it := by
  cases it with
  | short c' form v => rfl
  | long s sep v => rfl
  | flags cs =>
    simp [shortCount, List.count_eq_zero] at h
    simp only [flagCells]
    congr 2
    apply List.filter_congr
    intro a ha
    have : a ≠ c := fun e => h (e ▸ ha)
    simp [this]
  | longFlag s => rfl
  | word w => rfl

theorem flagCells_short_one {W : Type} {D : Decls W} (hD : IdsOk D) (c : Char) (hc : c ≠ '-')
    (R : Char → Bool) (L : Str → Bool) (hR : R c = false) (it : Item) (hit : it.Ok D) (h : shortCount c it = 1) :
    flagShort c (flagCells R L it) = some (flagCells (fun a => R a || a == c) L it) := by
  cases it with
  | short c' form v => simp [shortCount] at h
  | long s sep v => simp [shortCount] at h
  | flags cs =>
    simp [shortCount] at h
    have hmem : c ∈ cs := List.count_pos_iff.1 (by omega)
    have hmem' : c ∈ cs.filter fun a => !R a := by simp [hmem, hR]
    have hcount : (cs.filter fun a => !R a).count c ≤ 1 := by
      have := List.Sublist.count_le c (List.filter_sublist (l := cs) (p := fun a => !R a))
      omega
    simp only [flagCells]
    generalize hl : (cs.filter fun a => !R a) = l at hmem' hcount
    have hsub : ∀ a ∈ l, a ∈ cs := by
      intro a ha; rw [← hl] at ha; exact (List.mem_filter.1 ha).1
    cases l with
    | nil => simp at hmem'
    | cons y t =>
      have hy : y ≠ '-' := by
        obtain ⟨hy0, f, hf, rfl⟩ := hit.2 y (hsub y (by simp))
        exact (hD.shortChars _ (mem_shortIds_flag hf hy0)).2
      have hcell : flagCell c ('-' :: y :: t) = some (groupCell ((y :: t).filter (· ≠ c))) := by
        have he : ('-' :: y :: t).erase c = '-' :: (y :: t).filter (· ≠ c) := by
          rw [List.erase_cons_tail (by simpa using fun e => hc e.symm), erase_eq_filter c _ hcount]
        simp only [flagCell]
        rw [if_pos ⟨hy, List.mem_cons_of_mem _ hmem'⟩, he]
        unfold groupCell
        congr 1
        by_cases hn : (y :: t).filter (· ≠ c) = []
        · simp [hn]
        · simp only [hn, if_false]
          rw [if_neg (by simpa using hn)]
      have hg : groupCell (y :: t) = '-' :: y :: t := by simp [groupCell]
      simp only [hg, flagShort, hcell]
      rw [← hl, filter_filter_ne]
  | longFlag s => simp [shortCount] at h
  | word w => simp [shortCount] at h

theorem flagStage_short_zero {W : Type} {D : Decls W} (c : Char) (hc : c ≠ '-')
    (R : Char → Bool) (L : Str → Bool) (items : List Item) (hit : ∀ it ∈ items, it.Ok D)
    (h : (items.map (shortCount c)).sum = 0) :
    flagShort c (flagStage R L items) = none ∧
      flagStage (fun a => R a || a == c) L items = flagStage R L items := by
  induction items with
  | nil => exact ⟨rfl, rfl⟩
  | cons it items ih =>
    simp at h
    obtain ⟨h1, h2⟩ := ih (fun i hi => hit i (by simp [hi])) (by simpa using h.2)
    simp only [flagStage, List.flatMap_cons] at h1 h2 ⊢
    rw [flagShort_append, flagCells_no_short c hc R L it (hit it (by simp)) h.1, h1, h2,
      flagCells_short_congr c R L it h.1]
    simp

theorem flagStage_short_one {W : Type} {D : Decls W} (hD : IdsOk D) (c : Char) (hc : c ≠ '-')
    (R : Char → Bool) (L : Str → Bool) (hR : R c = false) (items : List Item) (hit : ∀ it ∈ items, it.Ok D)
    (h : (items.map (shortCount c)).sum = 1) :
    flagShort c (flagStage R L items) = some (flagStage (fun a => R a || a == c) L items) := by
  induction items with
  | nil => simp at h
  | cons it items ih =>
    have hok := fun i hi => hit i (List.mem_cons_of_mem it hi)
    simp only [List.map_cons, List.sum_cons] at h
    simp only [flagStage, List.flatMap_cons] at ih ⊢
    rw [flagShort_append]
    by_cases h0 : shortCount c it = 0
    · rw [flagCells_no_short c hc R L it (hit it (by simp)) h0, ih hok (by omega), flagCells_short_congr c R L it h0]
      simp
    · have h2 := flagStage_short_zero c hc R L items hok (by omega)
      simp only [flagStage] at h2
      rw [flagCells_short_one hD c hc R L hR it (hit it (by simp)) (by omega), h2.2]

def longCount (s : Str) : Item → Nat
  | .longFlag t => if t = s then 1 else 0
  | _ => 0

theorem flagCells_no_long {W : Type} {D : Decls W} (hD : IdsOk D) (s : Str)
    (R : Char → Bool) (L : Str → Bool) (it : Item) (hit : it.Ok D) (h : longCount s it = 0) :
    flagLong s (flagCells R L it) = none := by
  apply flagLong_none
  intro a ha
  cases it with
  | short c' form v => cases form <;> simp [flagCells, Item.render] at ha <;> simp [ha]
  | long s sep v => cases sep <;> simp [flagCells, Item.render] at ha <;> simp [ha]
  | flags cs =>
    simp only [flagCells, List.mem_singleton, groupCell] at ha
    subst ha
    split
    · simp
    · rename_i hne
      intro he
      simp at he
      have : '-' ∈ cs.filter fun c => !R c := by rw [he]; simp
      have hmem := (List.mem_filter.1 this).1
      obtain ⟨hy0, f, hf, hfs⟩ := hit.2 _ hmem
      have := (hD.shortChars _ (mem_shortIds_flag hf (hfs ▸ hy0))).2
      exact this hfs
  | longFlag t =>
    simp only [flagCells, List.mem_singleton] at ha
    subst ha
    split
    · simp
    · intro he
      simp at he
      simp [longCount, he] at h
  | word w =>
    simp only [flagCells, List.mem_singleton] at ha
    subst ha
    intro he
    obtain ⟨h1, h2⟩ := hit
    rw [he] at h2
    simp at h2

theorem flagCells_long_congr (s : Str) (R : Char → Bool) (L : Str → Bool) (it : Item) (h : longCount s it = 0) :
    flagCells R (fun a => L a || a == s) it = flagCells R L it := by
  cases it with
  | longFlag t =>
    have : t ≠ s := by intro e; simp [longCount, e] at h
    simp [flagCells, this]
  | short c' form v => rfl
  | long s sep v => rfl
  | flags cs => rfl
  | word w => rfl

theorem flagCells_long_one (s : Str) (R : Char → Bool) (L : Str → Bool) (hL : L s = false) (it : Item)
    (h : longCount s it = 1) :
    flagLong s (flagCells R L it) = some (flagCells R (fun a => L a || a == s) it) := by
  cases it with
  | longFlag t =>
    have : t = s := by
      by_cases e : t = s
      · exact e
      · simp [longCount, e] at h
    subst this
    simp [flagCells, hL, flagLong, Id.dashed]
  | short c' form v => simp [longCount] at h
  | long s sep v => simp [longCount] at h
  | flags cs => simp [longCount] at h
  | word w => simp [longCount] at h

theorem flagStage_long_zero {W : Type} {D : Decls W} (hD : IdsOk D) (s : Str)
    (R : Char → Bool) (L : Str → Bool) (items : List Item) (hit : ∀ it ∈ items, it.Ok D)
    (h : (items.map (longCount s)).sum = 0) :
    flagLong s (flagStage R L items) = none ∧
      flagStage R (fun a => L a || a == s) items = flagStage R L items := by
  induction items with
  | nil => exact ⟨rfl, rfl⟩
  | cons it items ih =>
    simp at h
    obtain ⟨h1, h2⟩ := ih (fun i hi => hit i (by simp [hi])) (by simpa using h.2)
    simp only [flagStage, List.flatMap_cons] at h1 h2 ⊢
    rw [flagLong_append, flagCells_no_long hD s R L it (hit it (by simp)) h.1, h1, h2,
      flagCells_long_congr s R L it h.1]
    simp

theorem flagStage_long_one {W : Type} {D : Decls W} (hD : IdsOk D) (s : Str)
    (R : Char → Bool) (L : Str → Bool) (hL : L s = false) (items : List Item) (hit : ∀ it ∈ items, it.Ok D)
    (h : (items.map (longCount s)).sum = 1) :
    flagLong s (flagStage R L items) = some (flagStage R (fun a => L a || a == s) items) := by
  induction items with
  | nil => simp at h
  | cons it items ih =>
    have hok := fun i hi => hit i (List.mem_cons_of_mem it hi)
    simp only [List.map_cons, List.sum_cons] at h
    simp only [flagStage, List.flatMap_cons] at ih ⊢
    rw [flagLong_append]
    by_cases h0 : longCount s it = 0
    · rw [flagCells_no_long hD s R L it (hit it (by simp)) h0, ih hok (by omega), flagCells_long_congr s R L it h0]
      simp
    · have h2 := flagStage_long_zero hD s R L items hok (by omega)
      simp only [flagStage] at h2
      rw [flagCells_long_one s R L hL it (by omega), h2.2]

theorem mentions_split (f : FlagDecl) (items : List Item) :
    mentions f items = (items.map (shortCount f.short)).sum + (items.map (longCount f.long)).sum := by
  unfold mentions
  induction items with
  | nil => rfl
  | cons it items ih =>
    simp only [List.map_cons, List.sum_cons, ih]
    cases it <;> simp [Item.mentions, shortCount, longCount] <;> omega

theorem exists_of_sum_ne_zero {α : Type} (f : α → Nat) (l : List α) (h : (l.map f).sum ≠ 0) : ∃ a ∈ l, f a ≠ 0 := by
  induction l with
  | nil => simp at h
  | cons a l ih =>
    by_cases ha : f a = 0
    · obtain ⟨b, hb, hf⟩ := ih (by simpa [ha] using h)
      exact ⟨b, by simp [hb], hf⟩
    · exact ⟨a, by simp, ha⟩

def removedShort (fs : List FlagDecl) (c : Char) : Bool := fs.any (·.short == c)
def removedLong (fs : List FlagDecl) (s : Str) : Bool := fs.any (·.long == s)

theorem flag_short_ne_dash {W : Type} {D : Decls W} (hD : IdsOk D) {f : FlagDecl} (hf : f ∈ D.flags) : f.short ≠ '-' := by
  by_cases h : f.short = '\x00'
  · rw [h]; decide
  · exact (hD.shortChars _ (mem_shortIds_flag hf h)).2

theorem flagStage_removed (fs : List FlagDecl) (f : FlagDecl) (items : List Item) :
    flagStage (removedShort (fs ++ [f])) (removedLong (fs ++ [f])) items =
      flagStage (fun a => removedShort fs a || a == f.short) (fun a => removedLong fs a || a == f.long) items := by
  congr 1 <;> funext a <;> simp [removedShort, removedLong, Bool.beq_comm]

/-- One declared flag on a well-formed line. -/
theorem getFlag_stage {W : Type} {D : Decls W} (hD : IdsOk D) {proc rest : List FlagDecl} {f : FlagDecl}
    (hsplit : D.flags = proc ++ f :: rest) (items : List Item) (hit : ∀ it ∈ items, it.Ok D)
    (honce : mentions f items ≤ 1) (s : FState W)
    (hs : s.pre = flagStage (removedShort proc) (removedLong proc) items)
    (hpost : flagShort f.short s.post = none) :
    getFlag f s = .ok () { s with
      pre := flagStage (removedShort (proc ++ [f])) (removedLong (proc ++ [f])) items
      store := if mentions f items = 0 then s.store else s.store.set f.var (.one (.bool true)) } := by
  have hf : f ∈ D.flags := by rw [hsplit]; simp
  have hc := flag_short_ne_dash hD hf
  have hsp := mentions_split f items
  rw [flagStage_removed]
  unfold getFlag
  rw [hs]
  by_cases h1 : (items.map (shortCount f.short)).sum = 0
  · obtain ⟨e1, e2⟩ := flagStage_short_zero f.short hc (removedShort proc) (removedLong proc) items hit h1
    simp only [e1, hpost]
    have e2' := (flagStage_short_zero f.short hc (removedShort proc) (fun a => removedLong proc a || a == f.long)
      items hit h1).2
    rw [e2']
    by_cases h2 : (items.map (longCount f.long)).sum = 0
    · obtain ⟨e3, e4⟩ := flagStage_long_zero hD f.long (removedShort proc) (removedLong proc) items hit h2
      simp only [e3, e4]
      rw [if_pos (by omega), ← hs]
    · have hL : removedLong proc f.long = false := by
        have hmem : ∃ it ∈ items, longCount f.long it ≠ 0 := by
          exact exists_of_sum_ne_zero _ _ h2
        obtain ⟨it, hi, hne⟩ := hmem
        have hl0 : f.long ≠ [] := by
          cases it with
          | longFlag t =>
            have hok := hit _ hi
            by_cases e : t = f.long
            · rw [← e]; exact hok.1
            · simp [longCount, e] at hne
          | _ => simp [longCount] at hne
        unfold removedLong
        rw [List.any_eq_false]
        intro g hg hgl
        simp at hgl
        have hn := hD.longNodup
        unfold longIds at hn
        obtain ⟨p1, p2, rfl⟩ := List.append_of_mem hg
        rw [hsplit] at hn
        simp [List.filter_append, List.filter_cons, hgl, hl0] at hn
        simp [List.nodup_append] at hn
      have e3 := flagStage_long_one hD f.long (removedShort proc) (removedLong proc) hL items hit (by omega)
      simp only [e3]
      rw [if_neg (by omega)]
  · have hR : removedShort proc f.short = false := by
      have hmem : ∃ it ∈ items, shortCount f.short it ≠ 0 := by
        exact exists_of_sum_ne_zero _ _ h1
      obtain ⟨it, hi, hne⟩ := hmem
      have hl0 : f.short ≠ '\x00' := by
        cases it with
        | flags cs =>
          have hok := hit _ hi
          exact (hok.2 _ (List.count_pos_iff.1 (Nat.pos_of_ne_zero hne))).1
        | _ => simp [shortCount] at hne
      unfold removedShort
      rw [List.any_eq_false]
      intro g hg hgl
      simp at hgl
      have hn := hD.shortNodup
      unfold shortIds at hn
      obtain ⟨p1, p2, rfl⟩ := List.append_of_mem hg
      rw [hsplit] at hn
      simp [List.filter_append, List.filter_cons, hgl, hl0] at hn
      simp [List.nodup_append] at hn
    have e1 := flagStage_short_one hD f.short hc (removedShort proc) (removedLong proc) hR items hit (by omega)
    simp only [e1]
    have e4 := (flagStage_long_zero hD f.long (fun a => removedShort proc a || a == f.short) (removedLong proc)
      items hit (by omega)).2
    rw [e4, if_neg (by omega)]

theorem flags_stage {W : Type} {D : Decls W} (hD : IdsOk D) (items : List Item) (hit : ∀ it ∈ items, it.Ok D)
    (honce : ∀ f ∈ D.flags, mentions f items ≤ 1) (rest : List FlagDecl) :
    ∀ (proc : List FlagDecl) (s : FState W), D.flags = proc ++ rest →
      s.pre = flagStage (removedShort proc) (removedLong proc) items →
      (∀ f ∈ D.flags, flagShort f.short s.post = none) →
      M.forEach getFlag rest s = .ok () { s with
        pre := flagStage (removedShort D.flags) (removedLong D.flags) items
        store := setFlags items rest s.store } := by
  induction rest with
  | nil =>
    intro proc s hsplit hs _
    simp at hsplit
    simp [hsplit, ← hs, setFlags]
  | cons f rest ih =>
    intro proc s hsplit hs hpost
    have hf : f ∈ D.flags := by rw [hsplit]; simp
    rw [M.forEach_cons, M.bind_run, getFlag_stage hD hsplit items hit (honce f hf) s hs (hpost f hf)]
    exact ih (proc ++ [f]) _ (by simp [hsplit]) rfl hpost

/-- After the options, before the flags. -/
theorem stage_eq_flagStage {W : Type} {D : Decls W} (items : List Item)
    (hit : ∀ it ∈ items, it.Ok D) :
    stage (doneBy D.options) items = flagStage (removedShort []) (removedLong []) items := by
  induction items with
  | nil => rfl
  | cons it items ih =>
    have ih := ih (fun i hi => hit i (by simp [hi]))
    simp only [stage, flagStage, List.flatMap_cons] at ih ⊢
    rw [ih]
    congr 1
    have hok := hit it (by simp)
    cases it with
    | short c form v =>
      obtain ⟨_, ⟨d, hd, rfl⟩, _⟩ := hok
      have : doneBy D.options (.short d.short form v) = true := by
        simp only [doneBy, List.any_eq_true]; exact ⟨d, hd, by simp [usedBy, Id.used]⟩
      simp [itemCells, this, flagCells]
    | long s sep v =>
      obtain ⟨_, ⟨d, hd, rfl⟩, _⟩ := hok
      have : doneBy D.options (.long d.long sep v) = true := by
        simp only [doneBy, List.any_eq_true]; exact ⟨d, hd, by simp [usedBy, Id.used]⟩
      simp [itemCells, this, flagCells]
    | flags cs =>
      have : doneBy D.options (.flags cs) = false := by simp [doneBy, usedBy, Id.used]
      have h2 : cs ≠ [] := hok.1
      have h3 : (cs.filter fun c => !removedShort [] c) = cs := by simp [removedShort]
      simp [itemCells, this, flagCells, Item.render, h3, groupCell, h2]
    | longFlag s =>
      have : doneBy D.options (.longFlag s) = false := by simp [doneBy, usedBy, Id.used]
      simp [itemCells, this, flagCells, Item.render, removedLong]
    | word w =>
      have : doneBy D.options (.word w) = false := by simp [doneBy, usedBy, Id.used]
      simp [itemCells, this, flagCells, Item.render]

theorem flagCells_final {W : Type} {D : Decls W} (it : Item) (hok : it.Ok D) :
    (flagCells (removedShort D.flags) (removedLong D.flags) it).filter (· ≠ []) = (it.word?).toList ∧
      ∀ a ∈ flagCells (removedShort D.flags) (removedLong D.flags) it, looksLikeId a = false := by
  cases it with
  | short c form v => cases form <;> simp [flagCells, Item.render, Item.word?, looksLikeId]
  | long s sep v => cases sep <;> simp [flagCells, Item.render, Item.word?, looksLikeId]
  | flags cs =>
    have : (cs.filter fun c => !removedShort D.flags c) = [] := by
      rw [List.filter_eq_nil_iff]
      intro c hc
      obtain ⟨_, f, hf, rfl⟩ := hok.2 c hc
      simp only [removedShort, Bool.not_eq_true, Bool.not_eq_false', List.any_eq_true]
      exact ⟨f, hf, by simp⟩
    simp [flagCells, this, groupCell, Item.word?, looksLikeId]
  | longFlag s =>
    obtain ⟨_, f, hf, rfl⟩ := hok
    have : removedLong D.flags f.long = true := by
      simp only [removedLong, List.any_eq_true]
      exact ⟨f, hf, by simp⟩
    simp [flagCells, this, Item.word?, looksLikeId]
  | word w =>
    obtain ⟨hw, hw2⟩ := hok
    have hl : looksLikeId w = false := by
      unfold looksLikeId
      split
      · simp at hw2
      · rfl
    simp [flagCells, Item.word?, hw, hl]

/-- After the flags only words are left. -/
theorem flagStage_final {W : Type} {D : Decls W} (items : List Item) (hit : ∀ it ∈ items, it.Ok D) :
    (flagStage (removedShort D.flags) (removedLong D.flags) items).filter (· ≠ []) = items.filterMap Item.word? ∧
      ∀ a ∈ flagStage (removedShort D.flags) (removedLong D.flags) items, looksLikeId a = false := by
  induction items with
  | nil => simp [flagStage]
  | cons it items ih =>
    obtain ⟨h1, h2⟩ := ih (fun i hi => hit i (by simp [hi]))
    obtain ⟨h3, h4⟩ := flagCells_final it (hit it (by simp))
    constructor
    · simp only [flagStage, List.flatMap_cons] at h1 ⊢
      rw [List.filter_append, h1, h3, List.filterMap_cons]
      cases it.word? <;> rfl
    · intro a ha
      simp only [flagStage, List.flatMap_cons, List.mem_append] at ha h2
      rcases ha with ha | ha
      · exact h4 a ha
      · exact h2 a ha

end Sharg
