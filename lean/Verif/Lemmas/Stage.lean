import Verif.Lemmas.GetOption
import Verif.Lemmas.Values
import Verif.Spec.Grammar

/-!
# A well-formed line during the option phase

`stage done items` is the argument vector when the items with `done` have been used up.
-/

set_option linter.unusedSimpArgs false

namespace Sharg

open Spec

def Id.used (id : Id) : Item → Bool
  | .short c _ _ => decide (id = .short c)
  | .long s _ _ => decide (id = .long s)
  | _ => false

def Id.valueIn (id : Id) (it : Item) : Option Str :=
  match it with
  | .short c _ v => if id = .short c then some v else none
  | .long s _ v => if id = .long s then some v else none
  | _ => none

def itemCells (done : Bool) (it : Item) : List Str := if done then it.render.map (fun _ => []) else it.render

def stage (done : Item → Bool) (items : List Item) : List Str := items.flatMap fun it => itemCells (done it) it

/-- The identifier belongs to a declared option. -/
def OptId {W : Type} (D : Decls W) : Id → Prop
  | .short c => c ≠ '\x00' ∧ ∃ d ∈ D.options, d.short = c
  | .long s => s ≠ [] ∧ ∃ d ∈ D.options, d.long = s

theorem isIdChar_ne_eq {c : Char} (h : IsIdChar c) : c ≠ '=' := by
  rintro rfl; revert h; unfold IsIdChar; decide

theorem mem_shortIds_option {W : Type} {D : Decls W} {d : OptDecl W} (hd : d ∈ D.options) (h : d.short ≠ '\x00') :
    d.short ∈ shortIds D := by
  unfold shortIds
  simp only [List.mem_filter, List.mem_append, List.mem_map, decide_eq_true_eq]
  exact ⟨Or.inl ⟨d, hd, rfl⟩, h⟩

theorem mem_shortIds_flag {W : Type} {D : Decls W} {f : FlagDecl} (hf : f ∈ D.flags) (h : f.short ≠ '\x00') :
    f.short ∈ shortIds D := by
  unfold shortIds
  simp only [List.mem_filter, List.mem_append, List.mem_map, decide_eq_true_eq]
  exact ⟨Or.inr ⟨f, hf, rfl⟩, h⟩

theorem mem_longIds_option {W : Type} {D : Decls W} {d : OptDecl W} (hd : d ∈ D.options) (h : d.long ≠ []) :
    d.long ∈ longIds D := by
  unfold longIds
  simp only [List.mem_filter, List.mem_append, List.mem_map, decide_eq_true_eq]
  exact ⟨Or.inl ⟨d, hd, rfl⟩, h⟩

theorem mem_longIds_flag {W : Type} {D : Decls W} {f : FlagDecl} (hf : f ∈ D.flags) (h : f.long ≠ []) :
    f.long ∈ longIds D := by
  unfold longIds
  simp only [List.mem_filter, List.mem_append, List.mem_map, decide_eq_true_eq]
  exact ⟨Or.inr ⟨f, hf, rfl⟩, h⟩

/-- A short identifier of an option is not one of a flag. -/
theorem Spec.IdsOk.option_ne_flag_short {W : Type} {D : Decls W} (hD : IdsOk D) {d : OptDecl W} {f : FlagDecl}
    (hd : d ∈ D.options) (hf : f ∈ D.flags) (h : d.short ≠ '\x00') : d.short ≠ f.short := by
  intro he
  have h0 := hD.shortNodup
  unfold shortIds at h0
  rw [List.filter_append, List.nodup_append] at h0
  refine h0.2.2 d.short ?_ f.short ?_ he
  · simp only [List.mem_filter, List.mem_map, decide_eq_true_eq]; exact ⟨⟨d, hd, rfl⟩, h⟩
  · simp only [List.mem_filter, List.mem_map, decide_eq_true_eq]; exact ⟨⟨f, hf, rfl⟩, he ▸ h⟩

theorem Spec.IdsOk.option_ne_flag_long {W : Type} {D : Decls W} (hD : IdsOk D) {d : OptDecl W} {f : FlagDecl}
    (hd : d ∈ D.options) (hf : f ∈ D.flags) (h : d.long ≠ []) : d.long ≠ f.long := by
  intro he
  have h0 := hD.longNodup
  unfold longIds at h0
  rw [List.filter_append, List.nodup_append] at h0
  refine h0.2.2 d.long ?_ f.long ?_ he
  · simp only [List.mem_filter, List.mem_map, decide_eq_true_eq]; exact ⟨⟨d, hd, rfl⟩, h⟩
  · simp only [List.mem_filter, List.mem_map, decide_eq_true_eq]; exact ⟨⟨f, hf, rfl⟩, he ▸ h⟩

theorem Id.hits_short_iff (c : Char) (a : Str) : (Id.short c).hits a = true ↔ ∃ t, a = '-' :: c :: t := by
  constructor
  · intro h
    exact ⟨_, by have := Id.hits_decomp _ _ h; simpa [Id.dashed] using this⟩
  · rintro ⟨t, rfl⟩; exact Id.hits_short_append c t

theorem Id.hits_long_iff (s : Str) (a : Str) :
    (Id.long s).hits a = true ↔ a = '-' :: '-' :: s ∨ ∃ t, a = '-' :: '-' :: (s ++ '=' :: t) := by
  constructor
  · intro h
    have h1 := Id.hits_decomp _ _ h
    generalize hr : a.drop (Id.long s).dashed.length = r at h1
    rw [h1] at h
    cases r with
    | nil => left; rw [h1]; simp [Id.dashed]
    | cons x r =>
      right
      refine ⟨r, ?_⟩
      simp [Id.hits, Id.dashed] at h
      rw [h1]; simp [Id.dashed, h]
  · rintro (rfl | ⟨t, rfl⟩)
    · exact Id.hits_dashed (.long s)
    · exact Id.hits_eq_append (.long s) t

theorem OptId.hits_looks {W : Type} {D : Decls W} {id : Id} (h : OptId D id) {v : Str} (hv : id.hits v = true) :
    LooksLikeOption D v := by
  cases id with
  | short c =>
    obtain ⟨hc, d, hd, rfl⟩ := h
    exact ⟨d, hd, Or.inl ⟨hc, (Id.hits_short_iff _ _).1 hv⟩⟩
  | long s =>
    obtain ⟨hc, d, hd, rfl⟩ := h
    exact ⟨d, hd, Or.inr ⟨hc, (Id.hits_long_iff _ _).1 hv⟩⟩

/-- Two identifiers without `=` that agree up to the first `=`. -/
theorem eq_of_append_eq {s t : Str} (hs : '=' ∉ s) (ht : '=' ∉ t) {u v : Str}
    (h : s ++ '=' :: u = t ++ '=' :: v) : s = t := by
  induction s generalizing t with
  | nil =>
    cases t with
    | nil => rfl
    | cons c t => simp at h; exact absurd (h.1 ▸ List.mem_cons_self) ht
  | cons c s ih =>
    cases t with
    | nil => simp at h; exact absurd (h.1 ▸ List.mem_cons_self) hs
    | cons d t =>
      simp at h hs ht
      rw [h.1, ih hs.2 ht.2 h.2]

theorem Spec.IdsOk.no_eq_option {W : Type} {D : Decls W} (hD : IdsOk D) {d : OptDecl W} (hd : d ∈ D.options) :
    '=' ∉ d.long := by
  intro h
  by_cases he : d.long = []
  · simp [he] at h
  · exact isIdChar_ne_eq (hD.longChars _ (mem_longIds_option hd he) _ h) rfl

theorem Spec.IdsOk.no_eq_flag {W : Type} {D : Decls W} (hD : IdsOk D) {d : FlagDecl} (hd : d ∈ D.flags) :
    '=' ∉ d.long := by
  intro h
  by_cases he : d.long = []
  · simp [he] at h
  · exact isIdChar_ne_eq (hD.longChars _ (mem_longIds_flag hd he) _ h) rfl

/-- On a line with well-formed items nothing is ambiguous. -/
theorem Spec.Item.Ok.loose {W : Type} {D : Decls W} (hD : IdsOk D) {it : Item} (hit : it.Ok D) : it.Loose D := by
  have hl : ∀ {v : Str}, LooksLikeOption D v → ∃ id, OptId D id ∧ id.hits v = true := by
    rintro v ⟨d, hd, ⟨h1, t, rfl⟩ | ⟨h1, h2⟩⟩
    · exact ⟨.short d.short, ⟨h1, d, hd, rfl⟩, (Id.hits_short_iff _ _).2 ⟨t, rfl⟩⟩
    · exact ⟨.long d.long, ⟨h1, d, hd, rfl⟩, (Id.hits_long_iff _ _).2 h2⟩
  cases it with
  | short c form v => exact hit
  | long s sep v => exact hit
  | flags cs =>
    obtain ⟨hne, hcs⟩ := hit
    cases cs with
    | nil => exact absurd rfl hne
    | cons c cs =>
      obtain ⟨hc, f, hf, rfl⟩ := hcs c (by simp)
      have hcd := (hD.shortChars _ (mem_shortIds_flag hf hc)).2
      refine ⟨fun hlook => ?_, fun h => ?_⟩
      · obtain ⟨id, hid, hh⟩ := hl hlook
        cases id with
        | short c' =>
          obtain ⟨hc', d', hd', rfl⟩ := hid
          obtain ⟨t', h'⟩ := (Id.hits_short_iff _ _).1 hh
          simp at h'
          exact hD.option_ne_flag_short hd' hf hc' h'.1.symm
        | long s =>
          rcases (Id.hits_long_iff _ _).1 hh with h' | ⟨t', h'⟩ <;> simp at h' <;> exact hcd h'.1
      · simp at h; exact hcd h.1
  | longFlag s =>
    obtain ⟨hs, f, hf, rfl⟩ := hit
    refine ⟨fun hlook => ?_, fun h => ?_⟩
    · obtain ⟨id, hid, hh⟩ := hl hlook
      cases id with
      | short c' =>
        obtain ⟨hc', d', hd', rfl⟩ := hid
        have hcd := (hD.shortChars _ (mem_shortIds_option hd' hc')).2
        obtain ⟨t', h'⟩ := (Id.hits_short_iff _ _).1 hh
        simp at h'
        exact hcd h'.1.symm
      | long s' =>
        obtain ⟨hs', d', hd', rfl⟩ := hid
        have hne := hD.no_eq_flag hf
        rcases (Id.hits_long_iff _ _).1 hh with h' | ⟨t', h'⟩ <;> simp only [List.cons.injEq, true_and] at h'
        · exact hD.option_ne_flag_long hd' hf hs' h'.symm
        · rw [h'] at hne; simp at hne
    · simp at h; exact hs h
  | word w =>
    obtain ⟨hw, hw2⟩ := hit
    refine ⟨fun hlook => ?_, fun h => ?_⟩
    · obtain ⟨d, hd, ⟨_, t, h'⟩ | ⟨_, h' | ⟨t, h'⟩⟩⟩ := hlook <;> rw [h'] at hw2 <;> simp at hw2
    · rw [h] at hw2; simp at hw2

/-- The identifiers of an option do not match the arguments of items that do not use it. -/
theorem render_no_hit {W : Type} {D : Decls W} (hD : IdsOk D) {id : Id} (hid : OptId D id) {it : Item}
    (hit : it.Loose D) (hu : id.used it = false) : ∀ a ∈ it.render, id.hits a = false := by
  intro a ha
  rw [← Bool.not_eq_true]
  intro hh
  have hlook := hid.hits_looks hh
  cases it with
  | short c form v =>
    obtain ⟨hc, ⟨d, hd, rfl⟩, hform⟩ := hit
    have hcd := (hD.shortChars _ (mem_shortIds_option hd hc)).2
    have key : ∀ t, id.hits ('-' :: d.short :: t) = true → False := by
      intro t ht
      cases id with
      | short c' =>
        obtain ⟨t', h'⟩ := (Id.hits_short_iff _ _).1 ht
        simp at h'
        simp [Id.used, h'.1] at hu
      | long s =>
        rcases (Id.hits_long_iff _ _).1 ht with h' | ⟨t', h'⟩ <;> simp at h' <;> exact hcd h'.1
    cases form with
    | attached => simp [Item.render] at ha; subst ha; exact key _ hh
    | equals => simp [Item.render] at ha; subst ha; exact key _ hh
    | separate =>
      simp [Item.render] at ha
      rcases ha with rfl | rfl
      · exact key _ hh
      · exact hform.1 hlook
  | long s sep v =>
    obtain ⟨hs, ⟨d, hd, rfl⟩, hsep⟩ := hit
    have hne : '=' ∉ d.long := hD.no_eq_option hd
    have key : (id.hits ('-' :: '-' :: d.long) = true ∨ ∃ t, id.hits ('-' :: '-' :: (d.long ++ '=' :: t)) = true)
        → False := by
      intro ht
      cases id with
      | short c' =>
        obtain ⟨hc', d', hd', rfl⟩ := hid
        have hcd := (hD.shortChars _ (mem_shortIds_option hd' hc')).2
        rcases ht with ht | ⟨t, ht⟩ <;> obtain ⟨t', h'⟩ := (Id.hits_short_iff _ _).1 ht <;>
          simp at h' <;> exact hcd h'.1.symm
      | long s' =>
        obtain ⟨hs', d', hd', rfl⟩ := hid
        have hne' : '=' ∉ d'.long := hD.no_eq_option hd'
        simp [Id.used] at hu
        rcases ht with ht | ⟨t, ht⟩ <;> rcases (Id.hits_long_iff _ _).1 ht with h' | ⟨t', h'⟩ <;>
          simp only [List.cons.injEq, true_and] at h'
        · exact hu h'.symm
        · rw [h'] at hne; simp at hne
        · rw [← h'] at hne'; simp at hne'
        · exact hu (eq_of_append_eq hne' hne h'.symm)
    cases sep with
    | false => simp [Item.render] at ha; subst ha; exact key (Or.inr ⟨_, hh⟩)
    | true =>
      simp [Item.render] at ha
      rcases ha with rfl | rfl
      · exact key (Or.inl hh)
      · exact hsep.1 hlook
  | flags cs => simp [Item.render] at ha; subst ha; exact hit.1 hlook
  | longFlag s => simp [Item.render] at ha; subst ha; exact hit.1 hlook
  | word w => simp [Item.render] at ha; subst ha; exact hit.1 hlook

theorem itemCells_no_hit {W : Type} {D : Decls W} (hD : IdsOk D) {id : Id} (hid : OptId D id) {it : Item}
    (hit : it.Loose D) (done : Bool) (hu : id.used it = false ∨ done = true) :
    ∀ a ∈ itemCells done it, id.hits a = false := by
  intro a ha
  unfold itemCells at ha
  cases done with
  | true => simp at ha; obtain ⟨_, rfl⟩ := ha; simp
  | false => simp at hu ha; exact render_no_hit hD hid hit hu a ha

theorem valueIn_none_of_not_used {id : Id} {it : Item} (h : id.used it = false) : id.valueIn it = none := by
  cases it <;> simp_all [Id.used, Id.valueIn]

theorem consumeAll_short_attached (c x : Char) (v : Str) (rest : List Str) (hx : x ≠ '=') :
    consumeAll (.short c) (('-' :: c :: x :: v) :: rest) =
      (consumeAll (.short c) rest).map fun p => ((x :: v) :: p.1, [] :: p.2) := by
  have h := consumeAll_hit (.short c) ('-' :: c :: x :: v) rest (Id.hits_short_append c (x :: v))
  rw [h]
  simp [retrieve, Id.dashed, hx]

theorem consumeAll_eq (id : Id) (v : Str) (rest : List Str) (hv : v ≠ []) :
    consumeAll id ((id.dashed ++ '=' :: v) :: rest) =
      (consumeAll id rest).map fun p => (v :: p.1, [] :: p.2) := by
  have h := consumeAll_hit id (id.dashed ++ '=' :: v) rest (Id.hits_eq_append id v)
  rw [h]
  simp [retrieve, hv]

theorem consumeAll_separate (id : Id) (v : Str) (rest : List Str) :
    consumeAll id (id.dashed :: v :: rest) =
      (consumeAll id rest).map fun p => (v :: p.1, [] :: [] :: p.2) := by
  have h := consumeAll_hit id id.dashed (v :: rest) (Id.hits_dashed id)
  rw [h]
  simp [retrieve]

/-- One identifier, one pass: exactly the values of the items using it, in order. -/
theorem consumeAll_stage {W : Type} {D : Decls W} (hD : IdsOk D) {id : Id} (hid : OptId D id)
    (done : Item → Bool) (items : List Item) (hit : ∀ it ∈ items, it.Loose D)
    (hdone : ∀ it ∈ items, id.used it = true → done it = false) :
    consumeAll id (stage done items) =
      some (items.filterMap id.valueIn, stage (fun it => done it || id.used it) items) := by
  induction items with
  | nil => simp [stage, consumeAll]
  | cons it items ih =>
    have ih := ih (fun i hi => hit i (by simp [hi])) (fun i hi => hdone i (by simp [hi]))
    have hitem := hit it (by simp)
    simp only [stage, List.flatMap_cons] at ih ⊢
    by_cases hu : id.used it = true
    · have hd := hdone it (by simp) hu
      simp only [hd, hu, Bool.or_true]
      cases it with
      | short c form v =>
        simp [Id.used] at hu
        subst hu
        obtain ⟨hc, ⟨d, hd', rfl⟩, hform⟩ := hitem
        cases form with
        | attached =>
          obtain ⟨h1, h2⟩ := hform
          cases v with
          | nil => exact absurd rfl h1
          | cons x v =>
            have hx : x ≠ '=' := by simpa using h2
            have h := consumeAll_short_attached d.short x v (items.flatMap fun it => itemCells (done it) it) hx
            rw [ih] at h
            exact h.trans (by simp [Id.valueIn, itemCells, Item.render])
        | equals =>
          have h := consumeAll_eq (.short d.short) v (items.flatMap fun it => itemCells (done it) it) hform
          rw [ih] at h
          exact h.trans (by simp [Id.valueIn, itemCells, Item.render])
        | separate =>
          have h := consumeAll_separate (.short d.short) v (items.flatMap fun it => itemCells (done it) it)
          rw [ih] at h
          exact h.trans (by simp [Id.valueIn, itemCells, Item.render])
      | long s sep v =>
        simp [Id.used] at hu
        subst hu
        obtain ⟨hs, ⟨d, hd', rfl⟩, hform⟩ := hitem
        cases sep with
        | false =>
          have h := consumeAll_eq (.long d.long) v (items.flatMap fun it => itemCells (done it) it) (by simpa using hform)
          rw [ih] at h
          exact h.trans (by simp [Id.valueIn, itemCells, Item.render])
        | true =>
          have h := consumeAll_separate (.long d.long) v (items.flatMap fun it => itemCells (done it) it)
          rw [ih] at h
          exact h.trans (by simp [Id.valueIn, itemCells, Item.render])
      | flags cs => simp [Id.used] at hu
      | longFlag s => simp [Id.used] at hu
      | word w => simp [Id.used] at hu
    · have hu : id.used it = false := by simpa using hu
      rw [consumeAll_skip id _ _ (itemCells_no_hit hD hid hitem _ (Or.inl hu)), ih]
      simp [hu, valueIn_none_of_not_used hu]

theorem used_empty {W : Type} {D : Decls W} {id : Id} (he : id.isEmpty = true) {it : Item} (hit : it.Loose D) :
    id.used it = false := by
  cases it with
  | short c form v =>
    cases id with
    | short c' => simp [Id.isEmpty] at he; subst he; simp [Id.used]; exact fun h => hit.1 h.symm
    | long s => simp [Id.used]
  | long s sep v =>
    cases id with
    | short c' => simp [Id.used]
    | long s' => simp [Id.isEmpty] at he; subst he; simp [Id.used]; exact hit.1
  | flags cs => rfl
  | longFlag s => rfl
  | word w => rfl

theorem stage_congr (done done' : Item → Bool) (items : List Item) (h : ∀ it ∈ items, done it = done' it) :
    stage done items = stage done' items := by
  induction items with
  | nil => rfl
  | cons it items ih =>
    simp only [stage, List.flatMap_cons] at ih ⊢
    rw [h it (by simp), ih (fun i hi => h i (by simp [hi]))]

theorem filterMap_valueIn_nil {id : Id} {items : List Item} (h : ∀ it ∈ items, id.used it = false) :
    items.filterMap id.valueIn = [] := by
  rw [List.filterMap_eq_nil_iff]
  exact fun it hit => valueIn_none_of_not_used (h it hit)

theorem consumeId_stage {W : Type} {D : Decls W} (hD : IdsOk D) {id : Id} (hid : id.isEmpty = true ∨ OptId D id)
    (done : Item → Bool) (items : List Item) (hit : ∀ it ∈ items, it.Loose D)
    (hdone : ∀ it ∈ items, id.used it = true → done it = false) :
    consumeId id (stage done items) =
      some (items.filterMap id.valueIn, stage (fun it => done it || id.used it) items) := by
  unfold consumeId
  rcases hid with he | hid
  · have hu : ∀ it ∈ items, id.used it = false := fun it h => used_empty he (hit it h)
    rw [filterMap_valueIn_nil hu, stage_congr (fun it => done it || id.used it) done items
      (fun it h => by simp [hu it h])]
    simp [he]
  · have he : id.isEmpty = false := by
      cases id with
      | short c => simp [Id.isEmpty]; exact hid.1
      | long s => simp [Id.isEmpty]; exact hid.1
    simp [he, consumeAll_stage hD hid done items hit hdone]

/-- The item is an occurrence of the option. -/
def usedBy {W : Type} (d : OptDecl W) (it : Item) : Bool := (Id.short d.short).used it || (Id.long d.long).used it

def doneBy {W : Type} (ds : List (OptDecl W)) (it : Item) : Bool := ds.any (usedBy · it)

theorem optId_short {W : Type} {D : Decls W} {d : OptDecl W} (hd : d ∈ D.options) :
    (Id.short d.short).isEmpty = true ∨ OptId D (.short d.short) := by
  by_cases h : d.short = '\x00'
  · left; simp [Id.isEmpty, h]
  · right; exact ⟨h, d, hd, rfl⟩

theorem optId_long {W : Type} {D : Decls W} {d : OptDecl W} (hd : d ∈ D.options) :
    (Id.long d.long).isEmpty = true ∨ OptId D (.long d.long) := by
  by_cases h : d.long = []
  · left; simp [Id.isEmpty, h]
  · right; exact ⟨h, d, hd, rfl⟩

/-- Different options do not share an occurrence. -/
theorem not_done_yet {W : Type} {D : Decls W} (hD : IdsOk D) {proc rest : List (OptDecl W)} {d : OptDecl W}
    (hsplit : D.options = proc ++ d :: rest) {it : Item} (hit : it.Loose D) (hu : usedBy d it = true) :
    doneBy proc it = false := by
  have hn1 := hD.shortNodup
  have hn2 := hD.longNodup
  unfold shortIds at hn1
  unfold longIds at hn2
  rw [hsplit] at hn1 hn2
  unfold doneBy
  rw [List.any_eq_false]
  intro d' hd'
  obtain ⟨p1, p2, rfl⟩ := List.append_of_mem hd'
  intro hu'
  unfold usedBy at hu hu'
  cases it with
  | short c form v =>
    simp [Id.used] at hu hu'
    have hc := hit.1
    simp [List.filter_append, List.filter_cons, hu, hu', hc] at hn1
    simp [List.nodup_append] at hn1
  | long s sep v =>
    simp [Id.used] at hu hu'
    have hc := hit.1
    simp [List.filter_append, List.filter_cons, hu, hu', hc] at hn2
    simp [List.nodup_append] at hn2
  | flags cs => simp [Id.used] at hu
  | longFlag s => simp [Id.used] at hu
  | word w => simp [Id.used] at hu

theorem valueFor_eq {W : Type} (d : OptDecl W) (it : Item) :
    it.valueFor d = ((Id.short d.short).valueIn it).or ((Id.long d.long).valueIn it) := by
  cases it <;> simp [Item.valueFor, Id.valueIn, eq_comm]

theorem given_of_short {W : Type} (d : OptDecl W) (items : List Item)
    (h : items.filterMap (Id.long d.long).valueIn = []) :
    given d items = items.filterMap (Id.short d.short).valueIn := by
  induction items with
  | nil => rfl
  | cons it items ih =>
    rw [List.filterMap_eq_nil_iff] at h
    have h1 := h it (by simp)
    have h2 := ih (List.filterMap_eq_nil_iff.2 fun i hi => h i (by simp [hi]))
    simp only [given] at h2 ⊢
    simp [List.filterMap_cons, valueFor_eq, h1, h2]

theorem given_of_long {W : Type} (d : OptDecl W) (items : List Item)
    (h : items.filterMap (Id.short d.short).valueIn = []) :
    given d items = items.filterMap (Id.long d.long).valueIn := by
  induction items with
  | nil => rfl
  | cons it items ih =>
    rw [List.filterMap_eq_nil_iff] at h
    have h1 := h it (by simp)
    have h2 := ih (List.filterMap_eq_nil_iff.2 fun i hi => h i (by simp [hi]))
    simp only [given] at h2 ⊢
    simp [List.filterMap_cons, valueFor_eq, h1, h2]

theorem given_length {W : Type} (d : OptDecl W) (items : List Item) :
    (given d items).length =
      (items.filterMap (Id.short d.short).valueIn).length + (items.filterMap (Id.long d.long).valueIn).length := by
  induction items with
  | nil => rfl
  | cons it items ih =>
    simp only [given] at ih ⊢
    cases it with
    | short c form v =>
      by_cases h : c = d.short
      · simp [List.filterMap_cons, Item.valueFor, Id.valueIn, h, ih]; omega
      · have h' : ¬ d.short = c := fun e => h e.symm
        simp [List.filterMap_cons, Item.valueFor, Id.valueIn, h, h', ih]
    | long s sep v =>
      by_cases h : s = d.long
      · simp [List.filterMap_cons, Item.valueFor, Id.valueIn, h, ih]; omega
      · have h' : ¬ d.long = s := fun e => h e.symm
        simp [List.filterMap_cons, Item.valueFor, Id.valueIn, h, h', ih]
    | flags cs => simpa [List.filterMap_cons, Item.valueFor, Id.valueIn] using ih
    | longFlag s => simpa [List.filterMap_cons, Item.valueFor, Id.valueIn] using ih
    | word w => simpa [List.filterMap_cons, Item.valueFor, Id.valueIn] using ih

theorem optValue_nil_left {W : Type} (nd : Bool) (d : OptDecl W) (vs : List Str) :
    optValue nd d [] vs = optValue nd d vs [] := by
  unfold optValue
  split
  · cases h : readListElems nd d.ty vs with
    | error e => simp [readListElems]
    | ok es =>
      cases vs with
      | nil => simp [readListElems] at h ⊢; exact h
      | cons v vs => simp [readListElems]
  · simp

theorem optValue_two {W : Type} (nd : Bool) (d : OptDecl W) (v1 v2 : List Str) (hl : d.isList = false)
    (h : 2 ≤ (v1 ++ v2).length) : optValue nd d v1 v2 = none := by
  unfold optValue
  simp only [hl, Bool.false_eq_true, if_false]
  split
  · rename_i v he; rw [he] at h; simp at h
  · rfl

/-- With uniform spelling of lists, the value of an option depends only on the values in command line order. -/
theorem optValue_given {W : Type} (nd : Bool) (d : OptDecl W) (items : List Item)
    (huni : d.isList = true →
      ¬ ((∃ form v, Item.short d.short form v ∈ items) ∧ (∃ sep v, Item.long d.long sep v ∈ items))) :
    optValue nd d (items.filterMap (Id.short d.short).valueIn) (items.filterMap (Id.long d.long).valueIn) =
      optValue nd d (given d items) [] := by
  by_cases h2 : items.filterMap (Id.long d.long).valueIn = []
  · rw [given_of_short d items h2, h2]
  · by_cases h1 : items.filterMap (Id.short d.short).valueIn = []
    · rw [given_of_long d items h1, h1, optValue_nil_left]
    · have hl : d.isList = false := by
        cases hl : d.isList with
        | false => rfl
        | true =>
          exfalso
          refine huni hl ⟨?_, ?_⟩
          · obtain ⟨v, hv⟩ := List.exists_mem_of_ne_nil _ h1
            obtain ⟨it, hit, hv⟩ := List.mem_filterMap.1 hv
            cases it <;> simp [Id.valueIn] at hv
            rename_i c form v'
            exact ⟨form, v', by rw [hv.1]; exact hit⟩
          · obtain ⟨v, hv⟩ := List.exists_mem_of_ne_nil _ h2
            obtain ⟨it, hit, hv⟩ := List.mem_filterMap.1 hv
            cases it <;> simp [Id.valueIn] at hv
            rename_i c form v'
            exact ⟨form, v', by rw [hv.1]; exact hit⟩
      have h3 := given_length d items
      have h4 := List.length_pos_iff.2 h1
      have h5 := List.length_pos_iff.2 h2
      rw [optValue_two nd d _ _ hl (by simp; omega), optValue_two nd d _ _ hl (by simp; omega)]

/-- One declared option on a well-formed line. -/
theorem getOption_stage {W : Type} {D : Decls W} (hD : IdsOk D) {proc rest : List (OptDecl W)} {d : OptDecl W}
    (hsplit : D.options = proc ++ d :: rest) (items : List Item) (hit : ∀ it ∈ items, it.Loose D)
    (huni : d.isList = true →
      ¬ ((∃ form v, Item.short d.short form v ∈ items) ∧ (∃ sep v, Item.long d.long sep v ∈ items)))
    (nd : Bool) (s s' : FState W) (u : Unit) (hs : s.pre = stage (doneBy proc) items) :
    getOption nd d s = .ok u s' ↔
      (given d items = [] ∧ d.required = false ∧ s' = { s with pre := stage (doneBy (proc ++ [d])) items }) ∨
      (given d items ≠ [] ∧ ∃ val w, optValue nd d (given d items) [] = some val ∧
        d.validator val s.world = (true, w) ∧
        s' = { s with pre := stage (doneBy (proc ++ [d])) items, store := s.store.set d.var val, world := w }) := by
  have hd : d ∈ D.options := by rw [hsplit]; simp
  have hnd : ∀ it ∈ items, usedBy d it = true → doneBy proc it = false :=
    fun it h hu => not_done_yet hD hsplit (hit it h) hu
  have c1 := consumeId_stage hD (optId_short hd) (doneBy proc) items hit
    (fun it h hu => hnd it h (by simp [usedBy, hu]))
  have c2 := consumeId_stage hD (optId_long hd) (fun it => doneBy proc it || (Id.short d.short).used it) items hit
    (fun it h hu => by
      have h1 := hnd it h (by simp [usedBy, hu])
      have h2 : (Id.short d.short).used it = false := by
        cases it <;> simp [Id.used] at hu ⊢
      simp [h1, h2])
  have hst : stage (fun it => (doneBy proc it || (Id.short d.short).used it) || (Id.long d.long).used it) items =
      stage (doneBy (proc ++ [d])) items := by
    apply stage_congr
    intro it _
    simp [doneBy, usedBy, Bool.or_assoc]
  rw [hst] at c2
  have hg := given_length d items
  rw [getOption_ok, hs]
  have hempty : (items.filterMap (Id.short d.short).valueIn = [] ∧ items.filterMap (Id.long d.long).valueIn = []) ↔
      given d items = [] := by
    rw [← List.length_eq_zero_iff, ← List.length_eq_zero_iff, ← List.length_eq_zero_iff]
    omega
  constructor
  · rintro ⟨v1, l1, v2, l2, h1, h2, h3⟩
    rw [c1] at h1
    simp only [Option.some.injEq, Prod.mk.injEq] at h1
    obtain ⟨rfl, rfl⟩ := h1
    rw [c2] at h2
    simp only [Option.some.injEq, Prod.mk.injEq] at h2
    obtain ⟨rfl, rfl⟩ := h2
    rcases h3 with ⟨e1, e2, h4, h5⟩ | ⟨h4, val, w, h5, h6, h7⟩
    · left
      refine ⟨hempty.1 ⟨e1, e2⟩, h4, ?_⟩
      have := consumeId_vals_nil _ _ _ (by rw [← e1]; exact c1)
      have h2' := consumeId_vals_nil _ _ _ (by rw [← e2]; exact c2)
      rw [h2', this, ← hs, h5]
    · right
      exact ⟨fun h => h4 (hempty.2 h), val, w, by rw [← optValue_given nd d items huni]; exact h5, h6, h7⟩
  · intro h
    refine ⟨_, _, _, _, c1, c2, ?_⟩
    rcases h with ⟨h1, h2, h3⟩ | ⟨h1, val, w, h2, h3, h4⟩
    · left
      obtain ⟨e1, e2⟩ := hempty.2 h1
      refine ⟨e1, e2, h2, ?_⟩
      have := consumeId_vals_nil _ _ _ (by rw [← e1]; exact c1)
      have h2' := consumeId_vals_nil _ _ _ (by rw [← e2]; exact c2)
      rw [h3, h2', this, ← hs]
    · right
      exact ⟨fun h => h1 (hempty.1 h), val, w, by rw [optValue_given nd d items huni]; exact h2, h3, h4⟩

end Sharg
