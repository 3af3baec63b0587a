import Verif.Spec.Clear
import Verif.Props.Lines

/-!
# Property C81: only well-formed lines are accepted

Also C17: the well-formed lines are written in one way only.
-/

namespace Sharg

open Spec

variable {W : Type}

theorem looks_of_bare {d : OptDecl W} {D : Decls W} (hd : d ∈ D.options) {a : Str} (h : Bare d a) : LooksLikeOption D a := by
  rcases h with ⟨h, rfl⟩ | ⟨h, rfl⟩
  · exact ⟨d, hd, Or.inl ⟨h, [], rfl⟩⟩
  · exact ⟨d, hd, Or.inr ⟨h, Or.inl rfl⟩⟩

theorem looks_of_attached {d : OptDecl W} {D : Decls W} (hd : d ∈ D.options) {a : Str} (h : Attached d a) : LooksLikeOption D a := by
  obtain ⟨v, hv, ⟨h, rfl | ⟨-, rfl⟩⟩ | ⟨h, rfl⟩⟩ := h
  · exact ⟨d, hd, Or.inl ⟨h, _, rfl⟩⟩
  · exact ⟨d, hd, Or.inl ⟨h, _, rfl⟩⟩
  · exact ⟨d, hd, Or.inr ⟨h, Or.inr ⟨_, rfl⟩⟩⟩

theorem names_of_bare {d : OptDecl W} {a : Str} (h : Bare d a) : Names d a := by
  rcases h with ⟨h, rfl⟩ | ⟨h, rfl⟩
  · exact Or.inl ⟨h, ⟨[], rfl⟩⟩
  · exact Or.inr ⟨h, Or.inl rfl⟩

/-- An identifier with a value attached is not an identifier alone. -/
theorem attached_not_bare {D : Decls W} (hD : IdsOk D) {d : OptDecl W} (hd : d ∈ D.options) {a : Str} (h : Attached d a) : ¬ BareAny D a := by
  obtain ⟨v, hv, ⟨h, ha⟩ | ⟨h, rfl⟩⟩ := h
  · have hid : OptId D (.short d.short) := ⟨h, d, hd, rfl⟩
    have : decide (BareAny D a) = false := by
      refine not_bare_inline hD hid ((Id.hits_short_iff _ _).2 ?_) ?_
      · rcases ha with rfl | ⟨-, rfl⟩ <;> exact ⟨_, rfl⟩
      · have : 0 < v.length := List.length_pos_iff.2 hv
        rcases ha with rfl | ⟨-, rfl⟩ <;> simp [Id.dashed] <;> omega
    exact of_decide_eq_false this
  · have hid : OptId D (.long d.long) := ⟨h, d, hd, rfl⟩
    refine of_decide_eq_false (not_bare_inline hD hid ((Id.hits_long_iff _ _).2 (Or.inr ⟨_, rfl⟩)) ?_)
    simp [Id.dashed]

theorem clearFront_lone {D : Decls W} {a : Str} {l : List Str} (h : ClearFront D (a :: l)) (hb : ¬ BareAny D a) :
    LoneOk D a ∧ ClearFront D l := by
  cases l with
  | nil => exact ⟨h hb, trivial⟩
  | cons v l =>
    unfold ClearFront at h
    rw [if_neg hb] at h
    exact h

theorem clearFront_bare {D : Decls W} {a v : Str} {l : List Str} (h : ClearFront D (a :: v :: l)) (hb : BareAny D a) :
    ¬ LooksLikeOption D v ∧ ClearFront D l := by
  unfold ClearFront at h
  rw [if_pos hb] at h
  exact h

/-- An argument that the options left is a word or consists of flags. -/
theorem item_of_settled {D : Decls W} {a b : Str} (h : Settled D a b) (hl : LoneOk D a) (hm : a ≠ ['-', '-'])
    (hn : ∀ d ∈ D.options, ¬ Names d a) : ∃ it : Item, it.Ok D ∧ it.render = [a] := by
  cases h with
  | empty => exact absurd rfl hl.1
  | word h => exact ⟨.word a, h, rfl⟩
  | flags h =>
    rcases h with ⟨f, hf, rfl⟩ | ⟨t, rest, rfl, hne, hh, ⟨xs, hx, hp, hs⟩, hr⟩
    · exact ⟨.longFlag f.long, ⟨fun e => hm (by rw [e]), f, hf, rfl⟩, rfl⟩
    · cases t with
      | nil => exact absurd rfl hne
      | cons x t =>
        rcases hr with rfl | ⟨f, hf, rfl⟩
        · have hp' : (x :: t).Perm xs := by rw [List.append_nil] at hp; exact hp
          have hx' : x ≠ '-' := fun e => hh (by rw [e]; rfl)
          refine ⟨.flags (x :: t), ⟨by simp, fun c hc => ⟨?_, hx c (hp'.mem_iff.1 hc)⟩⟩, rfl⟩
          rintro rfl
          obtain ⟨h0, d, hd, rfl⟩ := hl.2 x t rfl hx' (Or.inr hc)
          exact hn d hd (Or.inl ⟨h0, ⟨t, rfl⟩⟩)
        · have hx' : x ≠ '-' := fun e => hh (by rw [e]; rfl)
          have hd : '-' ∈ x :: t := hs.subset List.mem_cons_self
          have hd : '-' ∈ t := by
            rcases List.mem_cons.1 hd with e | e
            · exact absurd e.symm hx'
            · exact e
          obtain ⟨h0, d, hd', rfl⟩ := hl.2 x t rfl hx' (Or.inl hd)
          exact absurd (Or.inl ⟨h0, ⟨t, rfl⟩⟩) (hn d hd')

/-- The arguments in front of `--` are items. -/
theorem items_of_uses {D : Decls W} (hD : IdsOk D) : ∀ (n : Nat) (l l' left : List Str), l.length ≤ n → Uses D l l' →
    (∀ a ∈ l', ∀ d ∈ D.options, ¬ Names d a) → Pointwise (Settled D) l' left → ClearFront D l → ['-', '-'] ∉ l →
    ∃ items : List Item, l = items.flatMap Item.render ∧ ∀ it ∈ items, it.Ok D := by
  intro n
  induction n with
  | zero =>
    intro l l' left hn _ _ _ _ _
    exact ⟨[], by rw [List.length_eq_zero_iff.1 (Nat.le_zero.1 hn)]; rfl, by simp⟩
  | succ n ih =>
    intro l l' left hn hu hg hp hc hm
    have more : ∀ {it : Item} {r : List Str}, it.Ok D → l = it.render ++ r →
        (∃ items : List Item, r = items.flatMap Item.render ∧ ∀ it ∈ items, it.Ok D) →
        ∃ items : List Item, l = items.flatMap Item.render ∧ ∀ it ∈ items, it.Ok D := by
      rintro it r h1 h2 ⟨items, h3, h4⟩
      refine ⟨it :: items, by rw [h2, h3]; rfl, ?_⟩
      intro i hi
      rcases List.mem_cons.1 hi with rfl | hi
      · exact h1
      · exact h4 i hi
    cases hu with
    | nil => exact ⟨[], rfl, by simp⟩
    | @keep a l l' hu =>
      have hna := hg a List.mem_cons_self
      obtain ⟨h1, h2⟩ := clearFront_lone hc (fun ⟨d, hd, hb⟩ => hna d hd (names_of_bare hb))
      cases hp with
      | cons hs hp =>
        obtain ⟨it, hit, hr⟩ := item_of_settled hs h1 (fun e => hm (by rw [e]; simp)) hna
        exact more hit (by rw [hr]; rfl) (ih l l' _ (Nat.le_of_succ_le_succ hn) hu (fun b hb => hg b (List.mem_cons_of_mem _ hb)) hp h2
          (fun h => hm (List.mem_cons_of_mem _ h)))
    | @attached d a l l' hd ha hu =>
      obtain ⟨-, h2⟩ := clearFront_lone hc (attached_not_bare hD hd ha)
      cases hp with
      | cons hs hp =>
        have hrest := ih l l' _ (Nat.le_of_succ_le_succ hn) hu (fun b hb => hg b (List.mem_cons_of_mem _ hb)) hp h2
          (fun h => hm (List.mem_cons_of_mem _ h))
        obtain ⟨v, hv, ⟨h, rfl | ⟨h', rfl⟩⟩ | ⟨h, rfl⟩⟩ := ha
        · exact more (it := .short d.short .equals v) ⟨h, ⟨d, hd, rfl⟩, hv⟩ rfl hrest
        · exact more (it := .short d.short .attached v) ⟨h, ⟨d, hd, rfl⟩, hv, h'⟩ rfl hrest
        · exact more (it := .long d.long false v) ⟨h, ⟨d, hd, rfl⟩, hv⟩ rfl hrest
    | @pair d a v l l' hd hb hu =>
      obtain ⟨h1, h2⟩ := clearFront_bare hc ⟨d, hd, hb⟩
      cases hp with
      | cons hs hp =>
        cases hp with
        | cons hs' hp =>
          have hrest := ih l l' _ (by simp at hn; omega) hu (fun b hb => hg b (by simp [hb])) hp h2 (fun h => hm (by simp [h]))
          have hsep : SeparateOk D v := ⟨h1, fun e => hm (by rw [e]; simp)⟩
          rcases hb with ⟨h, rfl⟩ | ⟨h, rfl⟩
          · exact more (it := .short d.short .separate v) ⟨h, ⟨d, hd, rfl⟩, hsep⟩ rfl hrest
          · exact more (it := .long d.long true v) ⟨h, ⟨d, hd, rfl⟩, hsep⟩ rfl hrest
    | @orphan d a l l' hd hb hu =>
      cases hp with
      | cons hs hp =>
        cases hp with
        | cons hs' hp =>
          cases hu with
          | @keep _ l _ hu =>
            obtain ⟨h1, h2⟩ := clearFront_bare hc ⟨d, hd, hb⟩
            have hrest := ih l l' _ (by simp at hn; omega) hu (fun b hb => hg b (by simp [hb])) hp h2 (fun h => hm (by simp [h]))
            have hsep : SeparateOk D ([] : Str) := ⟨h1, by simp⟩
            rcases hb with ⟨h, rfl⟩ | ⟨h, rfl⟩
            · exact more (it := .short d.short .separate []) ⟨h, ⟨d, hd, rfl⟩, hsep⟩ rfl hrest
            · exact more (it := .long d.long true []) ⟨h, ⟨d, hd, rfl⟩, hsep⟩ rfl hrest
          | attached hd' ha' _ => exact absurd (looks_of_attached hd' ha') (clearFront_bare hc ⟨d, hd, hb⟩).1
          | pair v hd' hb' _ => exact absurd (looks_of_bare hd' hb') (clearFront_bare hc ⟨d, hd, hb⟩).1
          | orphan hd' hb' _ => exact absurd (looks_of_bare hd' hb') (clearFront_bare hc ⟨d, hd, hb⟩).1

/-- Arguments that are parsed successfully and can be read in one way only are a well-formed line. -/
theorem line_of_formatParse {D : Decls W} (hD : IdsOk D) (nd : Bool) (args : List Str) (st : Store) (w : W) (s : FState W)
    (hc : Clear D args) (h : formatParse nd D args st w = .ok () s) :
    ∃ items tail, args = renderLine items tail ∧ LineOk D items tail := by
  obtain ⟨ph⟩ := phases nd hD args st w s () h
  have hm : ['-', '-'] ∉ before args := by
    intro hm
    have h := List.all_eq_true.1 (List.all_takeWhile (l := args) (p := fun a => decide (a ≠ ['-', '-']))) _ hm
    exact of_decide_eq_true h rfl
  obtain ⟨items, hi, hok⟩ := items_of_uses hD _ _ _ _ (Nat.le_refl _) ph.optDone.uses ph.optDone.gone
    (settled_of_becomes ph.flgPre ph.noIds) hc.front hm
  obtain ⟨tail, ht, htail⟩ : ∃ tail, args = renderLine items tail ∧ ∀ ws, tail = some ws → ws = behind args := by
    have happ : before args ++ args.dropWhile (· ≠ ['-', '-']) = args := List.takeWhile_append_dropWhile ..
    rcases dropWhile_endMarker args with e | e
    · refine ⟨none, ?_, by intro ws h; cases h⟩
      refine happ.symm.trans ?_
      rw [show args.dropWhile (fun a => decide (a ≠ ['-', '-'])) = [] from e, hi]
      rfl
    · refine ⟨some (behind args), ?_, by intro ws h; cases h; rfl⟩
      refine happ.symm.trans ?_
      rw [show args.dropWhile (fun a => decide (a ≠ ['-', '-'])) = _ from e, hi]
      rfl
  refine ⟨items, tail, ht, hok, ?_, ?_, ?_⟩
  · intro f hf
    apply Classical.byContradiction
    intro h2
    have hcore := formatParse_core hD items (fun it hit => (hok it hit).loose hD) tail nd st w
    rw [← ht, h] at hcore
    unfold M.bind at hcore
    cases ha : absOptions nd items D.options (st, w) with
    | err e c => rw [ha] at hcore; cases hcore
    | ok u c =>
      rw [ha] at hcore
      obtain ⟨c', hc'⟩ := absRest_repeated hD hf items hok (by omega) nd (tailCells tail) c.1 c.2
      dsimp only at hcore
      rw [show absRest nd D (others items) (tailCells tail) c = _ from hc'] at hcore
      cases hcore
  · rintro d hd hl ⟨⟨form, v, h1⟩, sep, v', h2⟩
    have hmem : ∀ it ∈ items, ∀ a ∈ it.render, a ∈ before args := fun it hit a ha => by
      rw [hi]; exact List.mem_flatMap.2 ⟨it, hit, ha⟩
    refine hc.lists d hd hl ⟨⟨(hok _ h1).1, ?_⟩, (hok _ h2).1, ?_⟩
    · cases form with
      | attached => exact ⟨_, hmem _ h1 _ List.mem_cons_self, ⟨v, rfl⟩⟩
      | equals => exact ⟨_, hmem _ h1 _ List.mem_cons_self, ⟨'=' :: v, rfl⟩⟩
      | separate => exact ⟨_, hmem _ h1 _ List.mem_cons_self, ⟨[], rfl⟩⟩
    · cases sep with
      | true => exact ⟨_, hmem _ h2 _ List.mem_cons_self, Or.inl rfl⟩
      | false => exact ⟨_, hmem _ h2 _ List.mem_cons_self, Or.inr ⟨v', by simp⟩⟩
  · intro ws hws
    rw [htail ws hws]
    exact hc.tail

/-! ### Well-formed lines can be read in one way only -/

theorem clearFront_of_lone {D : Decls W} {a : Str} {l : List Str} (hb : ¬ BareAny D a) (h : LoneOk D a) (hl : ClearFront D l) :
    ClearFront D (a :: l) := by
  cases l with
  | nil => exact fun _ => h
  | cons v l =>
    unfold ClearFront
    rw [if_neg hb]
    exact ⟨h, hl⟩

theorem clearFront_of_pair {D : Decls W} {a v : Str} {l : List Str} (hb : BareAny D a) (h : ¬ LooksLikeOption D v)
    (hl : ClearFront D l) : ClearFront D (a :: v :: l) := by
  unfold ClearFront
  rw [if_pos hb]
  exact ⟨h, hl⟩

theorem not_bare_of_separate {D : Decls W} {a : Str} (h : SeparateOk D a) : ¬ BareAny D a :=
  fun ⟨_, hd, hb⟩ => h.1 (looks_of_bare hd hb)

theorem clearFront_items {D : Decls W} (hD : IdsOk D) : ∀ (items : List Item), (∀ it ∈ items, it.Ok D) →
    ClearFront D (items.flatMap Item.render) := by
  intro items
  induction items with
  | nil => intro _; trivial
  | cons it items ih =>
    intro h
    have hr := ih (fun i hi => h i (List.mem_cons_of_mem _ hi))
    have hit := h it List.mem_cons_self
    have hlo := hit.loose hD
    cases it with
    | short c form v =>
      obtain ⟨h0, ⟨d, hd, rfl⟩, hf⟩ := hit
      have lone : ∀ t, LoneOk D ('-' :: d.short :: t) := fun t => ⟨by simp, fun x t' e _ _ => by
        simp at e; rw [← e.1]; exact ⟨h0, d, hd, rfl⟩⟩
      cases form with
      | attached => exact clearFront_of_lone (attached_not_bare hD hd ⟨v, hf.1, Or.inl ⟨h0, Or.inr ⟨hf.2, rfl⟩⟩⟩) (lone _) hr
      | equals => exact clearFront_of_lone (attached_not_bare hD hd ⟨v, hf, Or.inl ⟨h0, Or.inl rfl⟩⟩) (lone _) hr
      | separate => exact clearFront_of_pair ⟨d, hd, Or.inl ⟨h0, rfl⟩⟩ hf.1 hr
    | long s sep v =>
      obtain ⟨h0, ⟨d, hd, rfl⟩, hf⟩ := hit
      cases sep with
      | true => exact clearFront_of_pair ⟨d, hd, Or.inr ⟨h0, rfl⟩⟩ (hf : SeparateOk D v).1 hr
      | false =>
        refine clearFront_of_lone (attached_not_bare hD hd ⟨v, hf, Or.inr ⟨h0, rfl⟩⟩) ⟨by simp, fun x t e hx _ => ?_⟩ hr
        simp at e
        exact absurd e.1.symm hx
    | flags cs =>
      refine clearFront_of_lone (not_bare_of_separate hlo) ⟨by simp, fun x t e hx hh => ?_⟩ hr
      simp at e
      subst e
      have no : ∀ c ∈ x :: t, c ≠ '-' ∧ c ≠ '\x00' := fun c hc => by
        obtain ⟨h0, f, hf, rfl⟩ := hit.2 c hc
        exact ⟨(hD.shortChars _ (mem_shortIds_flag hf h0)).2, h0⟩
      rcases hh with hh | hh
      · exact absurd rfl (no _ (List.mem_cons_of_mem _ hh)).1
      · exact absurd rfl (no _ hh).2
    | longFlag s =>
      refine clearFront_of_lone (not_bare_of_separate hlo) ⟨by simp, fun x t e hx _ => ?_⟩ hr
      simp at e
      exact absurd e.1.symm hx
    | word w =>
      refine clearFront_of_lone (not_bare_of_separate hlo) ⟨hit.1, fun x t e hx _ => ?_⟩ hr
      subst e
      rcases hit.2 with e | e <;> simp at e

theorem before_line {D : Decls W} (hD : IdsOk D) (items : List Item) (hit : ∀ it ∈ items, it.Ok D) (tail : Option (List Str)) :
    before (renderLine items tail) = items.flatMap Item.render ∧
    behind (renderLine items tail) = tail.getD [] := by
  obtain ⟨h1, h2⟩ := split_line hD items hit tail
  refine ⟨h1, ?_⟩
  unfold behind
  rw [show (renderLine items tail).dropWhile (fun a => decide (a ≠ ['-', '-'])) = _ from h2]
  cases tail <;> rfl

/-- Well-formed lines can be read in one way only. -/
theorem clear_line {D : Decls W} (hD : IdsOk D) (items : List Item) (tail : Option (List Str)) (h : LineOk D items tail) :
    Clear D (renderLine items tail) := by
  obtain ⟨h1, h2⟩ := before_line hD items h.itemsOk tail
  have find : ∀ id : Id, OptId D id → ∀ a ∈ before (renderLine items tail), id.hits a = true → ∃ it ∈ items, id.used it = true := by
    intro id hid a ha hh
    rw [h1] at ha
    obtain ⟨it, hit, ha⟩ := List.mem_flatMap.1 ha
    refine ⟨it, hit, ?_⟩
    cases hu : id.used it with
    | true => rfl
    | false =>
      rw [render_no_hit hD hid ((h.itemsOk it hit).loose hD) hu a ha] at hh
      cases hh
  refine ⟨by rw [h1]; exact clearFront_items hD items h.itemsOk, ?_, ?_⟩
  · rintro d hd hl ⟨⟨h3, a, ha, t, rfl⟩, h4, b, hb, hb'⟩
    refine h.listsUniform d hd hl ⟨?_, ?_⟩
    · obtain ⟨it, hit, hu⟩ := find (.short d.short) ⟨h3, d, hd, rfl⟩ _ ha ((Id.hits_short_iff _ _).2 ⟨t, rfl⟩)
      cases it with
      | short c form v => simp [Id.used] at hu; subst hu; exact ⟨form, v, hit⟩
      | _ => simp [Id.used] at hu
    · obtain ⟨it, hit, hu⟩ := find (.long d.long) ⟨h4, d, hd, rfl⟩ _ hb ((Id.hits_long_iff _ _).2 (by
        rcases hb' with rfl | ⟨t, rfl⟩
        · exact Or.inl rfl
        · exact Or.inr ⟨t, by simp⟩))
      cases it with
      | long s sep v => simp [Id.used] at hu; subst hu; exact ⟨sep, v, hit⟩
      | _ => simp [Id.used] at hu
  · rw [h2]
    intro w hw
    cases tail with
    | none => simp at hw
    | some ws => exact h.tailOk ws rfl w hw

/-- The first item of a line. -/
def readItem (D : Decls W) : List Str → Option (Item × List Str)
  | ('-' :: '-' :: s) :: l =>
    match s.dropWhile (· ≠ '=') with
    | _ :: v => some (.long (s.takeWhile (· ≠ '=')) false v, l)
    | [] =>
      if s ∈ D.options.map (·.long) then
        match l with
        | [] => none
        | v :: l => some (.long s true v, l)
      else some (.longFlag s, l)
  | ('-' :: c :: t) :: l =>
    if c ∈ D.options.map (·.short) then
      match t with
      | [] =>
        match l with
        | [] => none
        | v :: l => some (.short c .separate v, l)
      | '=' :: v => some (.short c .equals v, l)
      | t => some (.short c .attached t, l)
    else some (.flags (c :: t), l)
  | a :: l => some (.word a, l)
  | [] => none

theorem takeWhile_eq_sign {s : Str} (h : '=' ∉ s) (v : Str) :
    (s ++ v).takeWhile (· ≠ '=') = s ++ v.takeWhile (· ≠ '=') ∧ (s ++ v).dropWhile (· ≠ '=') = v.dropWhile (· ≠ '=') := by
  induction s with
  | nil => exact ⟨rfl, rfl⟩
  | cons c s ih =>
    have hc : c ≠ '=' := fun e => h (by rw [e]; simp)
    obtain ⟨h1, h2⟩ := ih (fun e => h (List.mem_cons_of_mem _ e))
    simp only [List.cons_append, List.takeWhile_cons, List.dropWhile_cons, decide_eq_true hc, if_true]
    exact ⟨by rw [h1], h2⟩

theorem readItem_short {D : Decls W} {c : Char} (hc : c ≠ '-') (t : Str) (l : List Str) : readItem D (('-' :: c :: t) :: l) =
    if c ∈ D.options.map (·.short) then
      match t with
      | [] =>
        match l with
        | [] => none
        | v :: l => some (.short c .separate v, l)
      | '=' :: v => some (.short c .equals v, l)
      | t => some (.short c .attached t, l)
    else some (.flags (c :: t), l) := by
  unfold readItem
  split
  · next h => simp at h; exact absurd h.1.1 hc
  · next h => simp at h; obtain ⟨⟨rfl, rfl⟩, rfl⟩ := h; rfl
  · next h1 h2 h3 => cases h3; exact (h2 c t rfl).elim
  · next h => simp at h

theorem readItem_long {D : Decls W} (s : Str) (l : List Str) : readItem D (('-' :: '-' :: s) :: l) =
    match s.dropWhile (· ≠ '=') with
    | _ :: v => some (.long (s.takeWhile (· ≠ '=')) false v, l)
    | [] =>
      if s ∈ D.options.map (·.long) then
        match l with
        | [] => none
        | v :: l => some (.long s true v, l)
      else some (.longFlag s, l) := rfl

theorem readItem_render {D : Decls W} (hD : IdsOk D) (it : Item) (h : it.Ok D) (r : List Str) :
    readItem D (it.render ++ r) = some (it, r) := by
  cases it with
  | short c form v =>
    obtain ⟨h0, ⟨d, hd, rfl⟩, hf⟩ := h
    have hc := (hD.shortChars _ (mem_shortIds_option hd h0)).2
    have hm : d.short ∈ D.options.map (·.short) := List.mem_map.2 ⟨d, hd, rfl⟩
    cases form with
    | attached =>
      cases v with
      | nil => exact absurd rfl hf.1
      | cons x v =>
        have hx : x ≠ '=' := fun e => hf.2 (by rw [e]; rfl)
        refine (readItem_short hc (x :: v) r).trans ?_
        rw [if_pos hm]
        split
        · next h => cases h
        · next h => cases h; exact absurd rfl hx
        · rfl
    | equals => exact (readItem_short hc ('=' :: v) r).trans (if_pos hm)
    | separate => exact (readItem_short hc [] (v :: r)).trans (if_pos hm)
  | long s sep v =>
    obtain ⟨h0, ⟨d, hd, rfl⟩, hf⟩ := h
    have hm : d.long ∈ D.options.map (·.long) := List.mem_map.2 ⟨d, hd, rfl⟩
    have he := hD.no_eq_option hd
    cases sep with
    | true =>
      show readItem D (('-' :: '-' :: d.long) :: v :: r) = _
      rw [readItem_long]
      have := (takeWhile_eq_sign he []).2
      rw [List.append_nil] at this
      rw [this]
      exact if_pos hm
    | false =>
      show readItem D (('-' :: '-' :: (d.long ++ '=' :: v)) :: r) = _
      rw [readItem_long]
      rw [(takeWhile_eq_sign he ('=' :: v)).1, (takeWhile_eq_sign he ('=' :: v)).2]
      simp
  | flags cs =>
    cases cs with
    | nil => exact absurd rfl h.1
    | cons c t =>
      obtain ⟨h0, f, hf, rfl⟩ := h.2 c List.mem_cons_self
      refine (readItem_short (hD.shortChars _ (mem_shortIds_flag hf h0)).2 t r).trans (if_neg fun hm => ?_)
      obtain ⟨d, hd, e⟩ := List.mem_map.1 hm
      exact hD.option_ne_flag_short hd hf (by rw [e]; exact h0) e
  | longFlag s =>
    obtain ⟨h0, f, hf, rfl⟩ := h
    show readItem D (('-' :: '-' :: f.long) :: r) = _
    rw [readItem_long]
    have := (takeWhile_eq_sign (hD.no_eq_flag hf) []).2
    rw [List.append_nil] at this
    rw [this]
    refine if_neg fun hm => ?_
    obtain ⟨d, hd, e⟩ := List.mem_map.1 hm
    exact hD.option_ne_flag_long hd hf (by rw [e]; exact h0) e
  | word w =>
    show readItem D (w :: r) = _
    unfold readItem
    split
    · next h' => cases h'; rcases h.2 with e | e <;> simp at e
    · next h' => cases h'; rcases h.2 with e | e <;> simp at e
    · next h' => cases h'; rfl
    · next h' => cases h'

theorem render_ne_nil (it : Item) : it.render ≠ [] := by
  cases it with
  | short c form v => cases form <;> simp [Item.render]
  | long s sep v => cases sep <;> simp [Item.render]
  | _ => simp [Item.render]

theorem items_unique {D : Decls W} (hD : IdsOk D) : ∀ (a b : List Item), (∀ it ∈ a, it.Ok D) → (∀ it ∈ b, it.Ok D) →
    a.flatMap Item.render = b.flatMap Item.render → a = b := by
  intro a
  induction a with
  | nil =>
    intro b _ _ h
    cases b with
    | nil => rfl
    | cons it b =>
      simp only [List.flatMap_nil, List.flatMap_cons] at h
      exact absurd (List.append_eq_nil_iff.1 h.symm).1 (render_ne_nil it)
  | cons it a ih =>
    intro b ha hb h
    cases b with
    | nil =>
      simp only [List.flatMap_nil, List.flatMap_cons] at h
      exact absurd (List.append_eq_nil_iff.1 h).1 (render_ne_nil it)
    | cons it' b =>
      rw [List.flatMap_cons, List.flatMap_cons] at h
      have h1 := readItem_render hD it (ha it List.mem_cons_self) (a.flatMap Item.render)
      rw [h, readItem_render hD it' (hb it' List.mem_cons_self)] at h1
      simp only [Option.some.injEq, Prod.mk.injEq] at h1
      rw [h1.1, ih b (fun i hi => ha i (List.mem_cons_of_mem _ hi)) (fun i hi => hb i (List.mem_cons_of_mem _ hi)) h1.2.symm]

/-! ## C81 -/

/-- C81: a line has one reading only: the items and the words behind `--` are determined by the arguments. -/
theorem C81_one_reading {D : Decls W} (hD : IdsOk D) (items items' : List Item) (tail tail' : Option (List Str))
    (h : ∀ it ∈ items, it.Ok D) (h' : ∀ it ∈ items', it.Ok D) (he : renderLine items tail = renderLine items' tail') :
    items = items' ∧ tail = tail' := by
  obtain ⟨h1, h2⟩ := split_line hD items h tail
  obtain ⟨h3, h4⟩ := split_line hD items' h' tail'
  rw [he] at h1 h2
  refine ⟨items_unique hD items items' h h' (h1.symm.trans h3), ?_⟩
  have := h2.symm.trans h4
  cases tail <;> cases tail' <;> simp [tailCells] at this ⊢ <;> exact this

/-- C81: the arguments that are parsed successfully are a well-formed line, provided that they can be read in one way
only; what happened is the meaning of that line (in release builds elements of lists that are out of range are excluded,
see C31). -/
theorem C81_only_well_formed_lines_partial (env : Env W) (g g' : Prog W) (hg : Reachable env g) (h : parse env g = (.returned, g'))
    (hc : Clear (decls g) g'.parser.formatArguments) :
    ∃ items tail, g'.parser.formatArguments = renderLine items tail ∧ LineOk (decls g) items tail ∧
      (env.ndebug = false ∨ ListsRepresentable (decls g) items tail →
        ∃ w₁, LineMeans (decls g) items tail g.store w₁ g'.store g'.world) := by
  obtain ⟨-, hD, w₁, s, hf, h1, h2⟩ := reachable_returned hg h
  obtain ⟨items, tail, ha, hok⟩ := line_of_formatParse hD env.ndebug _ g.store w₁ s hc hf
  refine ⟨items, tail, ha, hok, fun hnd => ⟨w₁, ?_⟩⟩
  rw [ha] at hf
  rw [h1, h2]
  exact means_of_formatParse env.ndebug hD items tail hok g.store w₁ s () hnd hf

/-- C81: exactly the well-formed lines with a meaning are accepted. For a parser without subcommands, any arguments that
are not requests, and debug builds (see C31): the arguments can be read in one way only and `parse()` returns, leaving
the variables `st'` and the world `w'`, if and only if the arguments are a well-formed line whose meaning is `st'`, `w'`. -/
theorem C81_accepted_exactly (env : Env W) (g : Prog W) (hg : Reachable env g) (args : List Str) (hl : RawGiven g args)
    (hnd : env.ndebug = false) (w₁ : W) (hv : CheckPasses env g w₁) (st' : Store) (w' : W) :
    (Clear (decls g) args ∧ ∃ g', parse env g = (.returned, g') ∧ g'.store = st' ∧ g'.world = w') ↔
    ∃ items tail, args = renderLine items tail ∧ LineOk (decls g) items tail ∧
      LineMeans (decls g) items tail g.store w₁ st' w' := by
  have hD := idsOk_reachable hg
  obtain ⟨exe, _, hp⟩ := parse_unrequested_core (ready_of hl.notParsed hl.cleanName hl.noSubcommands) hl.arguments
    hl.noSubcommands hl.notEmpty (Unrequested.of_not_reserved g.parser.options _ args (Nat.le_refl _) hl.notReserved) hv
  constructor
  · rintro ⟨hc, g', h, rfl, rfl⟩
    rw [h] at hp
    cases hf : formatParse env.ndebug (decls g) args g.store w₁ with
    | err e s => rw [hf] at hp; simp [outcomeOf, Res.core] at hp
    | ok u s =>
      rw [hf] at hp
      simp only [outcomeOf, Res.core, Prod.mk.injEq, true_and] at hp
      obtain ⟨items, tail, rfl, hok⟩ := line_of_formatParse hD env.ndebug args g.store w₁ s hc hf
      subst hp
      exact ⟨items, tail, rfl, hok, means_of_formatParse env.ndebug hD items tail hok g.store w₁ s u (Or.inl hnd) hf⟩
  · rintro ⟨items, tail, rfl, hok, hm⟩
    refine ⟨clear_line hD items tail hok, ?_⟩
    obtain ⟨s, hs, h1, h2⟩ := formatParse_of_means env.ndebug hD items tail hok g.store w₁ st' w' hm
    rw [hs] at hp
    exact ⟨_, hp, h1, h2⟩

/-! ### Examples and counterexamples -/

theorem exLine_clear : Clear (decls exLine) (renderLine exItems exTail) :=
  clear_line (idsOk_reachable (exRun_reachable _ _)) exItems exTail exLine_ok

def exLineEnd : Prog Unit := (parse exEnv exLine).2

theorem exLine_returned : parse exEnv exLine = (.returned, exLineEnd) :=
  returned_pair (beq_iff_eq.1 (by decide +kernel : ((parse exEnv exLine).1 == .returned) = true))

example : ∃ items tail, exLineEnd.parser.formatArguments = renderLine items tail ∧ LineOk (decls exLine) items tail ∧
    (exEnv.ndebug = false ∨ ListsRepresentable (decls exLine) items tail →
      ∃ w₁, LineMeans (decls exLine) items tail exLine.store w₁ exLineEnd.store exLineEnd.world) := by
  have hf : exLineEnd.parser.formatArguments = renderLine exItems exTail := by decide +kernel
  refine C81_only_well_formed_lines_partial exEnv exLine exLineEnd (exRun_reachable _ _) exLine_returned ?_
  rw [hf]
  exact exLine_clear

theorem exLine_raw : RawGiven exLine (renderLine exItems exTail) where
  notParsed := exLine_given.notParsed
  cleanName := exLine_given.cleanName
  noSubcommands := exLine_given.noSubcommands
  arguments := exLine_given.arguments
  notEmpty := exLine_given.notEmpty
  notReserved := by
    have h : (renderLine exItems exTail).all (fun a => !(a ∈ ["-h".toList, "--help".toList, "-hh".toList, "--advanced-help".toList,
      "--version".toList, "--copyright".toList, "--export-help".toList, "--version-check".toList] : Bool) &&
      !"--export-help=".toList.isPrefixOf a) = true := by decide +kernel
    intro a ha
    have := List.all_eq_true.1 h a ha
    rw [Bool.and_eq_true, Bool.not_eq_true', Bool.not_eq_true'] at this
    rintro (h1 | ⟨v, rfl⟩)
    · exact of_decide_eq_false this.1 h1
    · rw [List.isPrefixOf_iff_prefix.2 (List.prefix_append _ _)] at this
      cases this.2

example : ∃ items tail, renderLine exItems exTail = renderLine items tail ∧ LineOk (decls exLine) items tail ∧
    LineMeans (decls exLine) items tail exLine.store () exLineEnd.store () :=
  (C81_accepted_exactly exEnv exLine (exRun_reachable _ _) _ exLine_raw rfl () rfl exLineEnd.store ()).1
    ⟨exLine_clear, exLineEnd, exLine_returned, rfl, Subsingleton.elim _ _⟩

theorem malformed_of_front {args : List String} {front : List Str} (hb : before (args.map String.toList) = front)
    (hf : ¬ ClearFront (decls (exProg args)) front) (items : List Item) (tail : Option (List Str))
    (hl : LineOk (decls (exProg args)) items tail) : args.map String.toList ≠ renderLine items tail := by
  intro he
  have hc := (clear_line (idsOk_reachable (exProg_reachable args)) items tail hl).front
  rw [← he, hb] at hc
  exact hf hc

/-- C81 fails: lines are accepted that are not well-formed: an empty argument, ... -/
theorem C81_empty_argument_accepted : exReturns ["", "x"] [] = true ∧
    ∀ items tail, LineOk (decls (exProg ["", "x"])) items tail → ["", "x"].map String.toList ≠ renderLine items tail := by
  refine ⟨by decide +kernel, malformed_of_front (front := [[], "x".toList]) (by decide +kernel) fun h => ?_⟩
  exact (clearFront_lone h (by decide +kernel)).1.1 rfl

/-- ... a long flag inside of a group of short flags, ... -/
theorem C81_dashed_group_accepted : exReturns ["-v-loud", "x"] [] = true ∧
    ∀ items tail, LineOk (decls (exProg ["-v-loud", "x"])) items tail →
      ["-v-loud", "x"].map String.toList ≠ renderLine items tail := by
  refine ⟨by decide +kernel, malformed_of_front (front := ['-' :: 'v' :: "-loud".toList, "x".toList]) (by decide +kernel) fun h => ?_⟩
  obtain ⟨-, d, hd, e⟩ := (clearFront_lone h (by decide +kernel)).1.2 'v' "-loud".toList rfl (by decide) (Or.inl (by decide))
  have : ((decls (exProg ["-v-loud", "x"])).options.all fun d => d.short != 'v') = true := by decide +kernel
  have := List.all_eq_true.1 this d hd
  rw [e] at this
  cases this

/-- ... and an option without value. -/
theorem C81_missing_value_accepted : exReturns ["--list", "-s", "x", "y"] [] = true ∧
    ∀ items tail, LineOk (decls (exProg ["--list", "-s", "x", "y"])) items tail →
      ["--list", "-s", "x", "y"].map String.toList ≠ renderLine items tail := by
  refine ⟨by decide +kernel, malformed_of_front (front := ["--list".toList, ['-', 's'], "x".toList, "y".toList]) (by decide +kernel)
    fun h => ?_⟩
  refine (clearFront_bare h (by decide +kernel)).1 ?_
  have : ((decls (exProg ["--list", "-s", "x", "y"])).options.any fun d => d.short == 's') = true := by decide +kernel
  obtain ⟨d, hd, e⟩ := List.any_eq_true.1 this
  have e := beq_iff_eq.1 e
  exact ⟨d, hd, Or.inl ⟨by rw [e]; decide, [], by rw [e]⟩⟩

end Sharg
