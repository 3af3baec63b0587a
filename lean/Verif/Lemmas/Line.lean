import Verif.Lemmas.Abstract

/-!
# Lines in which option values are written unambiguously

The whole outcome, exceptions included, is determined by the values given to each option, the other arguments, and
the part behind `--`.
-/

set_option linter.unusedSimpArgs false

namespace Sharg

open Spec

variable {W : Type}

theorem loose_ne_endMarker {D : Decls W} (hD : IdsOk D) (it : Item) (hit : it.Loose D) :
    ∀ a ∈ it.render, a ≠ endMarker := by
  intro a ha
  cases it with
  | short c form v => exact render_ne_endMarker hD (.short c form v) (by exact hit) a ha
  | long s sep v => exact render_ne_endMarker hD (.long s sep v) (by exact hit) a ha
  | flags cs => simp [Item.render] at ha; subst ha; exact hit.2
  | longFlag s => simp [Item.render] at ha; subst ha; exact hit.2
  | word w => simp [Item.render] at ha; subst ha; exact hit.2

theorem split_loose {D : Decls W} (hD : IdsOk D) (items : List Item) (hit : ∀ it ∈ items, it.Loose D)
    (tail : Option (List Str)) :
    (renderLine items tail).takeWhile (fun a => a ≠ endMarker) = items.flatMap Item.render ∧
    (renderLine items tail).dropWhile (fun a => a ≠ endMarker) = tailCells tail := by
  have hall : ∀ a ∈ items.flatMap Item.render, decide (a ≠ endMarker) = true := by
    intro a ha
    obtain ⟨it, hi, ha⟩ := List.mem_flatMap.1 ha
    simpa using loose_ne_endMarker hD it (hit it hi) a ha
  unfold renderLine
  rw [List.takeWhile_append_of_pos hall, List.dropWhile_append_of_pos hall]
  cases tail with
  | none => simp [tailCells]
  | some ws => simp [tailCells, endMarker, List.takeWhile_cons, List.dropWhile_cons]

/-- Values given with the short identifier. -/
def shortValues (d : OptDecl W) (items : List Item) : List Str := items.filterMap (Id.short d.short).valueIn

/-- Values given with the long identifier. -/
def longValues (d : OptDecl W) (items : List Item) : List Str := items.filterMap (Id.long d.long).valueIn

/-- The arguments of an item that is not an option. -/
def Spec.Item.other : Item → List Str
  | .short _ _ _ => []
  | .long _ _ _ => []
  | it => it.render.filter (· ≠ [])

/-- All that is not an option. -/
def others (items : List Item) : List Str := items.flatMap Item.other

theorem loose_used {D : Decls W} {it : Item} (hit : it.Loose D) :
    remaining (itemCells (doneBy D.options it) it) = it.other := by
  unfold remaining
  cases it with
  | short c form v =>
    obtain ⟨_, ⟨d, hd, rfl⟩, _⟩ := hit
    have : doneBy D.options (.short d.short form v) = true := by
      unfold doneBy; rw [List.any_eq_true]; exact ⟨d, hd, by simp [usedBy, Id.used]⟩
    rw [this]
    cases form <;> simp [itemCells, Item.render, Item.other]
  | long s sep v =>
    obtain ⟨_, ⟨d, hd, rfl⟩, _⟩ := hit
    have : doneBy D.options (.long d.long sep v) = true := by
      unfold doneBy; rw [List.any_eq_true]; exact ⟨d, hd, by simp [usedBy, Id.used]⟩
    rw [this]
    cases sep <;> simp [itemCells, Item.render, Item.other]
  | flags cs =>
    have : doneBy D.options (.flags cs) = false := by simp [doneBy, usedBy, Id.used]
    rw [this]; rfl
  | longFlag s =>
    have : doneBy D.options (.longFlag s) = false := by simp [doneBy, usedBy, Id.used]
    rw [this]; rfl
  | word w =>
    have : doneBy D.options (.word w) = false := by simp [doneBy, usedBy, Id.used]
    rw [this]; rfl

theorem remaining_stage {D : Decls W} (items : List Item) (hit : ∀ it ∈ items, it.Loose D) :
    remaining (stage (doneBy D.options) items) = others items := by
  induction items with
  | nil => rfl
  | cons it items ih =>
    simp only [stage, others, List.flatMap_cons] at ih ⊢
    rw [remaining_append, ih (fun i hi => hit i (by simp [hi])), loose_used (hit it (by simp))]

/-- The option phase. -/
def absOptions (nd : Bool) (items : List Item) (ds : List (OptDecl W)) : M (Core W) Unit :=
  M.forEach (fun d => absOption nd d (shortValues d items) (longValues d items)) ds

theorem getOption_loose {D : Decls W} (hD : IdsOk D) (items : List Item) (hit : ∀ it ∈ items, it.Loose D)
    {proc rest : List (OptDecl W)} {d : OptDecl W} (hsplit : D.options = proc ++ d :: rest) :
    ∃ l1, consumeId (.short d.short) (stage (doneBy proc) items) = some (shortValues d items, l1) ∧
      consumeId (.long d.long) l1 = some (longValues d items, stage (doneBy (proc ++ [d])) items) := by
  have hd : d ∈ D.options := by rw [hsplit]; simp
  have h1 := consumeId_stage hD (optId_short hd) (doneBy proc) items hit
    (fun it hi hu => not_done_yet hD hsplit (hit it hi) (by simp [usedBy, hu]))
  refine ⟨_, h1, ?_⟩
  have h2 := consumeId_stage hD (optId_long hd) (fun it => doneBy proc it || (Id.short d.short).used it) items hit
    (fun it hi hu => by
      rw [not_done_yet hD hsplit (hit it hi) (by simp [usedBy, hu])]
      cases it <;> simp_all [Id.used])
  rw [h2]
  simp only [longValues, Option.some.injEq, Prod.mk.injEq, true_and]
  apply stage_congr
  intro it _
  simp [doneBy, usedBy, Bool.or_assoc]

theorem options_core {D : Decls W} (hD : IdsOk D) (items : List Item) (hit : ∀ it ∈ items, it.Loose D) (nd : Bool)
    (rest : List (OptDecl W)) :
    ∀ (proc : List (OptDecl W)) (s : FState W), D.options = proc ++ rest → s.pre = stage (doneBy proc) items →
      (M.forEach (getOption nd) rest s).core = absOptions nd items rest s.core ∧
      ∀ u s', M.forEach (getOption nd) rest s = .ok u s' →
        s'.pre = stage (doneBy D.options) items ∧ s'.post = s.post := by
  induction rest with
  | nil =>
    intro proc s hsplit hs
    refine ⟨rfl, fun u s' h => ?_⟩
    cases h
    simp at hsplit
    exact ⟨by rw [hs, hsplit], rfl⟩
  | cons d rest ih =>
    intro proc s hsplit hs
    obtain ⟨l1, h1, h2⟩ := getOption_loose hD items hit hsplit
    obtain ⟨h3, h4⟩ := getOption_core nd d s _ _ _ _ (by rw [hs]; exact h1) h2
    constructor
    · rw [M.forEach_cons]
      unfold absOptions
      rw [M.forEach_cons]
      exact core_bind _ _ _ _ _ h3 (fun u s1 hs1 =>
        (ih (proc ++ [d]) s1 (by simp [hsplit]) (h4 u s1 hs1).1).1)
    · intro u s' h
      rw [M.forEach_cons, M.bind_eq_ok] at h
      obtain ⟨u1, s1, hs1, h5⟩ := h
      obtain ⟨h6, h7⟩ := (ih (proc ++ [d]) s1 (by simp [hsplit]) (h4 u1 s1 hs1).1).2 u s' h5
      exact ⟨h6, h7.trans (h4 u1 s1 hs1).2⟩

/-- What the phases behind the options do. -/
def absRest (nd : Bool) (D : Decls W) (args post : List Str) : M (Core W) Unit :=
  fun c => (parseRest nd D ⟨args, post, c.1, c.2⟩).core

/-- The outcome for a line. -/
theorem formatParse_core {D : Decls W} (hD : IdsOk D) (items : List Item) (hit : ∀ it ∈ items, it.Loose D)
    (tail : Option (List Str)) (nd : Bool) (st : Store) (w : W) :
    (formatParse nd D (renderLine items tail) st w).core =
      M.bind (absOptions nd items D.options) (fun _ => absRest nd D (others items) (tailCells tail)) (st, w) := by
  obtain ⟨hs1, hs2⟩ := split_loose hD items hit tail
  unfold formatParse
  rw [hs1, hs2, parseBody_eq]
  obtain ⟨h1, h2⟩ := options_core hD items hit nd D.options []
    { pre := items.flatMap Item.render, post := tailCells tail, store := st, world := w } rfl (stage_none items).symm
  refine core_bind _ _ _ _ _ h1 (fun u s' hs' => ?_)
  obtain ⟨h3, h4⟩ := h2 u s' hs'
  exact parseRest_alike nd D s' _ ⟨by rw [h3, ← remaining_stage items hit]; simp [remaining], h4, rfl, rfl⟩

end Sharg
