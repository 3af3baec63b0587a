import Verif.Spec.Progress
import Verif.Props.Ends

/-!
# Correcting one mistake after the other: C102
-/

namespace Sharg

open Spec

variable {W : Type}

/-! ### Stages -/

theorem stagesEnd_append (ss ss' : List (Stage W)) : ∀ (st : Store) (w : W) (st' : Store) (w' : W) (r : Option Exn),
    StagesEnd (ss ++ ss') st w st' w' r ↔
      (∃ e, r = some e ∧ StagesEnd ss st w st' w' r) ∨ ∃ st₁ w₁, StagesEnd ss st w st₁ w₁ none ∧ StagesEnd ss' st₁ w₁ st' w' r := by
  induction ss with
  | nil =>
    intro st w st' w' r
    constructor
    · intro h; exact Or.inr ⟨st, w, ⟨rfl, rfl, rfl⟩, h⟩
    · rintro (⟨e, rfl, -, -, h⟩ | ⟨st₁, w₁, ⟨rfl, rfl, -⟩, h⟩)
      · cases h
      · exact h
  | cons s ss ih =>
    intro st w st' w' r
    constructor
    · rintro ⟨st₁, w₁, r₁, h1, h2⟩
      cases r₁ with
      | some e => exact Or.inl ⟨e, h2.2.2, st₁, w₁, some e, h1, h2⟩
      | none =>
        rcases (ih _ _ _ _ _).1 h2 with ⟨e, he, h3⟩ | ⟨st₂, w₂, h3, h4⟩
        · exact Or.inl ⟨e, he, st₁, w₁, none, h1, h3⟩
        · exact Or.inr ⟨st₂, w₂, ⟨st₁, w₁, none, h1, h3⟩, h4⟩
    · rintro (⟨e, he, st₁, w₁, r₁, h1, h2⟩ | ⟨st₂, w₂, ⟨st₁, w₁, r₁, h1, h2⟩, h3⟩)
      · cases r₁ with
        | some e' => exact ⟨st₁, w₁, some e', h1, h2⟩
        | none => exact ⟨st₁, w₁, none, h1, (ih _ _ _ _ _).2 (Or.inl ⟨e, he, h2⟩)⟩
      · cases r₁ with
        | some e' => cases h2.2.2
        | none => exact ⟨st₁, w₁, none, h1, (ih _ _ _ _ _).2 (Or.inr ⟨st₂, w₂, h2, h3⟩)⟩

theorem optionsEnd_stages (nd : Bool) (items : List Item) (ds : List (OptDecl W)) : ∀ (st : Store) (w : W) (st' : Store) (w' : W) (r : Option Exn),
    OptionsEnd nd items ds st w st' w' r ↔ StagesEnd (ds.map fun d => OptionEnds nd items d) st w st' w' r := by
  induction ds with
  | nil => intros; rfl
  | cons d ds ih =>
    intro st w st' w' r
    constructor
    · rintro ⟨st₁, w₁, r₁, h1, h2⟩
      refine ⟨st₁, w₁, r₁, h1, ?_⟩
      cases r₁ with
      | some e => exact h2
      | none => exact (ih _ _ _ _ _).1 h2
    · rintro ⟨st₁, w₁, r₁, h1, h2⟩
      refine ⟨st₁, w₁, r₁, h1, ?_⟩
      cases r₁ with
      | some e => exact h2
      | none => exact (ih _ _ _ _ _).2 h2

theorem stagesEnd_one (s : Stage W) (st : Store) (w : W) (st' : Store) (w' : W) (r : Option Exn) : StagesEnd [s] st w st' w' r ↔ s st w st' w' r := by
  constructor
  · rintro ⟨st₁, w₁, r₁, h1, h2⟩
    cases r₁ with
    | some e => obtain ⟨rfl, rfl, rfl⟩ := h2; exact h1
    | none => obtain ⟨rfl, rfl, rfl⟩ := h2; exact h1
  · intro h
    refine ⟨st', w', r, h, ?_⟩
    cases r with
    | some e => exact ⟨rfl, rfl, rfl⟩
    | none => exact ⟨rfl, rfl, rfl⟩

theorem positionalsEnd_stages (nd : Bool) (ds : List (PosDecl W)) : ∀ (ws : List Str) (st : Store) (w : W) (st' : Store) (w' : W) (r : Option Exn),
    PositionalsEnd nd ds ws st w st' w' r ↔ StagesEnd (positionalStages nd ds ws) st w st' w' r := by
  induction ds with
  | nil =>
    intro ws st w st' w' r
    show _ ↔ StagesEnd [leftOverStage ws] st w st' w' r
    rw [stagesEnd_one]
    cases ws with
    | nil => exact Iff.rfl
    | cons t ts =>
      show st' = st ∧ w' = w ∧ r = _ ↔ st' = st ∧ w' = w ∧ r = _
      rw [if_neg (by simp)]
  | cons d ds ih =>
    intro ws st w st' w' r
    show _ ↔ StagesEnd (positionalStage nd d ws :: if d.isList then [] else positionalStages nd ds ws.tail) st w st' w' r
    cases ws with
    | nil =>
      show st' = st ∧ w' = w ∧ r = _ ↔ _
      constructor
      · rintro ⟨rfl, rfl, rfl⟩
        exact ⟨_, _, _, ⟨rfl, rfl, rfl⟩, rfl, rfl, rfl⟩
      · rintro ⟨st₁, w₁, r₁, ⟨rfl, rfl, rfl⟩, h⟩
        exact h
    | cons t ts =>
      by_cases hl : d.isList = true
      · rw [if_pos hl, stagesEnd_one]
        unfold PositionalsEnd positionalStage
        dsimp only
        rw [if_pos hl, if_pos hl]
      · rw [if_neg hl]
        unfold PositionalsEnd
        rw [if_neg hl]
        constructor
        · rintro ⟨st₁, r₁, st₂, w₂, r₂, h1, h2, h3⟩
          refine ⟨st₂, w₂, r₂, ?_, ?_⟩
          · unfold positionalStage
            dsimp only
            rw [if_neg hl]
            exact ⟨st₁, r₁, h1, h2⟩
          · cases r₂ with
            | some e => exact h3
            | none => exact (ih _ _ _ _ _ _).1 h3
        · rintro ⟨st₂, w₂, r₂, h1, h3⟩
          unfold positionalStage at h1
          dsimp only at h1
          rw [if_neg hl] at h1
          obtain ⟨st₁, r₁, h1, h2⟩ := h1
          refine ⟨st₁, r₁, st₂, w₂, r₂, h1, h2, ?_⟩
          cases r₂ with
          | some e => exact h3
          | none => exact (ih _ _ _ _ _ _).2 h3

theorem lineEnds_stages (nd : Bool) (D : Decls W) (items : List Item) (tail : Option (List Str)) (st : Store) (w : W) (st' : Store) (w' : W)
    (r : Option Exn) : LineEnds nd D items tail st w st' w' r ↔ StagesEnd (lineStages nd D items tail) st w st' w' r := by
  unfold lineStages
  rw [stagesEnd_append]
  unfold LineEnds
  constructor
  · rintro ⟨st₁, w₁, r₁, h1, h2⟩
    rw [optionsEnd_stages] at h1
    cases r₁ with
    | some e =>
      obtain ⟨rfl, rfl, rfl⟩ := h2
      exact Or.inl ⟨e, rfl, h1⟩
    | none =>
      refine Or.inr ⟨st₁, w₁, h1, ?_⟩
      rcases h2 with ⟨hs, rfl, rfl, rfl⟩ | ⟨hs, h3⟩
      · exact ⟨_, _, _, ⟨rfl, rfl, Or.inl ⟨hs, rfl⟩⟩, rfl, rfl, rfl⟩
      · exact ⟨_, _, none, ⟨rfl, rfl, Or.inr ⟨hs, rfl⟩⟩, (positionalsEnd_stages nd _ _ _ _ _ _ _).1 h3⟩
  · rintro (⟨e, rfl, h⟩ | ⟨st₁, w₁, h1, st₂, w₂, r₂, ⟨rfl, rfl, h2⟩, h3⟩)
    · exact ⟨st', w', some e, (optionsEnd_stages nd _ _ _ _ _ _ _).2 h, rfl, rfl, rfl⟩
    · refine ⟨st₁, w₂, none, (optionsEnd_stages nd _ _ _ _ _ _ _).2 h1, ?_⟩
      rcases h2 with ⟨hs, rfl⟩ | ⟨hs, rfl⟩
      · obtain ⟨rfl, rfl, rfl⟩ := h3
        exact Or.inl ⟨hs, rfl, rfl, rfl⟩
      · exact Or.inr ⟨hs, (positionalsEnd_stages nd _ _ _ _ _ _ _).2 h3⟩

theorem stagesEnd_failsAt (ss : List (Stage W)) : ∀ (st : Store) (w : W) (st' : Store) (w' : W) (e : Exn), StagesEnd ss st w st' w' (some e) →
    ∃ k, k < ss.length ∧ FailsAt ss st w k e := by
  induction ss with
  | nil => rintro st w st' w' e ⟨-, -, h⟩; cases h
  | cons s ss ih =>
    rintro st w st' w' e ⟨st₁, w₁, r₁, h1, h2⟩
    cases r₁ with
    | some e' =>
      obtain ⟨rfl, rfl, h2⟩ := h2
      cases h2
      exact ⟨0, by simp, s, st, w, _, _, ⟨rfl, rfl, rfl⟩, rfl, h1⟩
    | none =>
      obtain ⟨k, hk, s', st₂, w₂, st₃, w₃, h3, h4, h5⟩ := ih _ _ _ _ _ h2
      exact ⟨k + 1, by simpa using hk, s', st₂, w₂, st₃, w₃, ⟨st₁, w₁, none, h1, h3⟩, h4, h5⟩

theorem failsAt_end {ss : List (Stage W)} {st : Store} {w : W} {k : Nat} {e : Exn} (h : FailsAt ss st w k e) :
    k < ss.length ∧ ∃ st' w', StagesEnd ss st w st' w' (some e) := by
  obtain ⟨s, st₁, w₁, st₂, w₂, h1, h2, h3⟩ := h
  obtain ⟨hk, rfl⟩ := List.getElem?_eq_some_iff.1 h2
  refine ⟨hk, st₂, w₂, ?_⟩
  rw [← List.take_append_drop k ss, stagesEnd_append]
  refine Or.inr ⟨st₁, w₁, h1, ?_⟩
  rw [List.drop_eq_getElem_cons hk]
  exact ⟨st₂, w₂, some e, h3, rfl, rfl, rfl⟩

theorem stagesEnd_prefix {ss : List (Stage W)} {st : Store} {w : W} {st' : Store} {w' : W} (k : Nat) (h : StagesEnd ss st w st' w' none) :
    ∃ st₁ w₁, StagesEnd (ss.take k) st w st₁ w₁ none := by
  rw [← List.take_append_drop k ss, stagesEnd_append] at h
  rcases h with ⟨e, h, -⟩ | ⟨st₁, w₁, h, -⟩
  · cases h
  · exact ⟨st₁, w₁, h⟩

/-- Stages that have one ending only. -/
def Determined (s : Stage W) : Prop := ∀ st w st₁ w₁ r₁ st₂ w₂ r₂, s st w st₁ w₁ r₁ → s st w st₂ w₂ r₂ → st₁ = st₂ ∧ w₁ = w₂ ∧ r₁ = r₂

theorem stagesEnd_determined (ss : List (Stage W)) : (∀ s ∈ ss, Determined s) → Determined (StagesEnd ss) := by
  induction ss with
  | nil =>
    rintro - st w st₁ w₁ r₁ st₂ w₂ r₂ ⟨rfl, rfl, rfl⟩ ⟨rfl, rfl, rfl⟩
    exact ⟨rfl, rfl, rfl⟩
  | cons s ss ih =>
    rintro h st w st₁ w₁ r₁ st₂ w₂ r₂ ⟨st₃, w₃, r₃, h1, h2⟩ ⟨st₄, w₄, r₄, h3, h4⟩
    obtain ⟨rfl, rfl, rfl⟩ := h s (by simp) _ _ _ _ _ _ _ _ h1 h3
    cases r₃ with
    | some e =>
      obtain ⟨rfl, rfl, rfl⟩ := h2
      obtain ⟨rfl, rfl, rfl⟩ := h4
      exact ⟨rfl, rfl, rfl⟩
    | none => exact ih (fun s hs => h s (by simp [hs])) _ _ _ _ _ _ _ _ h2 h4

theorem optionStage_determined (nd : Bool) (items : List Item) (d : OptDecl W) : Determined (OptionEnds nd items d) := by
  intro st w st₁ w₁ r₁ st₂ w₂ r₂ h1 h2
  have h := (optionEnds_run nd items d h1).symm.trans (optionEnds_run nd items d h2)
  rw [endRes_inj] at h
  obtain ⟨rfl, h⟩ := h
  injection h with h3 h4
  exact ⟨h3, h4, rfl⟩

theorem flagsStage_determined (D : Decls W) (items : List Item) : Determined (flagsStage D items) := by
  rintro st w st₁ w₁ r₁ st₂ w₂ r₂ ⟨rfl, rfl, h1⟩ ⟨rfl, rfl, h2⟩
  refine ⟨rfl, rfl, ?_⟩
  rcases h1 with ⟨hs, rfl⟩ | ⟨hs, rfl⟩ <;> rcases h2 with ⟨hs', rfl⟩ | ⟨hs', rfl⟩ <;> first | rfl | exact absurd hs hs' | exact absurd hs' hs

/-- A positional option by itself, as far as it is read. -/
theorem positionalStage_one (nd : Bool) (d : PosDecl W) (ws : List Str) {st st' : Store} {w w' : W} {r : Option Exn}
    (h : positionalStage nd d ws st w st' w' r) : PositionalsEnd nd [d] (if d.isList then ws else ws.take 1) st w st' w' r := by
  rw [positionalsEnd_stages]
  cases ws with
  | nil =>
    obtain ⟨rfl, rfl, rfl⟩ := h
    rw [show (if d.isList = true then ([] : List Str) else [].take 1) = [] by split <;> rfl]
    exact ⟨_, _, _, ⟨rfl, rfl, rfl⟩, rfl, rfl, rfl⟩
  | cons t ts =>
    by_cases hl : d.isList = true
    · rw [if_pos hl]
      show StagesEnd (positionalStage nd d (t :: ts) :: if d.isList then [] else _) _ _ _ _ _
      rw [if_pos hl, stagesEnd_one]
      exact h
    · rw [if_neg hl]
      show StagesEnd (positionalStage nd d [t] :: if d.isList then [] else [leftOverStage []]) _ _ _ _ _
      rw [if_neg hl]
      refine ⟨st', w', r, ?_, ?_⟩
      · unfold positionalStage at h ⊢
        dsimp only at h ⊢
        rw [if_neg hl] at h ⊢
        exact h
      · cases r with
        | some e => exact ⟨rfl, rfl, rfl⟩
        | none => exact (stagesEnd_one _ _ _ _ _ _).2 ⟨rfl, rfl, rfl⟩

theorem positionalStage_determined (nd : Bool) (d : PosDecl W) (ws : List Str) : Determined (positionalStage nd d ws) := by
  intro st w st₁ w₁ r₁ st₂ w₂ r₂ h1 h2
  have h := (positionalsEnd_run nd [d] (by simp) (positionalStage_one nd d ws h1)).symm.trans
    (positionalsEnd_run nd [d] (by simp) (positionalStage_one nd d ws h2))
  rw [endRes_inj] at h
  obtain ⟨rfl, h⟩ := h
  injection h with h3 h4
  exact ⟨h3, h4, rfl⟩

theorem positionalStages_determined (nd : Bool) (ds : List (PosDecl W)) : ∀ ws : List Str, ∀ s ∈ positionalStages nd ds ws, Determined s := by
  induction ds with
  | nil =>
    intro ws s hs
    simp only [positionalStages, List.mem_cons, List.not_mem_nil, or_false] at hs
    subst hs
    rintro st w st₁ w₁ r₁ st₂ w₂ r₂ ⟨rfl, rfl, rfl⟩ ⟨rfl, rfl, rfl⟩
    exact ⟨rfl, rfl, rfl⟩
  | cons d ds ih =>
    intro ws s hs
    unfold positionalStages at hs
    rcases List.mem_cons.1 hs with rfl | hs
    · exact positionalStage_determined nd d ws
    · split at hs
      · cases hs
      · exact ih _ s hs

theorem lineStages_determined (nd : Bool) (D : Decls W) (items : List Item) (tail : Option (List Str)) :
    ∀ s ∈ lineStages nd D items tail, Determined s := by
  intro s hs
  unfold lineStages at hs
  rcases List.mem_append.1 hs with hs | hs
  · obtain ⟨d, -, rfl⟩ := List.mem_map.1 hs
    exact optionStage_determined nd items d
  · rcases List.mem_cons.1 hs with rfl | hs
    · exact flagsStage_determined D items
    · exact positionalStages_determined nd _ _ s hs

theorem positionalStages_length (nd : Bool) (ds : List (PosDecl W)) : ∀ ws ws' : List Str,
    (positionalStages nd ds ws).length = (positionalStages nd ds ws').length ∧ (positionalStages nd ds ws).length ≤ ds.length + 1 := by
  induction ds with
  | nil => intro ws ws'; exact ⟨rfl, Nat.le_refl _⟩
  | cons d ds ih =>
    intro ws ws'
    unfold positionalStages
    by_cases hl : d.isList = true
    · rw [if_pos hl, if_pos hl]
      exact ⟨rfl, by simp⟩
    · rw [if_neg hl, if_neg hl]
      obtain ⟨h1, h2⟩ := ih ws.tail ws'.tail
      simp only [List.length_cons]
      omega

theorem lineStages_length (nd : Bool) (D : Decls W) (l l' : List Item × Option (List Str)) :
    (lineStages nd D l.1 l.2).length = (lineStages nd D l'.1 l'.2).length ∧
      (lineStages nd D l.1 l.2).length ≤ D.options.length + D.positionals.length + 2 := by
  obtain ⟨h1, h2⟩ := positionalStages_length nd D.positionals (Spec.words l.1 l.2) (Spec.words l'.1 l'.2)
  unfold lineStages
  simp only [List.length_append, List.length_map, List.length_cons]
  omega

/-- When the first `k + 1` stages end without exception, there is no failure among them. -/
theorem failsAt_behind {ss : List (Stage W)} (hd : ∀ s ∈ ss, Determined s) {st : Store} {w : W} {st' : Store} {w' : W} {k k' : Nat} {e : Exn}
    (h : StagesEnd (ss.take (k + 1)) st w st' w' none) (hf : FailsAt ss st w k' e) : k < k' := by
  obtain ⟨s, st₁, w₁, st₂, w₂, h1, h2, h3⟩ := hf
  obtain ⟨hk, rfl⟩ := List.getElem?_eq_some_iff.1 h2
  apply Nat.lt_of_not_le
  intro hle
  have h4 : StagesEnd (ss.take (k' + 1)) st w st₂ w₂ (some e) := by
    rw [List.take_succ_eq_append_getElem hk, stagesEnd_append]
    exact Or.inr ⟨st₁, w₁, h1, (stagesEnd_one _ _ _ _ _ _).2 h3⟩
  obtain ⟨st₃, w₃, h5⟩ := stagesEnd_prefix (k' + 1) h
  rw [List.take_take, Nat.min_eq_left (by omega)] at h5
  have h6 := (stagesEnd_determined _ (fun s hs => hd s (List.mem_of_mem_take hs)) _ _ _ _ _ _ _ _ h4 h5).2.2
  cases h6

theorem failsAt_unique {ss : List (Stage W)} (hd : ∀ s ∈ ss, Determined s) {st : Store} {w : W} {k k' : Nat} {e e' : Exn}
    (h : FailsAt ss st w k e) (h' : FailsAt ss st w k' e') : k' = k ∧ e' = e := by
  have key : ∀ {a b : Nat} {x y : Exn}, FailsAt ss st w a x → FailsAt ss st w b y → ¬ a < b := by
    rintro a b x y ha ⟨s, st₁, w₁, st₂, w₂, h1, -, -⟩ hlt
    obtain ⟨st₃, w₃, h4⟩ := stagesEnd_prefix (a + 1) h1
    rw [List.take_take, Nat.min_eq_left (by omega)] at h4
    exact absurd (failsAt_behind hd h4 ha) (by omega)
  have h1 := key h h'
  have h2 := key h' h
  refine ⟨by omega, ?_⟩
  obtain ⟨-, st₁, w₁, h3⟩ := failsAt_end h
  obtain ⟨-, st₂, w₂, h4⟩ := failsAt_end h'
  have h5 := (stagesEnd_determined ss hd _ _ _ _ _ _ _ _ h3 h4).2.2
  injection h5 with h5
  exact h5.symm

/-! ### The property -/

/-- **C102.** Whenever `parse()` throws there is exactly one stage that is to blame, and `parse()` throws its exception. -/
theorem C102_one_stage_to_blame (env : Env W) (g : Prog W) (hg : Reachable env g) (items : List Item) (tail : Option (List Str))
    (hl : LooseGiven g items tail) (hok : NeatLine (decls g) items tail) (w₁ : W) (hv : CheckPasses env g w₁) :
    ((parse env g).1 = .returned ∧ ∀ k e, ¬ FailsAt (lineStages env.ndebug (decls g) items tail) g.store w₁ k e) ∨
    ∃ k e, (parse env g).1 = .threw e ∧ FailsAt (lineStages env.ndebug (decls g) items tail) g.store w₁ k e ∧
      ∀ k' e', FailsAt (lineStages env.ndebug (decls g) items tail) g.store w₁ k' e' → k' = k ∧ e' = e := by
  obtain ⟨st', w', r, h1, -, p, hp⟩ := C100_one_ending env g hg items tail hl hok w₁ hv
  rw [lineEnds_stages] at h1
  have hd := lineStages_determined env.ndebug (decls g) items tail
  rw [hp]
  cases r with
  | none =>
    refine Or.inl ⟨rfl, fun k e hf => ?_⟩
    obtain ⟨-, st₂, w₂, h2⟩ := failsAt_end hf
    cases (stagesEnd_determined _ hd _ _ _ _ _ _ _ _ h1 h2).2.2
  | some e =>
    obtain ⟨k, -, hf⟩ := stagesEnd_failsAt _ _ _ _ _ _ h1
    exact Or.inr ⟨k, e, rfl, hf, fun k' e' hf' => failsAt_unique hd hf hf'⟩

/-- **C102.** Once the mistake that was reported is corrected, `parse()` returns or reports a mistake that comes later: a mistake that was
corrected is never reported again. `g` and `g'` are the program with the old and with the new line. -/
theorem C102_progress (env : Env W) (g g' : Prog W) (hg' : Reachable env g') (hdecls : decls g' = decls g) (hst : g'.store = g.store)
    (items items' : List Item) (tail tail' : Option (List Str)) (hl : LooseGiven g' items' tail') (hok : NeatLine (decls g') items' tail')
    (w₁ : W) (hv : CheckPasses env g' w₁) (k : Nat)
    (hc : CorrectedAt (lineStages env.ndebug (decls g) items tail) (lineStages env.ndebug (decls g) items' tail') g.store w₁ k) :
    (parse env g').1 = .returned ∨
    ∃ k' e', k < k' ∧ (parse env g').1 = .threw e' ∧ FailsAt (lineStages env.ndebug (decls g) items' tail') g.store w₁ k' e' := by
  rcases C102_one_stage_to_blame env g' hg' items' tail' hl hok w₁ hv with ⟨h, -⟩ | ⟨k', e', h, hf, -⟩
  · exact Or.inl h
  · rw [hdecls, hst] at hf
    obtain ⟨-, st', w', h1⟩ := hc
    exact Or.inr ⟨k', e', failsAt_behind (lineStages_determined _ _ _ _) h1 hf, h, hf⟩

/-- If a chain of corrections begins with a line that fails at stage `k` or later, it cannot be longer than the stages from `k` on. -/
theorem corrections_length {nd : Bool} {D : Decls W} {st : Store} {w : W} {ls : List (List Item × Option (List Str))} (h : Corrections nd D st w ls) :
    ∀ (N k : Nat), (∀ l : List Item × Option (List Str), (lineStages nd D l.1 l.2).length = N) →
      (∀ l, ls.head? = some l → ∀ j e, FailsAt (lineStages nd D l.1 l.2) st w j e → k ≤ j) → k ≤ N → ls.length ≤ N - k + 1 := by
  induction h with
  | one => intro N k _ _ _; simp
  | @next l l' ls j e hf hc _ ih =>
    intro N k hN hk hkN
    have hj := hk l rfl j e hf
    have hlt := (failsAt_end hf).1
    rw [hN l] at hlt
    obtain ⟨-, st', w', h1⟩ := hc
    have h2 := ih N (j + 1) hN (fun m hm j' e' hf' => by
      injection hm with hm
      subst hm
      exact failsAt_behind (lineStages_determined _ _ _ _) h1 hf') hlt
    simp only [List.length_cons] at h2 ⊢
    omega

/-- **C102.** However many mistakes there are and however long the lines: correcting the mistake that is reported, one after the other, comes to an
end after as many corrections as there are options and positional options, plus two (the flags and the words that are left over). -/
theorem C102_bounded_corrections (nd : Bool) (D : Decls W) (st : Store) (w : W) (ls : List (List Item × Option (List Str)))
    (h : Corrections nd D st w ls) : ls.length ≤ D.options.length + D.positionals.length + 3 := by
  have h1 := corrections_length h (lineStages nd D [] none).length 0 (fun l => (lineStages_length nd D l ([], none)).1) (fun _ _ _ _ _ => Nat.zero_le _)
    (Nat.zero_le _)
  have h2 := (lineStages_length nd D ([], none) ([], none)).2
  dsimp only at h2
  omega

/-- **C102.** What it takes to leave the options in front of the mistake as they were: the same texts for each of them. -/
theorem C102_same_texts (nd : Bool) (D : Decls W) (items items' : List Item) (tail tail' : Option (List Str)) (k : Nat) (hk : k ≤ D.options.length)
    (h : ∀ d ∈ D.options.take k, shortTexts d items' = shortTexts d items ∧ longTexts d items' = longTexts d items) :
    (lineStages nd D items' tail').take k = (lineStages nd D items tail).take k := by
  unfold lineStages
  rw [List.take_append_of_le_length (by simpa using hk), List.take_append_of_le_length (by simpa using hk), ← List.map_take, ← List.map_take]
  refine List.map_congr_left fun d hd => ?_
  obtain ⟨h1, h2⟩ := h d hd
  funext st w st' w' r
  unfold OptionEnds
  rw [h1, h2]

/-- **C102.** For the flags and the words behind them: the same texts for all options, the same flags set, and an unknown flag only if there was one. -/
theorem C102_same_options_and_flags (nd : Bool) (D : Decls W) (items items' : List Item) (tail tail' : Option (List Str))
    (h : ∀ d ∈ D.options, shortTexts d items' = shortTexts d items ∧ longTexts d items' = longTexts d items)
    (hf : setFlags items' D.flags = setFlags items D.flags) (hs : Suspect D items' ↔ Suspect D items) :
    (lineStages nd D items' tail').take (D.options.length + 1) = (lineStages nd D items tail).take (D.options.length + 1) := by
  have h1 := C102_same_texts nd D items items' tail tail' D.options.length (Nat.le_refl _) (by rw [List.take_length]; exact h)
  unfold lineStages at h1 ⊢
  rw [List.take_append, List.take_append] at h1 ⊢
  simp only [List.length_map, Nat.sub_self, List.take_zero, List.append_nil, Nat.add_sub_cancel_left, List.take_succ_cons] at h1 ⊢
  rw [List.take_of_length_le (by simp), List.take_of_length_le (by simp)] at h1 ⊢
  rw [h1]
  have h2 : flagsStage D items' = flagsStage D items := by
    funext st w st' w' r
    unfold flagsStage
    rw [hf, propext hs]
  rw [h2]

/-! ## Examples -/

/-- `-n 12x -vv`: the value of `-n`, the flag given twice and the missing word are mistakes. -/
def exFirst : List Item := [.short 'n' .separate "12x".toList, .flags ['v', 'v']]

/-- `-n 12 -vv` -/
def exSecond : List Item := [.short 'n' .separate "12".toList, .flags ['v', 'v']]

/-- `-n 12 -v` -/
def exThird : List Item := [.short 'n' .separate "12".toList, .flags ['v']]

/-- `-n 12 -v 3` -/
def exFourth : List Item := [.short 'n' .separate "12".toList, .flags ['v'], .word "3".toList]

/-- One mistake after the other. -/
example : (parse exEnv (exLine₂ exFirst)).1 = .threw .userInputError ∧ (parse exEnv (exLine₂ exSecond)).1 = .threw .unknownOption ∧
    (parse exEnv (exLine₂ exThird)).1 = .threw .tooFewArguments ∧ (parse exEnv (exLine₂ exFourth)).1 = .returned := by decide +kernel

/-- The conditions of `C102_one_stage_to_blame` for all four lines. -/
example : ∀ items ∈ [exFirst, exSecond, exThird, exFourth], LooseGiven (exLine₂ items) items none ∧ CheckPasses exEnv (exLine₂ items) () := by
  intro items hi
  simp only [List.mem_cons, List.not_mem_nil, or_false] at hi
  rcases hi with rfl | rfl | rfl | rfl <;> exact ⟨by decide +kernel, rfl⟩

theorem exSecond_num (st : Store) (items : List Item) (hs : shortTexts exNum items = ["12".toList]) (hg : longTexts exNum items = []) :
    OptionEnds false items exNum st () (st.set 0 (.one (.int 12))) () none := by
  have h0 : Denotes (.integer (-128) 127) "12".toList (.int 12) := (readElem_iff _ _ _).1 (by decide +kernel)
  unfold OptionEnds
  rw [hs, hg, if_neg (by simp)]
  exact ⟨_, _, ⟨none, .next h0 .nil, rfl⟩, rfl, true, rfl, rfl⟩

/-- The first line fails at the first option, and the second corrects that mistake; the second fails at the flags. -/
theorem exFirst_fails : FailsAt (lineStages false (declsOf (exCalls₂.filterMap Call.entry?)) exFirst none) exStore () 0 .userInputError := by
  have h0 : ReadsTo (.integer (-128) 127) "12x".toList (some (.int 12)) (some .userInputError) :=
    ReadsTo.beginning (a := "12".toList) (b := "x".toList)
      (((readElem_iff (.integer (-128) 127) "12".toList (.int 12)).1 (by decide +kernel)).elim fun v h => by
        obtain ⟨h1, h2⟩ := h; cases h1; exact h2) (by decide) (by decide)
  refine ⟨OptionEnds false exFirst exNum, exStore, (), exStore.set 0 (.one (.int 12)), (), ⟨rfl, rfl, rfl⟩, rfl, ?_⟩
  have hs : shortTexts exNum exFirst = ["12x".toList] := by decide +kernel
  have hg : longTexts exNum exFirst = [] := by decide +kernel
  unfold OptionEnds
  rw [hs, hg, if_neg (by simp)]
  exact ⟨_, _, ⟨some .userInputError, .stopWritten h0, rfl⟩, rfl, rfl, rfl⟩

theorem exFirst_corrected : CorrectedAt (lineStages false (declsOf (exCalls₂.filterMap Call.entry?)) exFirst none)
    (lineStages false (declsOf (exCalls₂.filterMap Call.entry?)) exSecond none) exStore () 0 := by
  refine ⟨rfl, exStore.set 0 (.one (.int 12)), (), ?_⟩
  show StagesEnd [OptionEnds false exSecond exNum] exStore () _ () none
  rw [stagesEnd_one]
  exact exSecond_num exStore exSecond (by decide +kernel) (by decide +kernel)

example : Corrections false (declsOf (exCalls₂.filterMap Call.entry?)) exStore () [(exFirst, none), (exSecond, none)] :=
  .next exFirst_fails exFirst_corrected .one

/-- What the theorem says about the second line. -/
example : (parse exEnv (exLine₂ exSecond)).1 = .returned ∨ ∃ k' e', 0 < k' ∧ (parse exEnv (exLine₂ exSecond)).1 = .threw e' := by
  have h := C102_progress exEnv (exLine₂ exFirst) (exLine₂ exSecond) (exRun_reachable _ _)
    (by rw [exLine₂_decls exFirst (by decide +kernel), exLine₂_decls exSecond (by decide +kernel)]) rfl exFirst exSecond none none (by decide +kernel)
    (neatLine_of (exRun_reachable _ _) (by decide +kernel) (fun _ h => by cases h)) () rfl 0
    (by rw [exLine₂_decls exFirst (by decide +kernel)]; exact exFirst_corrected)
  rcases h with h | ⟨k', e', h1, h2, -⟩
  · exact Or.inl h
  · exact Or.inr ⟨k', e', h1, h2⟩

/-- The stages of this program: two options, the flags, the positional option, words that are left over. -/
example : (lineStages false (declsOf (exCalls₂.filterMap Call.entry?)) exFirst none).length = 5 := rfl

end Sharg
