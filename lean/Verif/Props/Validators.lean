import Verif.Lemmas.Files
import Verif.Props.Success

/-!
# Properties C36-C39: which values the validators accept
-/

set_option linter.unusedSimpArgs false

namespace Sharg

open Spec

variable {W : Type}

/-! ## C36 -/

theorem num_le_iff {ty : NumTy} {a b : Num} (ha : HasType ty a) (hb : HasType ty b) :
    a.le b = true ↔ numVal a ≤ numVal b := by
  cases ty <;> cases a <;> cases b <;> simp [HasType] at ha hb <;> simp [Num.le, numVal, Rat.intCast_le_intCast]

theorem convertNum_self {ty : NumTy} {v : Num} (h : HasType ty v) : convertNum ty v = .ok v := by
  cases ty with
  | real =>
    cases v with
    | int i => simp [HasType] at h
    | real q => rfl
  | integer lo hi =>
    cases v with
    | real q => simp [HasType] at h
    | int i =>
      obtain ⟨h1, h2⟩ := h
      simp only [convertNum]
      rw [Int.emod_eq_of_lt (by omega) (by omega)]
      congr 2
      omega

/-- C36: a value of the type of the validator is accepted exactly if it lies in the closed interval; otherwise
`validation_error` is thrown. Nothing else happens. -/
theorem C36_accepts_closed_interval (ty : NumTy) (sh : Num → Str) (min max v : Num) (hmin : HasType ty min)
    (hmax : HasType ty max) (hv : HasType ty v) (w : W) :
    ((arithmeticRange ty sh min max).run v w = .ok () w ↔ numVal min ≤ numVal v ∧ numVal v ≤ numVal max) ∧
    ((arithmeticRange ty sh min max).run v w = .err .validationError w ↔ ¬ (numVal min ≤ numVal v ∧ numVal v ≤ numVal max)) := by
  simp only [arithmeticRange, convertNum_self hv]
  rw [← num_le_iff hmin hv, ← num_le_iff hv hmax]
  cases v.le max <;> cases min.le v <;> simp [M.throw, M.pure]

theorem forEach_world_unchanged {α : Type} (f : α → M W Unit) (P : α → Prop) (l : List α) (w : W)
    (h1 : ∀ a ∈ l, P a → f a w = .ok () w) (h2 : ∀ a ∈ l, ¬ P a → f a w = .err .validationError w) :
    ((∀ a ∈ l, P a) → M.forEach f l w = .ok () w) ∧ ((¬ ∀ a ∈ l, P a) → M.forEach f l w = .err .validationError w) := by
  induction l with
  | nil => exact ⟨fun _ => rfl, fun h => absurd (by simp) h⟩
  | cons a l ih =>
    obtain ⟨i1, i2⟩ := ih (fun b hb => h1 b (.tail _ hb)) (fun b hb => h2 b (.tail _ hb))
    by_cases ha : P a
    · have e : M.forEach f (a :: l) w = M.forEach f l w := by
        simp only [M.forEach, M.bind, h1 a (.head _) ha]
      rw [e]
      constructor
      · intro h; exact i1 fun b hb => h b (.tail _ hb)
      · intro h
        refine i2 fun hall => h ?_
        intro b hb
        rcases List.mem_cons.1 hb with rfl | hb
        · exact ha
        · exact hall b hb
    · have e : M.forEach f (a :: l) w = .err .validationError w := by
        simp only [M.forEach, M.bind, h2 a (.head _) ha]
      rw [e]
      exact ⟨fun h => absurd (h a (.head _)) ha, fun _ => rfl⟩

/-- C36: a range of values is accepted exactly if each of its elements is; otherwise `validation_error` is thrown. -/
theorem C36_accepts_ranges_of_values (ty : NumTy) (sh : Num → Str) (min max : Num) (vs : List Num) (hmin : HasType ty min)
    (hmax : HasType ty max) (hv : ∀ v ∈ vs, HasType ty v) (w : W) :
    ((arithmeticRange ty sh min max).each.run vs w = .ok () w ↔ ∀ v ∈ vs, numVal min ≤ numVal v ∧ numVal v ≤ numVal max) ∧
    ((arithmeticRange ty sh min max).each.run vs w = .err .validationError w ↔
      ∃ v ∈ vs, ¬ (numVal min ≤ numVal v ∧ numVal v ≤ numVal max)) := by
  obtain ⟨h1, h2⟩ := forEach_world_unchanged (arithmeticRange (W := W) ty sh min max).run
    (fun v => numVal min ≤ numVal v ∧ numVal v ≤ numVal max) vs w
    (fun v h => (C36_accepts_closed_interval ty sh min max v hmin hmax (hv v h) w).1.2)
    (fun v h => (C36_accepts_closed_interval ty sh min max v hmin hmax (hv v h) w).2.2)
  by_cases h : ∀ v ∈ vs, numVal min ≤ numVal v ∧ numVal v ≤ numVal max
  · have e := h1 h
    refine ⟨⟨fun _ => h, fun _ => e⟩, ?_⟩
    constructor
    · intro e'
      rw [show (arithmeticRange ty sh min max).each.run vs w = .ok () w from e] at e'
      cases e'
    · rintro ⟨v, hv, hn⟩
      exact absurd (h v hv) hn
  · have e := h2 h
    refine ⟨⟨?_, fun h' => absurd h' h⟩, ⟨?_, fun _ => e⟩⟩
    · intro e'
      rw [show (arithmeticRange ty sh min max).each.run vs w = .err .validationError w from e] at e'
      cases e'
    · intro _
      exact Classical.byContradiction fun hn => h fun v hv => Classical.byContradiction fun hv' => hn ⟨v, hv, hv'⟩

theorem le_truncate {a : Int} {q : Rat} (h : (a : Rat) ≤ q) : a ≤ truncate q := by
  unfold truncate
  split
  · exact Rat.intCast_le_intCast.1 (Rat.le_trans h Rat.le_ceil)
  · exact Rat.le_floor_iff.2 h

theorem truncate_le {b : Int} {q : Rat} (h : q ≤ (b : Rat)) : truncate q ≤ b := by
  unfold truncate
  split
  · exact Rat.ceil_le_iff.2 h
  · exact Rat.intCast_le_intCast.1 (Rat.le_trans (Rat.floor_le q) h)

theorem lt_of_le_truncate {a : Int} {q : Rat} (h : a ≤ truncate q) : ((a - 1 : Int) : Rat) < q := by
  unfold truncate at h
  split at h
  · exact Rat.lt_ceil_iff.1 (by omega)
  · have h1 : (a : Rat) ≤ q := Rat.le_floor_iff.1 h
    have h2 : ((a - 1 : Int) : Rat) < (a : Rat) := Rat.intCast_lt_intCast.2 (by omega)
    grind

theorem lt_of_truncate_le {b : Int} {q : Rat} (h : truncate q ≤ b) : q < ((b + 1 : Int) : Rat) := by
  unfold truncate at h
  split at h
  · have h1 : q ≤ (b : Rat) := Rat.ceil_le_iff.1 h
    have h2 : (b : Rat) < ((b + 1 : Int) : Rat) := Rat.intCast_lt_intCast.2 (by omega)
    grind
  · exact Rat.floor_lt_iff.1 (by omega)

/-- C36, partial: a floating point value at a validator with integer bounds (the tests of the library use this). The values
of the interval are accepted, and every accepted value is less than one away from the interval. Missing: values
just outside the interval are accepted, too (`C36_fraction_is_dropped`). -/
theorem C36_fractional_values_partial (lo hi a b : Int) (sh : Num → Str) (h1 : lo ≤ a) (h2 : b ≤ hi) (q : Rat) (w : W) :
    (((a : Rat) ≤ q ∧ q ≤ (b : Rat)) → (arithmeticRange (.integer lo hi) sh (.int a) (.int b)).run (.real q) w = .ok () w) ∧
    ((arithmeticRange (.integer lo hi) sh (.int a) (.int b)).run (.real q) w = .ok () w →
      ((a - 1 : Int) : Rat) < q ∧ q < ((b + 1 : Int) : Rat)) := by
  simp only [arithmeticRange, convertNum]
  constructor
  · rintro ⟨ha, hb⟩
    have k1 := le_truncate ha
    have k2 := truncate_le hb
    rw [if_neg (by omega)]
    simp [Num.le, k1, k2, M.pure]
  · intro h
    by_cases hr : truncate q < lo ∨ hi < truncate q
    · rw [if_pos hr] at h
      simp [M.throw] at h
    · rw [if_neg hr] at h
      simp only [Num.le] at h
      by_cases hab : truncate q ≤ b ∧ a ≤ truncate q
      · exact ⟨lt_of_le_truncate hab.2, lt_of_truncate_le hab.1⟩
      · have : (decide (truncate q ≤ b) && decide (a ≤ truncate q)) = false := by
          rw [Bool.and_eq_false_iff]
          rcases Classical.not_and_iff_not_or_not.1 hab with h' | h'
          · exact Or.inl (decide_eq_false h')
          · exact Or.inr (decide_eq_false h')
        simp [this, M.throw] at h

/-- C36 does not hold for values of another type than the bounds: `arithmetic_range_validator{1, 20}` accepts 20.9. -/
theorem C36_fraction_is_dropped (sh : Num → Str) (w : W) :
    (arithmeticRange (.integer (-2147483648) 2147483647) sh (.int 1) (.int 20)).run (.real (209 / 10)) w = .ok () w := by
  have : truncate (209 / 10) = 20 := by decide +kernel
  simp [arithmeticRange, convertNum, this, Num.le, M.pure]

/-- … the value 10000000000.0 makes the comparison undefined behaviour … -/
theorem C36_large_value_undefined (sh : Num → Str) (w : W) :
    (arithmeticRange (.integer (-2147483648) 2147483647) sh (.int 1) (.int 20)).run (.real 10000000000) w =
      .err .undefinedBehaviour w := by
  have : truncate 10000000000 = 10000000000 := by decide +kernel
  simp [arithmeticRange, convertNum, this, M.throw]

/-- … and `arithmetic_range_validator<uint8_t>{0, 10}` accepts the `int` 261. -/
theorem C36_large_integer_wraps (sh : Num → Str) (w : W) :
    (arithmeticRange (.integer 0 255) sh (.int 0) (.int 10)).run (.int 261) w = .ok () w := by
  simp [arithmeticRange, convertNum, Num.le, M.pure]

theorem inParser_ok {α : Type} {v : Validator W α} {x : α} {w w' : W} (h : v.inParser x w = (true, w')) : v.run x w = .ok () w' := by
  unfold Validator.inParser at h
  cases hr : v.run x w with
  | ok u s => simp only [hr, Prod.mk.injEq, true_and] at h; rw [h]
  | err e s => simp [hr] at h

/-- C36: if `parse()` returns and an integer option with a range validator of the same type has been given, the value of its
variable lies within the interval. -/
theorem C36_parsed_value_in_interval (env : Env W) (g g' : Prog W) (hg : Reachable env g) (h : parse env g = (.returned, g'))
    (hv : VarsDistinct (decls g)) (d : OptDecl W) (hd : d ∈ (decls g).options) (lo hi a b : Int) (sh : Num → Str)
    (hty : d.ty = .integer lo hi) (hl : d.isList = false) (hval : d.validator = (arithmeticRange (.integer lo hi) sh (.int a) (.int b)).onIntegers)
    (ha : lo ≤ a ∧ a ≤ hi) (hb : lo ≤ b ∧ b ≤ hi) (hc : g'.store d.var ≠ g.store d.var) :
    ∃ i, g'.store d.var = .one (.int i) ∧ a ≤ i ∧ i ≤ b := by
  obtain ⟨hi, hD, w1, s, hf, hs, _⟩ := reachable_returned hg h
  obtain ⟨ph⟩ := phases env.ndebug hD _ g.store w1 s () hf
  rw [hs] at hc ⊢
  rcases option_final hD hv hd env.ndebug ph with ⟨h1, _⟩ | ⟨⟨u, u', h1⟩, vs, vl, _, h2⟩
  · exact absurd h1 hc
  · unfold optValue at h2
    rw [hl] at h2
    simp only [Bool.false_eq_true, if_false] at h2
    cases ht : vs ++ vl with
    | nil => simp [ht] at h2
    | cons t ts =>
      cases ts with
      | cons t' ts => simp [ht] at h2
      | nil =>
        simp only [ht, Option.map_eq_some_iff] at h2
        obtain ⟨e, h3, h4⟩ := h2
        rw [readElem_iff, hty] at h3
        obtain ⟨i, rfl, h5, h6, _⟩ := h3
        rw [hval, ← h4] at h1
        have h7 := inParser_ok (v := arithmeticRange _ sh _ _) (x := .int i) h1
        refine ⟨i, h4.symm, ?_⟩
        have h9 := C36_accepts_closed_interval (.integer lo _) sh (.int a) (.int b) (.int i) ha hb ⟨h5, h6⟩ u
        by_cases h8 : numVal (.int a) ≤ numVal (.int i) ∧ numVal (.int i) ≤ numVal (.int b)
        · simpa [numVal, Rat.intCast_le_intCast] using h8
        · rw [h9.2.2 h8] at h7
          cases h7

/-- The interval [1, 7] of the tutorial: the bounds are accepted, 0 and 8 are not. -/
example (sh : Num → Str) : let v := arithmeticRange (W := Unit) (.integer 0 255) sh (.int 1) (.int 7)
    v.run (.int 1) () = .ok () () ∧ v.run (.int 7) () = .ok () () ∧ v.run (.int 0) () = .err .validationError () ∧
      v.each.run [.int 3, .int 8] () = .err .validationError () := by
  refine ⟨?_, ?_, ?_, ?_⟩
  · exact (C36_accepts_closed_interval _ sh _ _ _ (by decide) (by decide) (by decide) ()).1.2 (by decide +kernel)
  · exact (C36_accepts_closed_interval _ sh _ _ _ (by decide) (by decide) (by decide) ()).1.2 (by decide +kernel)
  · exact (C36_accepts_closed_interval _ sh _ _ _ (by decide) (by decide) (by decide) ()).2.2 (by decide +kernel)
  · exact (C36_accepts_ranges_of_values _ sh _ _ _ (by decide) (by decide) (by decide) ()).2.2 ⟨.int 8, by simp, by decide +kernel⟩

/-- The hypotheses of `C36_parsed_value_in_interval` are met: `-n 3` with the interval [1, 7]. -/
def exRangeCalls : List (Call Unit) :=
  [.addOption { short := 'n' } 0 false (.integer 0 255)
    (arithmeticRange (.integer 0 255) (fun _ => []) (.int 1) (.int 7)).onIntegers]

example : ∃ i, (parse exEnv (exRun exRangeCalls (["-n", "3"].map String.toList))).2.store 0 = .one (.int i) ∧ 1 ≤ i ∧ i ≤ 7 := by
  have hd : decls (exRun exRangeCalls (["-n", "3"].map String.toList)) = declsOf (exRangeCalls.filterMap Call.entry?) :=
    exRun_decls _ _ (by decide +kernel)
  exact C36_parsed_value_in_interval exEnv (exRun exRangeCalls (["-n", "3"].map String.toList)) _ (exRun_reachable _ _)
    (returned_pair (by decide +kernel)) (by decide +kernel)
    ⟨'n', [], 0, false, .integer 0 255, false, (arithmeticRange (.integer 0 255) (fun _ => []) (.int 1) (.int 7)).onIntegers⟩
    (by rw [hd]; exact .head _) 0 255 1 7 (fun _ => []) rfl rfl rfl (by decide) (by decide) (by decide +kernel)

/-! ## C37 -/

/-- C37: a value is accepted exactly if it is listed, otherwise `validation_error` is thrown; nothing else happens. -/
theorem C37_accepts_listed_values {α : Type} [DecidableEq α] (help : Str) (values : List α) (v : α) (w : W) :
    ((valueList id help values).run v w = .ok () w ↔ v ∈ values) ∧
    ((valueList id help values).run v w = .err .validationError w ↔ v ∉ values) := by
  simp only [valueList, id]
  by_cases h : v ∈ values <;> simp [h, M.pure, M.throw]

/-- C37: a range of values is accepted exactly if each of its elements is listed. -/
theorem C37_accepts_ranges_of_listed_values {α : Type} [DecidableEq α] (help : Str) (values vs : List α) (w : W) :
    ((valueList id help values).each.run vs w = .ok () w ↔ vs ⊆ values) ∧
    ((valueList id help values).each.run vs w = .err .validationError w ↔ ¬ vs ⊆ values) := by
  obtain ⟨h1, h2⟩ := forEach_world_unchanged (valueList (W := W) id help values).run (fun v => v ∈ values) vs w
    (fun v _ => (C37_accepts_listed_values help values v w).1.2)
    (fun v _ => (C37_accepts_listed_values help values v w).2.2)
  by_cases h : vs ⊆ values
  · have e : (valueList id help values).each.run vs w = .ok () w := h1 h
    rw [e]; simp [h]
  · have e : (valueList id help values).each.run vs w = .err .validationError w := h2 h
    rw [e]; simp [h]

/-- C37: without listed values only the empty range is accepted. -/
theorem C37_empty_list {α : Type} [DecidableEq α] (help : Str) (w : W) :
    (∀ v : α, (valueList id help []).run v w = .err .validationError w) ∧
    (∀ vs : List α, (valueList id help []).each.run vs w = .ok () w ↔ vs = []) := by
  refine ⟨fun v => (C37_accepts_listed_values help [] v w).2.2 (by simp), fun vs => ?_⟩
  rw [(C37_accepts_ranges_of_listed_values help [] vs w).1]
  simp

/-- C37 does not hold for values that are converted to the type of the list: `value_list_validator{1, 2}` accepts 2.9. -/
theorem C37_converted_value_accepted (help : Str) (w : W) :
    (valueList truncate help [1, 2]).run (29 / 10) w = .ok () w := by
  have : truncate (29 / 10) = 2 := by decide +kernel
  simp [valueList, this, M.pure]

example (help : Str) : let v := valueList (W := Unit) id help [10, 20, 30]
    v.run 20 () = .ok () () ∧ v.run 25 () = .err .validationError () ∧ v.each.run [30, 10] () = .ok () () :=
  ⟨(C37_accepts_listed_values _ _ _ _).1.2 (by decide), (C37_accepts_listed_values _ _ _ _).2.2 (by decide),
    (C37_accepts_ranges_of_listed_values _ _ _ _).1.2 (by decide)⟩

/-! ## C38 -/

theorem leftToRight_append {α : Type} {x : α} {vs us : List (Validator W α)} {w : W} {r : Res W Unit}
    (h : LeftToRight x vs w r) :
    (∀ e w', r = .err e w' → LeftToRight x (vs ++ us) w (.err e w')) ∧
    (∀ w' r', r = .ok () w' → LeftToRight x us w' r' → LeftToRight x (vs ++ us) w r') := by
  induction h with
  | done =>
    refine ⟨(fun e w' h => nomatch h), fun w' r' h h' => ?_⟩
    cases h
    exact h'
  | accept h1 _ ih => exact ⟨fun e w' h => .accept h1 (ih.1 e w' h), fun w' r' h h' => .accept h1 (ih.2 w' r' h h')⟩
  | reject h1 =>
    refine ⟨fun e w' h => ?_, fun w' r' h => nomatch h⟩
    cases h
    exact .reject h1

theorem leftToRight_unique {α : Type} {x : α} {vs : List (Validator W α)} {w : W} {r r' : Res W Unit}
    (h : LeftToRight x vs w r) (h' : LeftToRight x vs w r') : r = r' := by
  induction h with
  | done => cases h'; rfl
  | accept h1 _ ih =>
    cases h' with
    | accept h2 h3 => rw [h1] at h2; cases h2; exact ih h3
    | reject h2 => rw [h1] at h2; cases h2
  | reject h1 =>
    cases h' with
    | accept h2 _ => rw [h1] at h2; cases h2
    | reject h2 => rw [h1] at h2; cases h2; rfl

/-- C38: a chain, however it is grouped, applies its validators from left to right; the first exception is the result and
later validators are not applied. Validators may have side effects. -/
theorem C38_left_to_right {α : Type} (c : Chain W α) (x : α) (w : W) : LeftToRight x c.parts w (c.value.run x w) := by
  induction c generalizing w with
  | single v =>
    unfold Chain.parts Chain.value
    cases h : v.run x w with
    | ok u w' => exact .accept h .done
    | err e w' => exact .reject h
  | pipe l r ihl ihr =>
    unfold Chain.parts Chain.value Validator.chain
    dsimp only
    unfold M.bind
    have hl := leftToRight_append (us := r.parts) (ihl w)
    cases h : l.value.run x w with
    | ok u w' => exact hl.2 w' _ h (ihr w')
    | err e w' => exact hl.1 e w' h

/-- C38: the grouping does not matter. -/
theorem C38_grouping_irrelevant {α : Type} (c c' : Chain W α) (h : c.parts = c'.parts) : c.value.run = c'.value.run := by
  funext x w
  have := C38_left_to_right c x w
  rw [h] at this
  exact leftToRight_unique this (C38_left_to_right c' x w)

theorem leftToRight_conjunction {α : Type} {x : α} {w : W} {vs : List (Validator W α)} {r : Res W Unit}
    (h : LeftToRight x vs w r) (hro : ∀ v ∈ vs, (v.run x w).state = w) : r = .ok () w ↔ ∀ v ∈ vs, v.run x w = .ok () w := by
  induction h with
  | done => simp
  | @accept v vs w w' r h1 _ ih =>
    have e : w' = w := by have := hro v (.head _); rw [h1] at this; exact this
    subst e
    rw [ih (fun v hv => hro v (.tail _ hv))]
    simp [h1]
  | @reject v vs w e w' h1 =>
    constructor
    · intro h; cases h
    · intro h
      have := h v (.head _)
      rw [h1] at this
      cases this

/-- C38: a chain of validators that do not change the world accepts exactly the values that each of them accepts. -/
theorem C38_conjunction {α : Type} (c : Chain W α) (x : α) (w : W) (hro : ∀ v ∈ c.parts, (v.run x w).state = w) :
    c.value.run x w = .ok () w ↔ ∀ v ∈ c.parts, v.run x w = .ok () w := by
  exact leftToRight_conjunction (C38_left_to_right c x w) hro

theorem joinHelp_append (a b : List Str) (ha : a ≠ []) (hb : b ≠ []) :
    [' '].intercalate (a ++ b) = [' '].intercalate a ++ [' '] ++ [' '].intercalate b := by
  induction a with
  | nil => exact absurd rfl ha
  | cons x a ih =>
    cases a with
    | nil =>
      cases b with
      | nil => exact absurd rfl hb
      | cons y b => simp [List.intercalate, List.intersperse]
    | cons x' a =>
      have := ih (by simp)
      simp only [List.cons_append] at this ⊢
      simp only [List.intercalate, List.intersperse, List.flatten_cons] at this ⊢
      rw [this]
      simp

theorem Chain.parts_ne_nil {α : Type} (c : Spec.Chain W α) : c.parts ≠ [] := by
  induction c with
  | single v => simp [Spec.Chain.parts]
  | pipe l r ihl _ => simp [Spec.Chain.parts, ihl]

/-- The help text of a chain lists the texts of its validators from left to right, separated by blanks. -/
theorem C38_help_text {α : Type} (c : Chain W α) : c.value.help = [' '].intercalate (c.parts.map (·.help)) := by
  induction c with
  | single v => simp [Chain.parts, Chain.value, List.intercalate, List.intersperse]
  | pipe l r ihl ihr =>
    rw [show (Chain.pipe l r).value.help = l.value.help ++ [' '] ++ r.value.help from rfl, ihl, ihr]
    rw [show (Chain.pipe l r).parts = l.parts ++ r.parts from rfl, List.map_append, joinHelp_append]
    · simpa using Chain.parts_ne_nil l
    · simpa using Chain.parts_ne_nil r

/-- A validator that counts its calls. -/
def exCounting (ok : Bool) (e : Exn) : Validator Nat Nat :=
  ⟨fun _ => M.bind (M.modify (· + 1)) fun _ => if ok then M.pure () else M.throw e, []⟩

/-- Three validators, the second one rejects: two calls, its exception. -/
example : (Chain.pipe (.single (exCounting true .designError))
      (.pipe (.single (exCounting false .userInputError)) (.single (exCounting false .designError)))).value.run 5 0 =
    .err .userInputError 2 := rfl

example : LeftToRight 5 [exCounting true .designError, exCounting false .userInputError, exCounting false .designError] 0
    (.err .userInputError 2) :=
  C38_left_to_right (Chain.pipe (.single (exCounting true .designError))
      (.pipe (.single (exCounting false .userInputError)) (.single (exCounting false .designError)))) 5 0

/-! ## C39 -/

/-- C39, partial: exactly which names pass the extension check. Missing: the code does not ask for the dot in front of the
extension (`C39_dot_not_required`), and asks for one behind the first character (`C39_hidden_file_rejected`). -/
theorem C39_extension_check_partial (exts : List Str) (name : Str) (fs : Disk) :
    (validateFilename exts name fs = .ok () fs ↔ NameAccepted exts name) ∧
    (validateFilename exts name fs = .err .validationError fs ↔ ¬ NameAccepted exts name) := by
  obtain ⟨h1, h2⟩ := validateFilename_spec exts name fs
  by_cases h : NameAccepted exts name
  · rw [h1 h]; simp [h]
  · rw [h2 h]; simp [h]

/-- C39, partial: a name with a listed extension passes, unless nothing is in front of the dot or the name is `..`. Missing:
the converse. -/
theorem C39_listed_extension_passes_partial (exts : List Str) (base e ext : Str) (fs : Disk) (hext : ext ∈ exts) (hs : SameText e ext)
    (hb : base ≠ []) (hd : base ≠ ['.'] ∨ e ≠ []) : validateFilename exts (base ++ '.' :: e) fs = .ok () fs := by
  refine (validateFilename_spec _ _ _).1 (Or.inr ⟨⟨base, e, rfl, hb⟩, ?_, ext, hext, ?_⟩)
  · intro h
    rcases hd with hd | hd
    · cases base with
      | nil => exact hb rfl
      | cons a t =>
        cases t with
        | nil =>
          simp only [List.cons_append, List.nil_append, List.cons.injEq] at h
          exact hd (by rw [h.1])
        | cons b t => simp at h
    · have := congrArg List.length h
      have h0 : base.length ≠ 0 := fun h => hb (List.length_eq_zero_iff.1 h)
      have h1 : e.length ≠ 0 := fun h => hd (List.length_eq_zero_iff.1 h)
      simp at this
      omega
  · cases base with
    | nil => exact absurd rfl hb
    | cons a t =>
      by_cases ha : a = '.'
      · exact ⟨t ++ ['.'], e, Or.inr (by rw [ha]; simp), hs⟩
      · exact ⟨a :: t ++ ['.'], e, Or.inl ⟨by simp, by simpa using ha⟩, hs⟩

/-- C39, partial: a name that passes ends with the letters of a listed extension and has a dot behind its first character.
Missing: that dot need not be in front of the extension. -/
theorem C39_passing_name_partial (exts : List Str) (name : Str) (fs : Disk) (he : exts ≠ [])
    (h : validateFilename exts name fs = .ok () fs) :
    (∃ base e, name = base ++ '.' :: e ∧ base ≠ []) ∧ ∃ ext ∈ exts, ∃ base e, name = base ++ e ∧ SameText e ext := by
  rcases (C39_extension_check_partial exts name fs).1.1 h with h | ⟨h1, _, ext, hm, base, e, h2, h3⟩
  · exact absurd h he
  · refine ⟨h1, ext, hm, ?_⟩
    rcases h2 with ⟨h2, _⟩ | h2
    · exact ⟨base, e, h2, h3⟩
    · exact ⟨'.' :: base, e, h2, h3⟩

theorem not_listed {name : Str} {exts : List Str}
    (h : ∀ ext ∈ exts, ext.length < name.length → (name.drop (name.length - ext.length - 1)).head? ≠ some '.') :
    ¬ HasListedExtension exts name := by
  rintro ⟨ext, hm, base, e, rfl, hs⟩
  have hl := sameText_length hs
  refine h ext hm (by simp; omega) ?_
  rw [show (base ++ '.' :: e).length - ext.length - 1 = base.length by simp; omega, List.drop_left]
  rfl

/-- C39 does not hold: `reads.xfa` passes the check for the extension `fa` … -/
theorem C39_dot_not_required (fs : Disk) :
    validateFilename ["fa".toList] "reads.xfa".toList fs = .ok () fs ∧ ¬ HasListedExtension ["fa".toList] "reads.xfa".toList := by
  refine ⟨?_, not_listed (by decide)⟩
  have : endsWithIgnoringCase "reads.xfa".toList "fa".toList = true := by decide
  exact (validateFilename_spec _ _ _).1 (Or.inr ⟨(hasExtension_iff _).1 (by decide) |>.1, by decide, "fa".toList, by simp,
    "reads.x".toList, "fa".toList, Or.inl ⟨by decide, by decide⟩, Or.inl rfl, Or.inl rfl, trivial⟩)

/-- … and the hidden file `.fa` does not. -/
theorem C39_hidden_file_rejected (fs : Disk) :
    validateFilename ["fa".toList] ".fa".toList fs = .err .validationError fs ∧ HasListedExtension ["fa".toList] ".fa".toList := by
  refine ⟨(validateFilename_spec _ _ _).2 ?_, "fa".toList, by simp, [], "fa".toList, by decide, Or.inl rfl, Or.inl rfl, trivial⟩
  rintro (h | ⟨h, h', _⟩)
  · cases h
  · have := (hasExtension_iff ".fa".toList).2 ⟨h, h'⟩
    revert this
    decide

/-- `.hidden.TAR.gz` has the listed extension `tar.GZ`. -/
example (fs : Disk) : validateFilename ["fa".toList, "tar.GZ".toList] ".hidden.TAR.gz".toList fs = .ok () fs := by
  have e : ".hidden.TAR.gz".toList = ".hidden".toList ++ '.' :: "TAR.gz".toList := by decide
  rw [e]
  exact C39_listed_extension_passes_partial _ _ _ "tar.GZ".toList fs (by simp)
    ((sameIgnoringCase_iff _ _ (by decide)).1 (by decide)) (by decide) (Or.inl (by decide))

end Sharg
