import Verif.Model.Messages
import Verif.Spec.HelpTexts
import Verif.Props.Texts
import Verif.Props.Validators

/-!
# Property C65: the text of a validator on the help page tells which values pass
-/

namespace Sharg

open Spec

variable {W : Type}

/-! ### Ranges -/

/-- C65, integers: the text determines the two bounds, hence which values pass. -/
theorem C65_integer_range (lo hi a b c d : Int)
    (h : (arithmeticRange (W := W) (.integer lo hi) toStringNum (.int a) (.int b)).help =
      (arithmeticRange (W := W) (.integer lo hi) toStringNum (.int c) (.int d)).help) : a = c ∧ b = d := by
  simp only [arithmeticRange, List.append_assoc] at h
  have h := List.append_cancel_left (List.append_cancel_left h)
  have nd : ∀ (x : Str) (k : Char), ¬ k.isDigit → ∀ c, ([k] ++ x).head? = some c → ¬ c.isDigit := by
    rintro x k hk c hc
    cases hc
    exact hk
  obtain ⟨h1, h2⟩ := showInt_split (nd _ ',' (by decide)) (nd _ ',' (by decide)) h
  obtain ⟨h3, -⟩ := showInt_split (nd _ ']' (by decide)) (nd _ ']' (by decide)) (List.append_cancel_left h2)
  exact ⟨h1, h3⟩

/-- C65 does not hold for floating point numbers: the ranges [0, 0.0000001] and [0, 0] have the same text, but 0.0000001 only lies in the first. -/
theorem C65_real_range_not_told (w : W) :
    let v₁ := arithmeticRange (W := W) .real toStringNum (.real 0) (.real (1 / 10000000))
    let v₂ := arithmeticRange (W := W) .real toStringNum (.real 0) (.real 0)
    v₁.help = v₂.help ∧ v₁.help = "Value must be in range [0.000000,0.000000].".toList ∧
    v₁.run (.real (1 / 10000000)) w = .ok () w ∧ v₂.run (.real (1 / 10000000)) w = .err .validationError w := by
  intro v₁ v₂
  have s : toStringNum (.real 0) = "0.000000".toList ∧ toStringNum (.real (1 / 10000000)) = "0.000000".toList := by decide +kernel
  have h : v₁.help = v₂.help ∧ v₁.help = "Value must be in range [0.000000,0.000000].".toList := by
    constructor
    · simp only [v₁, v₂, arithmeticRange, s]
    · simp only [v₁, arithmeticRange, s]
      decide +kernel
  refine ⟨h.1, h.2, ?_, ?_⟩
  · refine (C36_accepts_closed_interval .real toStringNum (.real 0) (.real (1 / 10000000)) (.real (1 / 10000000)) ?_ ?_ ?_ w).1.2 ?_
    · trivial
    · trivial
    · trivial
    · decide +kernel
  · refine (C36_accepts_closed_interval .real toStringNum (.real 0) (.real 0) (.real (1 / 10000000)) ?_ ?_ ?_ w).2.2 ?_
    · trivial
    · trivial
    · trivial
    · decide +kernel

/-! ### Lists of values -/

theorem tellable_split {s t u v : Str} (hs : Tellable s) (ht : Tellable t) (hu : u = [] ∨ (∃ x, u = ',' :: x) ∨ ∃ x, u = ']' :: x)
    (hv : v = [] ∨ (∃ x, v = ',' :: x) ∨ ∃ x, v = ']' :: x) (h : s ++ u = t ++ v) : s = t ∧ u = v := by
  have key : ∀ (s t : Str), ',' ∉ s → ']' ∉ s → ',' ∉ t → ']' ∉ t → s ++ u = t ++ v → s = t ∧ u = v := by
    intro s
    induction s with
    | nil =>
      intro t _ _ t1 t2 h
      cases t with
      | nil => exact ⟨rfl, h⟩
      | cons b t =>
        rcases hu with rfl | ⟨x, rfl⟩ | ⟨x, rfl⟩ <;> simp at h t1 t2
        · exact absurd h.1 t1.1
        · exact absurd h.1 t2.1
    | cons a s ih =>
      intro t s1 s2 t1 t2 h
      cases t with
      | nil =>
        rcases hv with rfl | ⟨x, rfl⟩ | ⟨x, rfl⟩ <;> simp at h s1 s2
        · exact absurd h.1.symm s1.1
        · exact absurd h.1.symm s2.1
      | cons b t =>
        simp only [List.mem_cons, not_or, List.cons_append, List.cons.injEq] at s1 s2 t1 t2 h
        obtain ⟨rfl, h⟩ := h
        obtain ⟨h1, h2⟩ := ih t s1.2 s2.2 t1.2 t2.2 h
        exact ⟨by rw [h1], h2⟩
  exact key s t hs.2.1 hs.2.2 ht.2.1 ht.2.2 h

/-- Lists of tellable texts can be told apart. -/
theorem showList_tellable {l m : List Str} (hl : ∀ s ∈ l, Tellable s) (hm : ∀ s ∈ m, Tellable s) (h : showList l = showList m) : l = m := by
  have e : ∀ k : List Str, ∀ hk : ∀ s ∈ k, Tellable s, (k.attach.map fun s => (⟨s.1, hk s.1 s.2⟩ : { s : Str // Tellable s })).map (·.1) = k := by
    intro k hk
    rw [List.map_map]
    exact List.attach_map_subtype_val k
  have h' := showList_injective (fun s : { s : Str // Tellable s } => s.1) ?_ ?_
    (show showList ((l.attach.map fun s => (⟨s.1, hl s.1 s.2⟩ : { s : Str // Tellable s })).map (·.1)) =
      showList ((m.attach.map fun s => (⟨s.1, hm s.1 s.2⟩ : { s : Str // Tellable s })).map (·.1)) by rw [e l hl, e m hm]; exact h)
  · have := congrArg (List.map (·.1)) h'
    rwa [e l hl, e m hm] at this
  · intro a b u v hu hv hab
    obtain ⟨h1, h2⟩ := tellable_split a.2 b.2 hu hv hab
    exact ⟨Subtype.ext h1, h2⟩
  · rintro ⟨s, hs⟩
    cases s with
    | nil => exact absurd rfl hs.1
    | cons c s => exact ⟨c, s, rfl, fun hc => hs.2.2 (by rw [hc]; exact List.mem_cons_self)⟩

/-- C65, lists of values (partial): the text determines the list, if no value is empty or contains a comma or a closing bracket. Missing: other
values, see below. -/
theorem C65_value_list_partial (l m : List Str) (hl : ∀ s ∈ l, Tellable s) (hm : ∀ s ∈ m, Tellable s)
    (h : valueListMessage l = valueListMessage m) : l = m := by
  unfold valueListMessage at h
  exact showList_tellable hl hm (List.append_cancel_left (List.append_cancel_right h))

/-- C65, lists of integers: the text determines the list. -/
theorem C65_integer_list (l m : List Int) (h : valueListMessage (l.map showInt) = valueListMessage (m.map showInt)) : l = m := by
  have ht : ∀ i, Tellable (showInt i) := by
    intro i
    have hd : ∀ k : Char, k ≠ '-' → ¬ k.isDigit → k ∉ showInt i := by
      intro k h1 h2 hk
      unfold showInt at hk
      split at hk
      · rcases List.mem_cons.1 hk with rfl | hk
        · exact h1 rfl
        · exact h2 (showNat_digits _ _ hk)
      · exact h2 (showNat_digits _ _ hk)
    refine ⟨?_, hd ',' (by decide) (by decide), hd ']' (by decide) (by decide)⟩
    unfold showInt
    split
    · simp
    · exact Nat.toDigits_ne_nil
  have := C65_value_list_partial (l.map showInt) (m.map showInt) (by simp [ht]) (by simp [ht]) h
  have inj : ∀ a b : Int, showInt a = showInt b → a = b := fun a b hab =>
    (showInt_split (u := []) (v := []) (by simp) (by simp) (by rw [hab])).1
  exact List.map_inj_right inj |>.1 this

/-- C65 does not hold for lists of texts: the lists of the values `a` and `b`, and of the single value `a, b`, have the same text, and so have the
list of the empty text and the empty list; but other values pass. -/
theorem C65_value_list_not_told (w : W) :
    let v (l : List Str) := valueList (W := W) (α := Str) id (valueListMessage l) l
    ((v ["a".toList, "b".toList]).help = (v ["a, b".toList]).help ∧ (v ["a".toList, "b".toList]).run "a".toList w = .ok () w ∧
      (v ["a, b".toList]).run "a".toList w = .err .validationError w) ∧
    (v [[]]).help = (v []).help ∧ (v [[]]).run [] w = .ok () w ∧ (v []).run [] w = .err .validationError w := by
  have e1 : valueListMessage ["a".toList, "b".toList] = valueListMessage ["a, b".toList] := by decide +kernel
  have e2 : valueListMessage [[]] = valueListMessage [] := by decide +kernel
  refine ⟨⟨e1, ?_, ?_⟩, e2, ?_, ?_⟩ <;> rfl

/-! ### Files -/

/-- C65, files: the text tells whether there are extensions; if no extension is empty or contains a comma or a closing bracket, it determines them,
and for output files also whether the file may exist (partial, in the same way). -/
theorem C65_file_texts_partial (l m : List Str) (hl : ∀ s ∈ l, Tellable s) (hm : ∀ s ∈ m, Tellable s) :
    (inputFileMessage l = inputFileMessage m → l = m) ∧
    (∀ mode mode', outputFileMessage mode l = outputFileMessage mode' m → mode = mode' ∧ l = m) := by
  have ext : ∀ t : Str, withExtensions t l = withExtensions t m → l = m := by
    intro t h
    unfold withExtensions at h
    rw [List.append_assoc, List.append_assoc] at h
    have h := List.append_cancel_left h
    have ne : ∀ k : List Str, k ≠ [] → (if (extensionsMessage k).isEmpty then [] else " ".toList) ++ extensionsMessage k =
        " ".toList ++ ("Valid file extensions are: ".toList ++ showList k ++ ".".toList) := by
      intro k hk
      have : k.isEmpty = false := by cases k with | nil => exact absurd rfl hk | cons => rfl
      have e : extensionsMessage k = "Valid file extensions are: ".toList ++ showList k ++ ".".toList := by
        unfold extensionsMessage
        rw [this]; rfl
      rw [e]; rfl
    cases l with
    | nil =>
      cases m with
      | nil => rfl
      | cons b m =>
        rw [ne (b :: m) (by simp)] at h
        cases h
    | cons a l =>
      cases m with
      | nil =>
        rw [ne (a :: l) (by simp)] at h
        cases h
      | cons b m =>
        rw [ne _ (by simp), ne _ (by simp)] at h
        exact showList_tellable hl hm (List.append_cancel_left (List.append_cancel_right (List.append_cancel_left h)))
  refine ⟨ext _, ?_⟩
  intro mode mode' h
  cases mode <;> cases mode'
  · exact ⟨rfl, ext _ h⟩
  · exact absurd (congrArg List.head? h) (by show ¬ some _ = some _; decide)
  · exact absurd (congrArg List.head? h) (by show ¬ some _ = some _; decide)
  · exact ⟨rfl, ext _ h⟩

/-! ### Patterns -/

/-- C65, patterns: the text determines the pattern. -/
theorem C65_pattern (p q : Str) (f g : Str → Bool) (h : (regexValidator (W := W) p f).help = (regexValidator (W := W) q g).help) : p = q :=
  List.append_cancel_left (List.append_cancel_right h)

/-- C65: a value passes exactly if it matches, a list exactly if each value does; without a validator there is no text and everything passes. -/
theorem C65_pattern_accepts (p : Str) (f : Str → Bool) (w : W) :
    (∀ s, (regexValidator p f).run s w = if f s = true then .ok () w else .err .validationError w) ∧
    (∀ l, (regexValidator p f).each.run l w = if (∀ s ∈ l, f s = true) then .ok () w else .err .validationError w) ∧
    (∀ s : Str, (defaultValidator : Validator W Str).run s w = .ok () w) ∧ (defaultValidator : Validator W Str).help = [] := by
  have one : ∀ s, (regexValidator p f).run s w = if f s = true then .ok () w else .err .validationError w := by
    intro s
    show (if (!f s) = true then M.throw Exn.validationError else M.pure ()) w = _
    cases f s <;> rfl
  refine ⟨one, fun l => ?_, fun _ => rfl, rfl⟩
  have := forEach_world_unchanged (regexValidator p f).run (fun s => f s = true) l w (fun a _ h => by rw [one, if_pos h])
    (fun a _ h => by rw [one, if_neg h])
  split
  · exact this.1 ‹_›
  · exact this.2 ‹_›

example : Tellable "fa.gz".toList ∧ (regexValidator (W := Unit) "[ab]".toList fun s => s == "a".toList).help =
    "Value must match the pattern '[ab]'.".toList := by
  refine ⟨⟨by decide, by decide, by decide⟩, by decide +kernel⟩

end Sharg
