import Verif.Spec.Files

/-!
# Lemmas on the file system and on file names
-/

set_option linter.unusedSimpArgs false

namespace Sharg

open Spec

/-! ### Path resolution -/

theorem walk_found_iff (fs : Disk) (n : Node) : ∀ (cs : List Str) (at_ : Loc),
    walk fs at_ cs = .found n ↔
      fs.node? (at_ ++ cs) = some n ∧ ∀ q c t, cs = q ++ c :: t → ∃ r w, fs.node? (at_ ++ q) = some (.dir r w true) := by
  intro cs
  induction cs with
  | nil =>
    intro at_
    simp only [walk, List.append_nil]
    constructor
    · intro h
      cases hn : fs.node? at_ with
      | none => simp [hn] at h
      | some m =>
        simp only [hn, Lookup.found.injEq] at h
        subst h
        exact ⟨rfl, by intro q c t h; simp at h⟩
    · rintro ⟨h, _⟩
      simp [h]
  | cons a cs ih =>
    intro at_
    simp only [walk]
    constructor
    · intro h
      cases hn : fs.node? at_ with
      | none => simp [hn] at h
      | some m =>
        cases m with
        | dir r w x =>
          simp only [hn] at h
          cases x with
          | false => simp at h
          | true =>
            simp only [if_true] at h
            obtain ⟨h1, h2⟩ := (ih (at_ ++ [a])).1 h
            refine ⟨by simpa using h1, ?_⟩
            intro q c t hq
            cases q with
            | nil => exact ⟨r, w, by simpa using hn⟩
            | cons b q =>
              rw [List.cons_append] at hq
              injection hq with e1 e2
              subst e1
              obtain ⟨r', w', h3⟩ := h2 q c t e2
              exact ⟨r', w', by simpa using h3⟩
        | file _ _ _ => simp [hn] at h
        | special _ _ => simp [hn] at h
    · rintro ⟨h1, h2⟩
      obtain ⟨r, w, h3⟩ := h2 [] a cs rfl
      rw [List.append_nil] at h3
      simp only [h3, if_true]
      refine (ih (at_ ++ [a])).2 ⟨by simpa using h1, ?_⟩
      intro q c t hq
      obtain ⟨r', w', h4⟩ := h2 (a :: q) c t (by rw [hq]; rfl)
      exact ⟨r', w', by simpa using h4⟩

theorem lookup_found_iff (fs : Disk) (p : Loc) (n : Node) : fs.lookup p = .found n ↔ Reaches fs p n := by
  unfold Disk.lookup Reaches
  rw [walk_found_iff]
  simp

theorem walk_denied_iff (fs : Disk) : ∀ (cs : List Str) (at_ : Loc),
    walk fs at_ cs = .denied ↔
      ∃ q c t r w, cs = q ++ c :: t ∧ walk fs at_ q = .found (.dir r w false) := by
  intro cs
  induction cs with
  | nil =>
    intro at_
    constructor
    · intro h
      simp only [walk] at h
      cases hn : fs.node? at_ <;> simp [hn] at h
    · rintro ⟨q, c, t, r, w, h, _⟩
      simp at h
  | cons a cs ih =>
    intro at_
    constructor
    · intro h
      simp only [walk] at h
      cases hn : fs.node? at_ with
      | none => simp [hn] at h
      | some m =>
        cases m with
        | dir r w x =>
          simp only [hn] at h
          cases x with
          | false => exact ⟨[], a, cs, r, w, rfl, by simp [walk, hn]⟩
          | true =>
            simp only [if_true] at h
            obtain ⟨q, c, t, r', w', h1, h2⟩ := (ih (at_ ++ [a])).1 h
            exact ⟨a :: q, c, t, r', w', by rw [h1]; rfl, by simp [walk, hn, h2]⟩
        | file _ _ _ => simp [hn] at h
        | special _ _ => simp [hn] at h
    · rintro ⟨q, c, t, r, w, h1, h2⟩
      cases q with
      | nil =>
        simp only [walk] at h2 ⊢
        cases hn : fs.node? at_ with
        | none => simp [hn] at h2
        | some m =>
          simp only [hn, Lookup.found.injEq] at h2
          subst h2
          simp
      | cons b q =>
        rw [List.cons_append] at h1
        injection h1 with e1 e2
        subst e1
        simp only [walk] at h2 ⊢
        cases hn : fs.node? at_ with
        | none => simp [hn] at h2
        | some m =>
          cases m with
          | dir r' w' x =>
            simp only [hn] at h2 ⊢
            cases x with
            | false => simp
            | true =>
              simp only [if_true] at h2 ⊢
              exact (ih _).2 ⟨q, c, t, r, w, e2, h2⟩
          | file _ _ _ => simp [hn] at h2
          | special _ _ => simp [hn] at h2

theorem lookup_denied_iff (fs : Disk) (p : Loc) : fs.lookup p = .denied ↔ Denied fs p := by
  unfold Disk.lookup Denied
  rw [walk_denied_iff]
  constructor
  · rintro ⟨q, c, t, r, w, h1, h2⟩
    exact ⟨q, c, t, r, w, h1, (lookup_found_iff fs q _).1 h2⟩
  · rintro ⟨q, c, t, r, w, h1, h2⟩
    exact ⟨q, c, t, r, w, h1, (lookup_found_iff fs q _).2 h2⟩

theorem parentWritable_iff (fs : Disk) (p : Loc) : parentWritable fs p = true ↔ CanCreate fs p := by
  unfold CanCreate
  constructor
  · intro h
    unfold parentWritable at h
    cases p with
    | nil => simp at h
    | cons a p =>
      dsimp only at h
      cases hl : fs.lookup (a :: p).dropLast with
      | found m =>
        cases m with
        | dir r w x =>
          simp only [hl, Bool.and_eq_true] at h
          obtain ⟨rfl, rfl⟩ := h
          refine ⟨(a :: p).dropLast, (a :: p).getLast (by simp), r, ?_, (lookup_found_iff _ _ _).1 hl⟩
          exact (List.dropLast_concat_getLast (by simp)).symm
        | file _ _ _ => simp [hl] at h
        | special _ _ => simp [hl] at h
      | missing => simp [hl] at h
      | denied => simp [hl] at h
  · rintro ⟨q, c, r, rfl, h⟩
    have h := (lookup_found_iff _ _ _).2 h
    unfold parentWritable
    cases hq : q ++ [c] with
    | nil => simp at hq
    | cons a p =>
      dsimp only
      rw [← hq, List.dropLast_concat, h]
      rfl

theorem reaches_unique {fs : Disk} {p : Loc} {n m : Node} (h1 : Reaches fs p n) (h2 : Reaches fs p m) : n = m := by
  have := h1.1.symm.trans h2.1
  injection this

theorem not_denied_of_reaches {fs : Disk} {p : Loc} {n : Node} (h : Reaches fs p n) : ¬ Denied fs p := by
  rw [← lookup_denied_iff, (lookup_found_iff fs p n).2 h]
  simp

/-- If its directory is accessible, a missing object is not on the disk. -/
theorem node_none {fs : Disk} {p : Loc} (hm : fs.lookup p = .missing) (hc : CanCreate fs p) : fs.node? p = none := by
  obtain ⟨q, c, r, rfl, h⟩ := hc
  cases hn : fs.node? (q ++ [c]) with
  | none => rfl
  | some m =>
    have : Reaches fs (q ++ [c]) m := by
      refine ⟨hn, ?_⟩
      intro q' c' t ht
      rcases List.eq_nil_or_concat t with rfl | ⟨t', z, rfl⟩
      · have := List.append_inj' ht (by simp)
        rw [← this.1]
        exact ⟨r, true, h.1⟩
      · rw [show q' ++ c' :: (t'.concat z) = (q' ++ c' :: t') ++ [z] by simp] at ht
        have := List.append_inj' ht (by simp)
        exact h.2 q' c' t' this.1
    rw [← lookup_found_iff, hm] at this
    cases this

theorem node?_eq_none {fs : Disk} {p : Loc} : fs.node? p = none ↔ ∀ e ∈ fs, e.1 ≠ p := by
  unfold Disk.node?
  simp only [Option.map_eq_none_iff, List.find?_eq_none, decide_eq_true_eq]

theorem node?_cons (fs : Disk) (p q : Loc) (n : Node) :
    Disk.node? ((p, n) :: fs) q = if p = q then some n else fs.node? q := by
  unfold Disk.node?
  by_cases h : p = q
  · simp [h]
  · simp [List.find?_cons, h]

theorem node?_filter (fs : Disk) (keep : Loc → Bool) (q : Loc) :
    Disk.node? (fs.filter fun e => keep e.1) q = if keep q then fs.node? q else none := by
  unfold Disk.node?
  induction fs with
  | nil => simp
  | cons e fs ih =>
    by_cases hk : keep e.1
    · rw [List.filter_cons_of_pos (p := fun e : Loc × Node => keep e.1) hk]
      by_cases he : e.1 = q
      · subst he; simp [hk]
      · simp only [List.find?_cons, he, decide_false]
        exact ih
    · rw [List.filter_cons_of_neg (p := fun e : Loc × Node => keep e.1) hk, ih]
      by_cases he : e.1 = q
      · subst he; simp [hk]
      · simp only [List.find?_cons, he, decide_false]

theorem node?_replace (fs : Disk) (p q : Loc) (n : Node) :
    (fs.replace p n).node? q = if p = q then (fs.node? q).map (fun _ => n) else fs.node? q := by
  unfold Disk.node? Disk.replace
  induction fs with
  | nil => simp
  | cons e fs ih =>
    simp only [List.map_cons, List.find?_cons]
    by_cases he : e.1 = p
    · rw [if_pos he]
      dsimp only
      by_cases hq : p = q
      · subst hq; simp [he]
      · have : e.1 ≠ q := fun h => hq (he.symm.trans h)
        simp only [hq, this, decide_false, if_false]
        simpa only [hq, if_false] using ih
    · rw [if_neg he]
      by_cases hq : e.1 = q
      · have : p ≠ q := fun h => he (hq.trans h.symm)
        simp [hq, this]
      · simp only [hq, decide_false]
        exact ih

/-- Resolution only depends on the objects on the way. -/
theorem walk_congr (fs gs : Disk) : ∀ (cs : List Str) (at_ : Loc),
    (∀ q, q <+: cs → fs.node? (at_ ++ q) = gs.node? (at_ ++ q)) → walk fs at_ cs = walk gs at_ cs := by
  intro cs
  induction cs with
  | nil =>
    intro at_ h
    have := h [] (List.prefix_refl _)
    simp only [List.append_nil] at this
    simp only [walk, this]
  | cons a cs ih =>
    intro at_ h
    have h0 := h [] (List.nil_prefix)
    simp only [List.append_nil] at h0
    simp only [walk, h0]
    rw [ih (at_ ++ [a])]
    intro q hq
    have := h (a :: q) (by rw [List.cons_prefix_cons]; exact ⟨rfl, hq⟩)
    simpa using this

theorem lookup_congr {fs gs : Disk} {p : Loc} (h : ∀ q, q <+: p → fs.node? q = gs.node? q) : fs.lookup p = gs.lookup p :=
  walk_congr fs gs p [] (by simpa using h)

theorem reaches_congr {fs gs : Disk} {p : Loc} {n : Node} (h : ∀ q, q <+: p → fs.node? q = gs.node? q)
    (hr : Reaches fs p n) : Reaches gs p n := by
  rw [← lookup_found_iff] at hr ⊢
  rw [← lookup_congr h, hr]

theorem prefix_ne_of_concat {q q' : Loc} {c : Str} (h : q' <+: q) : q' ≠ q ++ [c] := by
  intro e
  have := h.length_le
  rw [e] at this
  simp at this
  omega

/-- The parent directory does not notice changes of the object itself. -/
theorem canCreate_congr {fs gs : Disk} {p : Loc} (h : ∀ q, q <+: p → q ≠ p → fs.node? q = gs.node? q) (hc : CanCreate fs p) :
    CanCreate gs p := by
  obtain ⟨q, c, r, rfl, hr⟩ := hc
  exact ⟨q, c, r, rfl, reaches_congr (fun q' hq' => h q' (hq'.trans (List.prefix_append _ _)) (prefix_ne_of_concat hq')) hr⟩

theorem filter_new (fs : Disk) (p : Loc) (n : Node) (h : fs.node? p = none) :
    ((p, n) :: fs).filter (fun e => decide (e.1 ≠ p)) = fs := by
  rw [List.filter_cons_of_neg (by simp)]
  rw [List.filter_eq_self]
  intro e he
  have := node?_eq_none.1 h e he
  simpa using this

theorem reaches_new {fs : Disk} {p : Loc} (n : Node) (hm : fs.lookup p = .missing) (hc : CanCreate fs p) :
    Reaches ((p, n) :: fs) p n := by
  refine ⟨by rw [node?_cons]; simp, ?_⟩
  intro q c t ht
  have hne : p ≠ q := by
    intro e
    rw [e] at ht
    have := congrArg List.length ht
    simp at this
  rw [node?_cons, if_neg hne]
  obtain ⟨q', c', r, rfl, hr⟩ := hc
  rcases List.eq_nil_or_concat t with rfl | ⟨t', z, rfl⟩
  · have := List.append_inj' ht (by simp)
    rw [← this.1]
    exact ⟨r, true, hr.1⟩
  · rw [show q ++ c :: (t'.concat z) = (q ++ c :: t') ++ [z] by simp] at ht
    have := List.append_inj' ht (by simp)
    exact hr.2 q c t' this.1

/-! ### File names -/

theorem lowerChar_eq_iff (a b : Char) : lowerChar a = lowerChar b ↔ SameLetter a b := by
  have hofNat : ∀ c : Char, c.toNat ≤ 90 → (Char.ofNat (c.toNat + 32)).toNat = c.toNat + 32 := by
    intro c hc
    have : (c.toNat + 32).isValidChar := Or.inl (by omega)
    rw [Char.ofNat, dif_pos this]
    rfl
  have hinj : ∀ c d : Char, c.toNat = d.toNat → c = d := by
    intro c d h
    exact Char.toNat_inj.1 h
  have e1 : 'A'.toNat = 65 := rfl
  have e2 : 'Z'.toNat = 90 := rfl
  unfold lowerChar SameLetter
  rw [e1, e2]
  by_cases ha : 65 ≤ a.toNat ∧ a.toNat ≤ 90 <;> by_cases hb : 65 ≤ b.toNat ∧ b.toNat ≤ 90
  · rw [if_pos ha, if_pos hb]
    constructor
    · intro h
      have := congrArg Char.toNat h
      rw [hofNat a ha.2, hofNat b hb.2] at this
      exact Or.inl (hinj _ _ (by omega))
    · rintro (rfl | h | h)
      · rfl
      · omega
      · omega
  · rw [if_pos ha, if_neg hb]
    constructor
    · intro h
      have := congrArg Char.toNat h
      rw [hofNat a ha.2] at this
      exact Or.inr (Or.inl ⟨ha.1, ha.2, this.symm⟩)
    · rintro (rfl | h | h)
      · exact absurd ha hb
      · exact hinj _ _ (by rw [hofNat a ha.2]; omega)
      · omega
  · rw [if_neg ha, if_pos hb]
    constructor
    · intro h
      have := congrArg Char.toNat h
      rw [hofNat b hb.2] at this
      exact Or.inr (Or.inr ⟨hb.1, hb.2, this⟩)
    · rintro (rfl | h | h)
      · exact absurd hb ha
      · omega
      · exact hinj _ _ (by rw [hofNat b hb.2]; omega)
  · rw [if_neg ha, if_neg hb]
    constructor
    · intro h; exact Or.inl h
    · rintro (rfl | h | h)
      · rfl
      · omega
      · omega

theorem sameText_length : ∀ {s t : Str}, SameText s t → s.length = t.length
  | [], [], _ => rfl
  | _ :: s, _ :: t, h => by simp [sameText_length h.2]
  | [], _ :: _, h => h.elim
  | _ :: _, [], h => h.elim

theorem sameIgnoringCase_iff : ∀ (s t : Str), s.length = t.length → (sameIgnoringCase s t = true ↔ SameText s t)
  | [], [], _ => by simp [sameIgnoringCase, SameText]
  | a :: s, b :: t, h => by
    have ih := sameIgnoringCase_iff s t (by simpa using h)
    simp only [sameIgnoringCase, SameText, ← lowerChar_eq_iff, ← ih]
    by_cases hab : lowerChar a = lowerChar b <;> simp [hab]
  | [], _ :: _, h => by simp at h
  | _ :: _, [], h => by simp at h

theorem endsWithIgnoringCase_iff (str suffix : Str) :
    endsWithIgnoringCase str suffix = true ↔ ∃ base e, str = base ++ e ∧ SameText e suffix := by
  unfold endsWithIgnoringCase
  by_cases h : suffix.length > str.length
  · rw [if_pos h]
    constructor
    · intro h; cases h
    · rintro ⟨base, e, rfl, hs⟩
      have := sameText_length hs
      rw [List.length_append] at h
      omega
  · rw [if_neg h, sameIgnoringCase_iff _ _ (by rw [List.length_drop]; omega)]
    constructor
    · intro hs
      exact ⟨str.take (str.length - suffix.length), _, (List.take_append_drop _ _).symm, hs⟩
    · rintro ⟨base, e, rfl, hs⟩
      have := sameText_length hs
      have hb : (base ++ e).length - suffix.length = base.length := by rw [List.length_append]; omega
      rw [hb, List.drop_left]
      exact hs

theorem hasExtension_iff (name : Str) :
    hasExtension name = true ↔ (∃ base e, name = base ++ '.' :: e ∧ base ≠ []) ∧ name ≠ ['.', '.'] := by
  unfold hasExtension
  rw [Bool.and_eq_true, decide_eq_true_iff, decide_eq_true_iff, And.comm]
  constructor
  · rintro ⟨h1, h2⟩
    refine ⟨?_, h2⟩
    cases name with
    | nil => simp at h1
    | cons a t =>
      obtain ⟨s, u, hs⟩ := List.append_of_mem h1
      rw [List.tail_cons] at hs
      exact ⟨a :: s, u, by rw [hs]; rfl, by simp⟩
  · rintro ⟨⟨base, e, rfl, hb⟩, h2⟩
    refine ⟨?_, h2⟩
    cases base with
    | nil => exact absurd rfl hb
    | cons a t => simp

/-- `validate_filename` accepts exactly the names of the specification and does not touch the disk. -/
theorem validateFilename_spec (exts : List Str) (name : Str) (fs : Disk) :
    (NameAccepted exts name → validateFilename exts name fs = .ok () fs) ∧
      (¬ NameAccepted exts name → validateFilename exts name fs = .err .validationError fs) := by
  unfold validateFilename NameAccepted
  by_cases he : exts = []
  · subst he
    constructor
    · intro _; rfl
    · intro h; exact absurd (Or.inl rfl) h
  · have hE : exts.isEmpty = false := by cases exts <;> simp_all
    rw [hE]
    simp only [Bool.false_eq_true, if_false, he, false_or]
    rw [← and_assoc, ← hasExtension_iff]
    cases hx : hasExtension name with
    | false =>
      simp only [Bool.not_false, if_true, Bool.false_eq_true, false_and]
      exact ⟨fun h => h.elim, fun _ => rfl⟩
    | true =>
      simp only [Bool.not_true, Bool.false_eq_true, if_false, true_and]
      have hany : exts.any (endsWithIgnoringCase (if name.head? = some '.' then name.tail else name)) = true ↔
          ∃ ext ∈ exts, ∃ base e, (name = base ++ e ∧ name.head? ≠ some '.' ∨ name = '.' :: (base ++ e)) ∧ SameText e ext := by
        rw [List.any_eq_true]
        constructor
        · rintro ⟨ext, hm, h⟩
          obtain ⟨base, e, h1, h2⟩ := (endsWithIgnoringCase_iff _ _).1 h
          refine ⟨ext, hm, base, e, ?_, h2⟩
          by_cases hd : name.head? = some '.'
          · rw [if_pos hd] at h1
            cases name with
            | nil => simp at hd
            | cons a t =>
              simp only [List.head?_cons, Option.some.injEq] at hd
              rw [List.tail_cons] at h1
              exact Or.inr (by rw [hd, h1])
          · rw [if_neg hd] at h1
            exact Or.inl ⟨h1, hd⟩
        · rintro ⟨ext, hm, base, e, h1, h2⟩
          refine ⟨ext, hm, (endsWithIgnoringCase_iff _ _).2 ⟨base, e, ?_, h2⟩⟩
          rcases h1 with ⟨h1, hd⟩ | h1
          · rw [if_neg hd]; exact h1
          · rw [h1]; simp
      rw [← hany]
      cases exts.any (endsWithIgnoringCase (if name.head? = some '.' then name.tail else name)) with
      | true => exact ⟨fun _ => rfl, fun h => absurd rfl h⟩
      | false => exact ⟨(fun h => nomatch h), (fun _ => rfl)⟩

end Sharg
