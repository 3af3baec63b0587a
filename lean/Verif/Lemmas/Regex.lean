import Verif.Model.Regex
import Verif.Spec.Regex

/-!
# Lemmas on patterns
-/

namespace Sharg

open Spec

/-! ### Matching -/

/-- What a pattern that was read means. -/
def Re.lang : Re → Meaning
  | .eps => .nothing
  | .set k => .char fun c => k.has c = true
  | .first => .begin
  | .last => .stop
  | .seq a b => a.lang.followed b.lang
  | .alt a b => a.lang.or b.lang
  | .many a => fun start s fin => ∃ k, a.lang.power k start s fin

theorem followed_nil {A B : Meaning} {start fin : Bool} : A.followed B start [] fin ↔ A start [] fin ∧ B start [] fin := by
  constructor
  · rintro ⟨u, v, h, h1, h2⟩
    have h := List.append_eq_nil_iff.1 h.symm
    obtain ⟨rfl, rfl⟩ := h
    simpa using And.intro h1 h2
  · rintro ⟨h1, h2⟩
    exact ⟨[], [], rfl, by simpa using h1, by simpa using h2⟩

theorem followed_cons {A B : Meaning} {start fin : Bool} {c : Char} {s : Str} : A.followed B start (c :: s) fin ↔
    (A start [] false ∧ B start (c :: s) fin) ∨
      ∃ u v, s = u ++ v ∧ A start (c :: u) (fin && v.isEmpty) ∧ B false v fin := by
  constructor
  · rintro ⟨u, v, h, h1, h2⟩
    cases u with
    | nil =>
      have h : c :: s = v := h
      subst h
      left
      simpa using And.intro h1 h2
    | cons d u =>
      simp only [List.cons_append, List.cons.injEq] at h
      obtain ⟨rfl, rfl⟩ := h
      right
      exact ⟨u, v, rfl, h1, by simpa using h2⟩
  · rintro (⟨h1, h2⟩ | ⟨u, v, rfl, h1, h2⟩)
    · exact ⟨[], c :: s, rfl, by simpa using h1, by simpa using h2⟩
    · exact ⟨c :: u, v, rfl, h1, by simpa using h2⟩

theorem nullable_iff (r : Re) (start fin : Bool) : r.nullable start fin = true ↔ r.lang start [] fin := by
  induction r with
  | eps => simp [Re.nullable, Re.lang, Meaning.nothing]
  | set k => simp [Re.nullable, Re.lang, Meaning.char]
  | first => simp [Re.nullable, Re.lang, Meaning.begin]
  | last => simp [Re.nullable, Re.lang, Meaning.stop]
  | seq a b iha ihb =>
    rw [Re.nullable, Bool.and_eq_true, iha, ihb]
    exact followed_nil.symm
  | alt a b iha ihb =>
    rw [Re.nullable, Bool.or_eq_true, iha, ihb]
    exact Iff.rfl
  | many a =>
    simp only [Re.nullable, true_iff]
    exact ⟨0, rfl⟩

theorem not_lang_none {start fin : Bool} {s : Str} : ¬ Re.none.lang start s fin := by
  rintro ⟨c, -, h⟩
  simp [CharSet.has] at h

theorem behind_iff (r : Re) (start fin : Bool) (c : Char) (s : Str) :
    (r.behind start c).lang false s fin ↔ r.lang start (c :: s) fin := by
  induction r generalizing s fin with
  | eps => exact ⟨fun h => absurd h not_lang_none, fun h => by cases h⟩
  | set k =>
    by_cases h : k.has c = true
    · rw [Re.behind, if_pos h]
      constructor
      · rintro rfl
        exact ⟨c, rfl, h⟩
      · rintro ⟨d, hd, -⟩
        simp only [List.cons.injEq] at hd
        exact hd.2
    · rw [Re.behind, if_neg h]
      refine ⟨fun h => absurd h not_lang_none, ?_⟩
      rintro ⟨d, hd, hk⟩
      simp only [List.cons.injEq] at hd
      rw [← hd.1] at hk
      exact absurd hk h
  | first => exact ⟨fun h => absurd h not_lang_none, fun h => by cases h.1⟩
  | last => exact ⟨fun h => absurd h not_lang_none, fun h => by cases h.1⟩
  | seq a b iha ihb =>
    refine Iff.trans ?_ followed_cons.symm
    rw [or_comm]
    refine or_congr ?_ ?_
    · constructor
      · rintro ⟨u, v, rfl, h1, h2⟩
        exact ⟨u, v, rfl, (iha _ _).1 h1, by simpa using h2⟩
      · rintro ⟨u, v, rfl, h1, h2⟩
        exact ⟨u, v, rfl, (iha _ _).2 h1, by simpa using h2⟩
    · by_cases hn : a.nullable start false = true
      · rw [if_pos hn, ihb]
        exact ⟨fun h => ⟨(nullable_iff _ _ _).1 hn, h⟩, fun h => h.2⟩
      · rw [if_neg hn]
        exact ⟨fun h => absurd h not_lang_none, fun h => absurd ((nullable_iff _ _ _).2 h.1) hn⟩
  | alt a b iha ihb => exact or_congr (iha _ _) (ihb _ _)
  | many a iha =>
    constructor
    · rintro ⟨u, v, rfl, h1, k, h2⟩
      exact ⟨k + 1, followed_cons.2 (Or.inr ⟨u, v, rfl, (iha _ _).1 h1, by simpa using h2⟩)⟩
    · rintro ⟨k, hk⟩
      induction k with
      | zero => cases hk
      | succ k ih =>
        rcases followed_cons.1 hk with ⟨-, h⟩ | ⟨u, v, rfl, h1, h2⟩
        · exact ih h
        · exact ⟨u, v, rfl, (iha _ _).2 h1, k, by simpa using h2⟩

theorem matchFrom_iff (r : Re) (start : Bool) (s : Str) : r.matchFrom start s = true ↔ r.lang start s true := by
  induction s generalizing r start with
  | nil => exact nullable_iff r start true
  | cons c s ih => rw [Re.matchFrom, ih, behind_iff]

/-! ### Repetitions -/

theorem nothing_followed (A : Meaning) : Meaning.nothing.followed A = A := by
  funext start s fin
  apply propext
  constructor
  · rintro ⟨u, v, rfl, h1, h2⟩
    have : u = [] := h1
    subst this
    simpa using h2
  · intro h
    exact ⟨[], s, rfl, rfl, by simpa using h⟩

theorem isEmpty_both (u v : Str) : (u ++ v).isEmpty = (u.isEmpty && v.isEmpty) := by cases u <;> rfl

theorem followed_assoc (A B C : Meaning) : (A.followed B).followed C = A.followed (B.followed C) := by
  funext start s fin
  apply propext
  constructor
  · rintro ⟨x, w, rfl, ⟨u, v, rfl, h1, h2⟩, h3⟩
    rw [isEmpty_both, ← Bool.and_assoc] at h3
    refine ⟨u, v ++ w, by simp, ?_, v, w, rfl, h2, h3⟩
    rw [isEmpty_both, Bool.and_comm v.isEmpty, ← Bool.and_assoc]
    exact h1
  · rintro ⟨u, x, rfl, h1, v, w, rfl, h2, h3⟩
    rw [isEmpty_both, Bool.and_comm v.isEmpty, ← Bool.and_assoc] at h1
    refine ⟨u ++ v, w, by simp, ⟨u, v, rfl, h1, h2⟩, ?_⟩
    rw [isEmpty_both, ← Bool.and_assoc]
    exact h3

theorem power_add (A : Meaning) (n k : Nat) : A.power (n + k) = (A.power n).followed (A.power k) := by
  induction n with
  | zero => rw [Nat.zero_add]; exact (nothing_followed _).symm
  | succ n ih =>
    rw [Nat.add_right_comm]
    show A.followed (A.power (n + k)) = _
    rw [ih, ← followed_assoc]
    rfl

theorem power_lang (a : Re) (n : Nat) : (a.power n).lang = a.lang.power n := by
  induction n with
  | zero => rfl
  | succ n ih => show a.lang.followed (a.power n).lang = _; rw [ih]; rfl

theorem atMost_lang (a : Re) (n : Nat) (start fin : Bool) (s : Str) :
    (a.atMost n).lang start s fin ↔ ∃ k, k ≤ n ∧ a.lang.power k start s fin := by
  induction n generalizing start s fin with
  | zero =>
    constructor
    · intro h; exact ⟨0, Nat.le_refl _, h⟩
    · rintro ⟨k, hk, h⟩
      obtain rfl : k = 0 := by omega
      exact h
  | succ n ih =>
    constructor
    · rintro (h | ⟨u, v, rfl, h1, h2⟩)
      · exact ⟨0, by omega, h⟩
      · obtain ⟨k, hk, h⟩ := (ih _ _ _).1 h2
        exact ⟨k + 1, by omega, u, v, rfl, h1, h⟩
    · rintro ⟨k, hk, h⟩
      cases k with
      | zero => exact Or.inl h
      | succ k =>
        obtain ⟨u, v, rfl, h1, h2⟩ := h
        exact Or.inr ⟨u, v, rfl, h1, (ih _ _ _).2 ⟨k, by omega, h2⟩⟩

theorem times_lang (a : Re) (n : Nat) (m : Option Nat) (h : ∀ l, m = some l → n ≤ l) :
    (a.times (some (n, m))).lang = a.lang.repeated n m := by
  funext start s fin
  apply propext
  cases m with
  | none =>
    constructor
    · rintro ⟨u, v, rfl, h1, k, h2⟩
      refine ⟨n + k, by omega, by simp, ?_⟩
      rw [power_add]
      exact ⟨u, v, rfl, by rw [← power_lang]; exact h1, h2⟩
    · rintro ⟨k, hk, -, h⟩
      obtain ⟨j, rfl⟩ : ∃ j, k = n + j := ⟨k - n, by omega⟩
      rw [power_add] at h
      obtain ⟨u, v, rfl, h1, h2⟩ := h
      exact ⟨u, v, rfl, by rw [power_lang]; exact h1, j, h2⟩
  | some m =>
    have := h m rfl
    constructor
    · rintro ⟨u, v, rfl, h1, h2⟩
      obtain ⟨k, hk, h2⟩ := (atMost_lang _ _ _ _ _).1 h2
      refine ⟨n + k, by omega, ?_, ?_⟩
      · rintro l ⟨⟩
        omega
      · rw [power_add]
        exact ⟨u, v, rfl, by rw [← power_lang]; exact h1, h2⟩
    · rintro ⟨k, hk, hl, h⟩
      have := hl m rfl
      obtain ⟨j, rfl⟩ : ∃ j, k = n + j := ⟨k - n, by omega⟩
      rw [power_add] at h
      obtain ⟨u, v, rfl, h1, h2⟩ := h
      exact ⟨u, v, rfl, by rw [power_lang]; exact h1, (atMost_lang _ _ _ _ _).2 ⟨j, by omega, h2⟩⟩

/-! ### Characters -/

theorem has_false (rs : List (Char × Char)) (c : Char) :
    CharSet.has ⟨false, rs⟩ c = true ↔ ∃ r ∈ rs, Between r.1 r.2 c := by
  simp [CharSet.has, Between]

theorem has_true (rs : List (Char × Char)) (c : Char) :
    CharSet.has ⟨true, rs⟩ c = true ↔ ¬ ∃ r ∈ rs, Between r.1 r.2 c := by
  rw [← has_false]
  simp [CharSet.has]

theorem between_same (a c : Char) : Between a a c ↔ c = a := by
  constructor
  · rintro ⟨h1, h2⟩
    exact Char.toNat_inj.1 (Nat.le_antisymm h2 h1)
  · rintro rfl
    exact ⟨Nat.le_refl _, Nat.le_refl _⟩

theorem has_single (a c : Char) : (single a).has c = true ↔ c = a := by
  rw [single, has_false]
  simp [between_same]

theorem has_word (c : Char) : CharSet.has ⟨false, wordRanges⟩ c = true ↔ IsWordChar c := by
  rw [has_false]
  simp [wordRanges, between_same, IsWordChar, IsLower, IsUpper, IsDigitChar]

theorem has_space (c : Char) : CharSet.has ⟨false, [(' ', ' '), ('\t', '\r')]⟩ c = true ↔ IsSpaceChar c := by
  rw [has_false]
  simp [between_same, IsSpaceChar]

theorem has_digit (c : Char) : CharSet.has ⟨false, [('0', '9')]⟩ c = true ↔ IsDigitChar c := by
  rw [has_false]
  simp [IsDigitChar]

theorem has_neg (rs : List (Char × Char)) (c : Char) :
    CharSet.has ⟨true, rs⟩ c = true ↔ ¬ CharSet.has ⟨false, rs⟩ c = true := by
  rw [has_true, has_false]

/-- The set holds exactly the characters with the property. -/
def CharSet.Is (k : CharSet) (P : Char → Prop) : Prop := (fun c => k.has c = true) = P

theorem CharSet.is_of {k : CharSet} {P : Char → Prop} (h : ∀ c, k.has c = true ↔ P c) : k.Is P :=
  funext fun c => propext (h c)

/-- A character behind a backslash, in brackets. -/
theorem escapeSet_of_escape {c : Char} {P : Char → Prop} (h : Escape c P) :
    ∃ k, escapeSet c = some k ∧ k.neg = false ∧ k.Is P := by
  cases h with
  | digit => exact ⟨_, rfl, rfl, CharSet.is_of has_digit⟩
  | word => exact ⟨_, rfl, rfl, CharSet.is_of has_word⟩
  | space => exact ⟨_, rfl, rfl, CharSet.is_of has_space⟩
  | tab => exact ⟨_, rfl, rfl, CharSet.is_of (has_single _)⟩
  | newline => exact ⟨_, rfl, rfl, CharSet.is_of (has_single _)⟩
  | vertical => exact ⟨_, rfl, rfl, CharSet.is_of (has_single _)⟩
  | feed => exact ⟨_, rfl, rfl, CharSet.is_of (has_single _)⟩
  | «return» => exact ⟨_, rfl, rfl, CharSet.is_of (has_single _)⟩
  | itself hn =>
    refine ⟨single c, ?_, rfl, CharSet.is_of (has_single _)⟩
    have hw : ∀ d, IsWordChar d → c ≠ d := by rintro d hd rfl; exact hn hd
    have l : ∀ d, IsLower d → c ≠ d := fun d hd => hw d (Or.inl hd)
    have u : ∀ d, IsUpper d → c ≠ d := fun d hd => hw d (Or.inr (Or.inl hd))
    unfold escapeSet
    rw [if_neg (l _ ⟨by decide, by decide⟩), if_neg (u _ ⟨by decide, by decide⟩), if_neg (l _ ⟨by decide, by decide⟩), if_neg (u _ ⟨by decide, by decide⟩),
      if_neg (l _ ⟨by decide, by decide⟩), if_neg (u _ ⟨by decide, by decide⟩), if_neg (l _ ⟨by decide, by decide⟩), if_neg (l _ ⟨by decide, by decide⟩),
      if_neg (l _ ⟨by decide, by decide⟩), if_neg (l _ ⟨by decide, by decide⟩), if_neg (l _ ⟨by decide, by decide⟩),
      if_neg (fun h => hn ((has_word c).1 h))]

theorem escapeSet_of_neg {c : Char} {P : Char → Prop} (h : NegEscape c P) : ∃ k, escapeSet c = some k ∧ k.Is P := by
  cases h with
  | digit => exact ⟨_, rfl, CharSet.is_of fun c => by rw [has_neg, has_digit]⟩
  | word => exact ⟨_, rfl, CharSet.is_of fun c => by rw [has_neg, has_word]⟩
  | space => exact ⟨_, rfl, CharSet.is_of fun c => by rw [has_neg, has_space]⟩

/-- What the model reads behind a backslash is as specified. -/
theorem escape_of_escapeSet {c : Char} {k : CharSet} (h : escapeSet c = some k) :
    (k.neg = false ∧ Escape c fun d => k.has d = true) ∨ (k.neg = true ∧ NegEscape c fun d => k.has d = true) := by
  have pos : ∀ {k : CharSet} {P}, k.neg = false → k.Is P → Escape c P →
      (k.neg = false ∧ Escape c fun d => k.has d = true) ∨ (k.neg = true ∧ NegEscape c fun d => k.has d = true) := by
    rintro k P h1 h2 h3
    rw [← h2] at h3
    exact Or.inl ⟨h1, h3⟩
  have neg : ∀ {k : CharSet} {P}, k.neg = true → k.Is P → NegEscape c P →
      (k.neg = false ∧ Escape c fun d => k.has d = true) ∨ (k.neg = true ∧ NegEscape c fun d => k.has d = true) := by
    rintro k P h1 h2 h3
    rw [← h2] at h3
    exact Or.inr ⟨h1, h3⟩
  unfold escapeSet at h
  by_cases h1 : c = 'd'
  · subst h1; rw [if_pos rfl] at h; cases h; exact pos rfl (CharSet.is_of has_digit) .digit
  rw [if_neg h1] at h
  by_cases h2 : c = 'D'
  · subst h2; rw [if_pos rfl] at h; cases h
    exact neg rfl (CharSet.is_of fun c => by rw [has_neg, has_digit]) .digit
  rw [if_neg h2] at h
  by_cases h3 : c = 'w'
  · subst h3; rw [if_pos rfl] at h; cases h; exact pos rfl (CharSet.is_of has_word) .word
  rw [if_neg h3] at h
  by_cases h4 : c = 'W'
  · subst h4; rw [if_pos rfl] at h; cases h
    exact neg rfl (CharSet.is_of fun c => by rw [has_neg, has_word]) .word
  rw [if_neg h4] at h
  by_cases h5 : c = 's'
  · subst h5; rw [if_pos rfl] at h; cases h; exact pos rfl (CharSet.is_of has_space) .space
  rw [if_neg h5] at h
  by_cases h6 : c = 'S'
  · subst h6; rw [if_pos rfl] at h; cases h
    exact neg rfl (CharSet.is_of fun c => by rw [has_neg, has_space]) .space
  rw [if_neg h6] at h
  by_cases h7 : c = 't'
  · subst h7; rw [if_pos rfl] at h; cases h; exact pos rfl (CharSet.is_of (has_single _)) .tab
  rw [if_neg h7] at h
  by_cases h8 : c = 'n'
  · subst h8; rw [if_pos rfl] at h; cases h; exact pos rfl (CharSet.is_of (has_single _)) .newline
  rw [if_neg h8] at h
  by_cases h9 : c = 'v'
  · subst h9; rw [if_pos rfl] at h; cases h; exact pos rfl (CharSet.is_of (has_single _)) .vertical
  rw [if_neg h9] at h
  by_cases h10 : c = 'f'
  · subst h10; rw [if_pos rfl] at h; cases h; exact pos rfl (CharSet.is_of (has_single _)) .feed
  rw [if_neg h10] at h
  by_cases h11 : c = 'r'
  · subst h11; rw [if_pos rfl] at h; cases h; exact pos rfl (CharSet.is_of (has_single _)) .return
  rw [if_neg h11] at h
  by_cases h12 : CharSet.has ⟨false, wordRanges⟩ c = true
  · rw [if_pos h12] at h; cases h
  rw [if_neg h12] at h
  cases h
  exact pos rfl (CharSet.is_of (has_single _)) (.itself fun hw => h12 ((has_word c).2 hw))

theorem escapeSet_nonempty {c : Char} : escapeSet c ≠ some ⟨false, []⟩ := by
  intro h
  rcases escape_of_escapeSet h with ⟨-, h⟩ | ⟨h, -⟩
  · have hP : ∀ {P : Char → Prop}, Escape c P → ∃ d, P d := by
      intro P h
      cases h with
      | digit => exact ⟨'0', by decide, by decide⟩
      | word => exact ⟨'_', Or.inr (Or.inr (Or.inr rfl))⟩
      | space => exact ⟨' ', Or.inl rfl⟩
      | tab => exact ⟨_, rfl⟩
      | newline => exact ⟨_, rfl⟩
      | vertical => exact ⟨_, rfl⟩
      | feed => exact ⟨_, rfl⟩
      | «return» => exact ⟨_, rfl⟩
      | itself _ => exact ⟨_, rfl⟩
    obtain ⟨d, hd⟩ := hP h
    rw [has_false] at hd
    obtain ⟨r, hr, -⟩ := hd
    cases hr
  · cases h

/-! ### Brackets -/

theorem has_append (rs l : List (Char × Char)) (c : Char) :
    CharSet.has ⟨false, rs ++ l⟩ c = true ↔ CharSet.has ⟨false, rs⟩ c = true ∨ CharSet.has ⟨false, l⟩ c = true := by
  simp only [has_false, List.mem_append, or_and_right, exists_or]

theorem has_cons (r : Char × Char) (l : List (Char × Char)) (c : Char) :
    CharSet.has ⟨false, r :: l⟩ c = true ↔ Between r.1 r.2 c ∨ CharSet.has ⟨false, l⟩ c = true := by
  simp only [has_false, List.mem_cons, or_and_right, exists_or, exists_eq_left]

theorem listed_dash {s : Str} {P : Char → Prop} (h : Listed s P) (hd : s.head? = some '-') : s = ['-'] := by
  cases h with
  | none => cases hd
  | dash => rfl
  | one ho _ => simp only [List.head?_cons, Option.some.injEq] at hd; exact absurd hd ho.2.1
  | range ho _ _ _ => simp only [List.head?_cons, Option.some.injEq] at hd; exact absurd hd ho.2.1
  | named _ _ => exact absurd hd (show some '[' ≠ some '-' by decide)
  | escape _ _ => exact absurd hd (by simp)

theorem named_mem {n : Str} {N : Char → Prop} (h : Named n N) :
    ∃ rs, (n, rs) ∈ classNames ∧ CharSet.Is ⟨false, rs⟩ N ∧ rs ≠ [] ∧
      ∀ s, classNameOf (":".toList ++ n ++ ":]".toList ++ s) classNames = some (rs, s) := by
  cases h with
  | digit => exact ⟨[('0', '9')], by decide, CharSet.is_of has_digit, by decide, fun s => rfl⟩
  | lower => exact ⟨[('a', 'z')], by decide, CharSet.is_of fun c => by rw [has_false]; simp [IsLower], by decide, fun s => rfl⟩
  | upper => exact ⟨[('A', 'Z')], by decide, CharSet.is_of fun c => by rw [has_false]; simp [IsUpper], by decide, fun s => rfl⟩
  | alpha =>
    exact ⟨[('a', 'z'), ('A', 'Z')], by decide, CharSet.is_of fun c => by rw [has_false]; simp [IsUpper, IsLower], by decide,
      fun s => rfl⟩
  | alnum =>
    exact ⟨[('0', '9'), ('a', 'z'), ('A', 'Z')], by decide,
      CharSet.is_of fun c => by rw [has_false]; simp [IsUpper, IsLower, IsDigitChar], by decide, fun s => rfl⟩
  | xdigit =>
    exact ⟨[('0', '9'), ('a', 'f'), ('A', 'F')], by decide, CharSet.is_of fun c => by rw [has_false]; simp [IsDigitChar], by decide,
      fun s => rfl⟩
  | space => exact ⟨[(' ', ' '), ('\t', '\r')], by decide, CharSet.is_of has_space, by decide, fun s => rfl⟩

theorem mem_named {n : Str} {rs : List (Char × Char)} (h : (n, rs) ∈ classNames) :
    Named n fun c => CharSet.has ⟨false, rs⟩ c = true := by
  have key : ∀ {N : Char → Prop}, CharSet.Is ⟨false, rs⟩ N → Named n N → Named n fun c => CharSet.has ⟨false, rs⟩ c = true := by
    intro N h1 h2
    have h1 : (fun c => CharSet.has ⟨false, rs⟩ c = true) = N := h1
    rw [h1]
    exact h2
  simp only [classNames, List.mem_cons, Prod.mk.injEq, List.not_mem_nil, or_false] at h
  rcases h with ⟨rfl, rfl⟩ | ⟨rfl, rfl⟩ | ⟨rfl, rfl⟩ | ⟨rfl, rfl⟩ | ⟨rfl, rfl⟩ | ⟨rfl, rfl⟩ | ⟨rfl, rfl⟩
  · exact key (CharSet.is_of has_digit) .digit
  · exact key (CharSet.is_of fun c => by rw [has_false]; simp [IsLower]) .lower
  · exact key (CharSet.is_of fun c => by rw [has_false]; simp [IsUpper]) .upper
  · exact key (CharSet.is_of fun c => by rw [has_false]; simp [IsUpper, IsLower]) .alpha
  · exact key (CharSet.is_of fun c => by rw [has_false]; simp [IsUpper, IsLower, IsDigitChar]) .alnum
  · exact key (CharSet.is_of fun c => by rw [has_false]; simp [IsDigitChar]) .xdigit
  · exact key (CharSet.is_of has_space) .space

theorem classNameOf_some {s s' : Str} {rs : List (Char × Char)} {l : List (Str × List (Char × Char))}
    (h : classNameOf s l = some (rs, s')) : ∃ n, (n, rs) ∈ l ∧ s = ":".toList ++ n ++ ":]".toList ++ s' := by
  induction l with
  | nil => cases h
  | cons a l ih =>
    obtain ⟨n, ks⟩ := a
    unfold classNameOf at h
    by_cases hp : (":".toList ++ n ++ ":]".toList).isPrefixOf s = true
    · rw [if_pos hp] at h
      cases h
      refine ⟨n, List.mem_cons_self .., ?_⟩
      obtain ⟨t, rfl⟩ := List.isPrefixOf_iff_prefix.1 hp
      congr 1
      have : n.length + 3 = (":".toList ++ n ++ ":]".toList).length := by
        simp only [List.length_append]
        show _ = 1 + _ + 2
        omega
      rw [this, List.drop_left]
    · rw [if_neg hp] at h
      obtain ⟨n', h1, h2⟩ := ih h
      exact ⟨n', List.mem_cons_of_mem _ h1, h2⟩

/-- Everything that may stand between brackets is read. -/
theorem readItems_listed {p : Str} {P : Char → Prop} (h : Listed p P) : ∃ rs, CharSet.Is ⟨false, rs⟩ P ∧ (p ≠ [] → rs ≠ []) ∧
    ∀ rest n, p.length + 1 ≤ n → readItems n (p ++ ']' :: rest) = .ok (rs, rest) := by
  have fuel : ∀ {n m : Nat}, m + 1 ≤ n → ∃ k, n = k + 1 ∧ m ≤ k := fun {n m} h => ⟨n - 1, by omega, by omega⟩
  induction h with
  | none =>
    refine ⟨[], CharSet.is_of fun c => by simp [has_false], fun h => absurd rfl h, fun rest n hn => ?_⟩
    obtain ⟨k, rfl, -⟩ := fuel hn
    rfl
  | dash =>
    refine ⟨[('-', '-')], CharSet.is_of fun c => by rw [has_false]; simp [between_same], fun _ => by simp, fun rest n hn => ?_⟩
    obtain ⟨k, rfl, -⟩ := fuel hn
    rfl
  | @one c s P ho hs ih =>
    obtain ⟨rs, h1, -, h3⟩ := ih
    have h1 : (fun c => CharSet.has ⟨false, rs⟩ c = true) = P := h1
    refine ⟨(c, c) :: rs, CharSet.is_of fun d => by rw [has_cons, between_same, ← h1], fun _ => by simp, fun rest n hn => ?_⟩
    obtain ⟨k, rfl, hk⟩ := fuel hn
    have hnot : ¬ ((s ++ ']' :: rest).head? = some '-' ∧ (s ++ ']' :: rest).tail.head? ≠ some ']') := by
      rintro ⟨a1, a2⟩
      cases s with
      | nil => exact absurd a1 (by simp)
      | cons d s =>
        have := listed_dash hs a1
        simp only [List.cons.injEq] at this
        obtain ⟨rfl, rfl⟩ := this
        exact a2 rfl
    show readItems (k + 1) (c :: (s ++ ']' :: rest)) = _
    unfold readItems
    rw [if_neg ho.1, if_neg ho.2.1, if_neg ho.2.2.1, if_neg ho.2.2.2, if_neg hnot, h3 rest k hk]
  | @range a b s P ha hb hab hs ih =>
    obtain ⟨rs, h1, -, h3⟩ := ih
    have h1 : (fun c => CharSet.has ⟨false, rs⟩ c = true) = P := h1
    refine ⟨(a, b) :: rs, CharSet.is_of fun d => by rw [has_cons, ← h1], fun _ => by simp, fun rest n hn => ?_⟩
    obtain ⟨k, rfl, hk⟩ := fuel hn
    have hyes : (('-' :: b :: (s ++ ']' :: rest)).head? = some '-' ∧ ('-' :: b :: (s ++ ']' :: rest)).tail.head? ≠ some ']') :=
      ⟨rfl, fun h => hb.1 (by simpa using h)⟩
    have hbs : b ∉ bracketSpecial := by
      simp only [bracketSpecial, List.mem_cons, List.not_mem_nil, or_false, not_or]
      exact ⟨hb.1, hb.2.1, hb.2.2.1, hb.2.2.2⟩
    show readItems (k + 1) (a :: ('-' :: b :: (s ++ ']' :: rest))) = _
    unfold readItems
    rw [if_neg ha.1, if_neg ha.2.1, if_neg ha.2.2.1, if_neg ha.2.2.2, if_pos hyes]
    show (if b ∈ bracketSpecial then _ else if a.toNat ≤ b.toNat then _ else _) = _
    rw [if_neg hbs, if_pos hab, h3 rest k (by simp only [List.length_cons] at hk; omega)]
  | @named n N s P hn hs ih =>
    obtain ⟨rs, h1, -, h3⟩ := ih
    obtain ⟨ks, -, k2, k3, k4⟩ := named_mem hn
    have h1 : (fun c => CharSet.has ⟨false, rs⟩ c = true) = P := h1
    have k2 : (fun c => CharSet.has ⟨false, ks⟩ c = true) = N := k2
    refine ⟨ks ++ rs, CharSet.is_of fun d => by rw [has_append, ← h1, ← k2], fun _ => by simp [k3], fun rest m hm => ?_⟩
    obtain ⟨k, rfl, hk⟩ := fuel hm
    have : "[:".toList ++ n ++ ":]".toList ++ s ++ ']' :: rest = '[' :: (":".toList ++ n ++ ":]".toList ++ (s ++ ']' :: rest)) := by
      simp only [List.append_assoc]
      rfl
    rw [this]
    unfold readItems
    rw [if_neg (by decide), if_neg (by decide), if_pos rfl, k4]
    show (match readItems k (s ++ ']' :: rest) with | .error e => _ | .ok (l, r) => _) = _
    rw [h3 rest k (by simp only [List.length_append] at hk; have : "[:".toList.length = 2 := rfl; omega)]
  | @escape c E s P he hs ih =>
    obtain ⟨rs, h1, -, h3⟩ := ih
    obtain ⟨⟨kn, ks⟩, e1, e2, e3⟩ := escapeSet_of_escape he
    simp only at e2
    subst e2
    have h1 : (fun c => CharSet.has ⟨false, rs⟩ c = true) = P := h1
    have e3 : (fun c => CharSet.has ⟨false, ks⟩ c = true) = E := e3
    refine ⟨ks ++ rs, CharSet.is_of fun d => by rw [has_append, ← h1, ← e3], fun _ => ?_, fun rest m hm => ?_⟩
    · intro hnil
      have hks : ks = [] := (List.append_eq_nil_iff.1 hnil).1
      subst hks
      exact escapeSet_nonempty e1
    · obtain ⟨k, rfl, hk⟩ := fuel hm
      show readItems (k + 1) ('\\' :: c :: (s ++ ']' :: rest)) = _
      unfold readItems
      rw [if_neg (by decide), if_neg (by decide), if_neg (by decide), if_pos rfl]
      show (match escapeSet c with | .none => _ | some k => _) = _
      rw [e1]
      show (match readItems k (s ++ ']' :: rest) with | .error e => _ | .ok (l, r) => _) = _
      rw [h3 rest k (by simp only [List.length_cons] at hk; omega)]

end Sharg
