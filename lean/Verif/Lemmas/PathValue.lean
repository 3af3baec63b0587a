import Verif.Spec.PathValue

/-!
# Lemmas: reading paths
-/

namespace Sharg

open Spec

theorem isSpace_iff_blank (c : Char) : isSpace c = true ↔ c ∈ whiteSpace := by
  simp [isSpace, whiteSpace, or_assoc]

theorem isSpace_false_blank (c : Char) : isSpace c = false ↔ c ∉ whiteSpace := by
  rw [← isSpace_iff_blank]; simp

theorem pathText_code (p : Str) : pathText (pathCode p) = p := by
  induction p with
  | nil => rw [pathCode, pathText]; simp
  | cons c s ih =>
    have hc : c.toNat + 1 < 1114113 := by
      have h := c.valid
      have : c.toNat < 1114112 := by
        rcases h with h | ⟨_, h⟩
        · have : c.toNat < 0xd800 := h
          omega
        · exact h
      omega
    rw [pathCode, pathText, dif_neg (by omega)]
    have h1 : (pathCode s * 1114113 + (c.toNat + 1)) % 1114113 = c.toNat + 1 := by omega
    have h2 : (pathCode s * 1114113 + (c.toNat + 1)) / 1114113 = pathCode s := by omega
    rw [h1, h2, ih, Nat.add_sub_cancel, Char.ofNat_toNat]

theorem pathCode_inj {p q : Str} (h : pathCode p = pathCode q) : p = q := by
  rw [← pathText_code p, h, pathText_code]

theorem pathElem_inj {p q : Str} (h : pathElem p = pathElem q) : p = q := by
  unfold pathElem at h
  injection h with h
  exact pathCode_inj h

theorem dropWhile_space_cons {c : Char} {r : Str} (h : isSpace c = false) : (c :: r).dropWhile isSpace = c :: r := by
  rw [List.dropWhile_cons_of_neg (by simp [h])]

theorem head_dropWhile_space {s : Str} {c : Char} {r : Str} (h : s.dropWhile isSpace = c :: r) : isSpace c = false := by
  induction s with
  | nil => simp at h
  | cons a s ih =>
    by_cases ha : isSpace a = true
    · rw [List.dropWhile_cons_of_pos ha] at h; exact ih h
    · rw [List.dropWhile_cons_of_neg ha] at h
      injection h with h1 _
      subst h1
      simpa using ha

/-- The loop never ends well and at the end of the text. -/
theorem quotedLoop_end (acc rest : Str) : ((quotedLoop acc rest).2.fail || !(quotedLoop acc rest).2.eof) = true := by
  fun_induction quotedLoop acc rest <;> simp_all

theorem getQuoted_blank (text : Str) (h : text.dropWhile isSpace = []) : getQuoted { rest := text } = ([], ⟨[], true, true⟩) := by
  simp [getQuoted, InStream.getChar, InStream.sentry, InStream.good, h]

theorem getQuoted_mark (text r : Str) (h : text.dropWhile isSpace = '"' :: r) : getQuoted { rest := text } = quotedLoop [] r := by
  simp [getQuoted, InStream.getChar, InStream.sentry, InStream.good, h]

theorem getQuoted_word (text r : Str) (c : Char) (h : text.dropWhile isSpace = c :: r) (hc : c ≠ '"') :
    getQuoted { rest := text } = ((c :: r).takeWhile (fun c => !isSpace c),
      ⟨(c :: r).dropWhile (fun c => !isSpace c), ((c :: r).dropWhile (fun c => !isSpace c)).isEmpty, false⟩) := by
  have hs := head_dropWhile_space h
  simp [getQuoted, InStream.getChar, InStream.sentry, InStream.good, h, hc, InStream.getWord, dropWhile_space_cons hs,
    hs]

theorem dropWhile_nonspace_nil {s : Str} : s.dropWhile (fun c => !isSpace c) = [] ↔ ∀ c ∈ s, c ∉ whiteSpace := by
  induction s with
  | nil => simp
  | cons a s ih =>
    by_cases ha : isSpace a = true
    · rw [List.dropWhile_cons_of_neg (by simp [ha])]
      simp [(isSpace_iff_blank a).1 ha]
    · have ha : isSpace a = false := by simpa using ha
      rw [List.dropWhile_cons_of_pos (by simp [ha]), ih]
      simp [(isSpace_false_blank a).1 ha]

theorem takeWhile_nonspace_eq {s : Str} (h : ∀ c ∈ s, c ∉ whiteSpace) : s.takeWhile (fun c => !isSpace c) = s := by
  have h1 := List.takeWhile_append_dropWhile (p := fun c => !isSpace c) (l := s)
  rwa [dropWhile_nonspace_nil.2 h, List.append_nil] at h1

/-- The blanks in front and the rest. -/
theorem blanks_split (text : Str) : ∃ blanks, text = blanks ++ text.dropWhile isSpace ∧ ∀ c ∈ blanks, c ∈ whiteSpace :=
  ⟨text.takeWhile isSpace, (List.takeWhile_append_dropWhile).symm, fun c hc => (isSpace_iff_blank c).1 (List.all_eq_true.1 List.all_takeWhile c hc)⟩

theorem dropWhile_blanks {blanks p : Str} (hb : ∀ c ∈ blanks, c ∈ whiteSpace) (hp : ∀ c ∈ p, c ∉ whiteSpace) :
    (blanks ++ p).dropWhile isSpace = p := by
  induction blanks with
  | nil =>
    cases p with
    | nil => rfl
    | cons c r => exact dropWhile_space_cons ((isSpace_false_blank c).2 (hp c (by simp)))
  | cons a s ih =>
    rw [List.cons_append, List.dropWhile_cons_of_pos ((isSpace_iff_blank a).2 (hb a (by simp)))]
    exact ih fun c hc => hb c (by simp [hc])

/-- What the conversion accepts. -/
theorem pathConv_ok (text : Str) (e : Elem) : pathConv text = .ok e ↔ ∃ p, DenotesPath text p ∧ e = pathElem p := by
  obtain ⟨blanks, ht, hb⟩ := blanks_split text
  cases hd : text.dropWhile isSpace with
  | nil =>
    constructor
    · intro h
      simp [pathConv, getQuoted_blank text hd] at h
    · rintro ⟨p, ⟨⟨h1, h2, h3⟩, bl, h4, h5⟩, -⟩
      rw [h4, dropWhile_blanks h5 h2] at hd
      exact absurd hd h1
  | cons c r =>
    rw [hd] at ht
    by_cases hc : c = '"'
    · subst hc
      constructor
      · intro h
        have h1 := quotedLoop_end [] r
        unfold pathConv at h
        rw [getQuoted_mark text r hd] at h
        dsimp only at h
        rw [if_pos h1] at h
        cases h
      · rintro ⟨p, ⟨⟨h1, h2, h3⟩, bl, h4, h5⟩, -⟩
        rw [h4, dropWhile_blanks h5 h2] at hd
        rw [hd] at h3
        exact absurd rfl h3
    · have hw := getQuoted_word text r c hd hc
      unfold pathConv
      rw [hw]
      dsimp only
      by_cases hn : ∀ x ∈ c :: r, x ∉ whiteSpace
      · rw [dropWhile_nonspace_nil.2 hn, takeWhile_nonspace_eq hn]
        simp only [List.isEmpty_nil, Bool.not_true, Bool.or_self, Bool.false_eq_true, if_false, Conv.ok.injEq]
        constructor
        · intro h
          exact ⟨c :: r, ⟨⟨by simp, hn, by simpa using hc⟩, blanks, ht, hb⟩, h.symm⟩
        · rintro ⟨p, ⟨⟨h1, h2, h3⟩, bl, h4, h5⟩, rfl⟩
          rw [h4, dropWhile_blanks h5 h2] at hd
          rw [hd]
          rfl
      · have h0 : (c :: r).dropWhile (fun c => !isSpace c) ≠ [] := fun h => hn (dropWhile_nonspace_nil.1 h)
        have h1 : ((c :: r).dropWhile (fun c => !isSpace c)).isEmpty = false := by
          cases h : (c :: r).dropWhile (fun c => !isSpace c) with
          | nil => exact absurd h h0
          | cons _ _ => rfl
        rw [h1]
        simp only [Bool.not_false, Bool.or_true, if_true, reduceCtorEq, false_iff]
        rintro ⟨p, ⟨⟨g1, g2, g3⟩, bl, g4, g5⟩, -⟩
        rw [g4, dropWhile_blanks g5 g2] at hd
        exact hn (hd ▸ g2)

theorem pathConv_overflow (text : Str) : pathConv text ≠ .overflow := by
  unfold pathConv
  dsimp only
  split <;> simp

/-- A name followed by a blank: the name is written to the variable, and the text is rejected. -/
theorem pathConv_broken (blanks p rest : Str) (c : Char) (hp : Nameable p) (hb : ∀ x ∈ blanks, x ∈ whiteSpace) (hc : c ∈ whiteSpace) :
    pathConv (blanks ++ p ++ c :: rest) = .fail (some (pathElem p)) := by
  obtain ⟨h1, h2, h3⟩ := hp
  cases p with
  | nil => exact absurd rfl h1
  | cons a r =>
    have ha := (isSpace_false_blank a).2 (h2 a (by simp))
    have hd : (blanks ++ (a :: r) ++ c :: rest).dropWhile isSpace = a :: (r ++ c :: rest) := by
      rw [List.append_assoc, List.cons_append]
      clear h1 h2 h3
      induction blanks with
      | nil => exact dropWhile_space_cons ha
      | cons b s ih =>
        rw [List.cons_append, List.dropWhile_cons_of_pos ((isSpace_iff_blank b).2 (hb b (by simp)))]
        exact ih fun x hx => hb x (by simp [hx])
    have hne : a ≠ '"' := by rintro rfl; simp at h3
    unfold pathConv
    rw [getQuoted_word _ _ a hd hne]
    have hcs := (isSpace_iff_blank c).2 hc
    have e : a :: (r ++ c :: rest) = (a :: r) ++ c :: rest := rfl
    have ht : (a :: (r ++ c :: rest)).takeWhile (fun c => !isSpace c) = a :: r := by
      rw [e, List.takeWhile_append_of_pos (fun x hx => by simpa using (isSpace_false_blank x).2 (h2 x hx)), List.takeWhile_cons_of_neg (by simp [hcs])]
      simp
    have hr : (a :: (r ++ c :: rest)).dropWhile (fun c => !isSpace c) = c :: rest := by
      rw [e, List.dropWhile_append_of_pos (fun x hx => by simpa using (isSpace_false_blank x).2 (h2 x hx)), List.dropWhile_cons_of_neg (by simp [hcs])]
    rw [ht, hr]
    rfl

/-- The loop reads what `quoted` writes. -/
theorem quotedLoop_quoted (p acc rest : Str) :
    quotedLoop acc ((p.flatMap fun c => if c = '"' ∨ c = '\\' then ['\\', c] else [c]) ++ '"' :: rest) = (acc ++ p, ⟨rest, false, false⟩) := by
  induction p generalizing acc with
  | nil => simp [quotedLoop]
  | cons c p ih =>
    rw [List.flatMap_cons]
    by_cases hc : c = '"' ∨ c = '\\'
    · rw [if_pos hc]
      show quotedLoop acc ('\\' :: c :: ((p.flatMap fun c => if c = '"' ∨ c = '\\' then ['\\', c] else [c]) ++ '"' :: rest)) = _
      rw [quotedLoop, ih]
      simp
    · rw [if_neg hc]
      show quotedLoop acc (c :: ((p.flatMap fun c => if c = '"' ∨ c = '\\' then ['\\', c] else [c]) ++ '"' :: rest)) = _
      rw [quotedLoop, ih]
      · simp
      all_goals (intros; simp_all)

/-- A path between quotation marks: the path is written to the variable, and the text is rejected all the same. -/
theorem pathConv_quoted (text p : Str) (h : Quotes text p) : pathConv text = .fail (some (pathElem p)) := by
  have hd : text.dropWhile isSpace = '"' :: ((p.flatMap fun c => if c = '"' ∨ c = '\\' then ['\\', c] else [c]) ++ ['"']) := by
    rw [h]
    exact dropWhile_space_cons (by decide)
  unfold pathConv
  rw [getQuoted_mark text _ hd, quotedLoop_quoted]
  rfl

end Sharg
