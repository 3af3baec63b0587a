import Verif.Lemmas.Float
import Verif.Lemmas.Values
import Mathlib.Tactic.Ring
import Mathlib.Tactic.FieldSimp
import Mathlib.Tactic.Positivity
import Mathlib.Tactic.NormNum

/-!
# Lemmas: which texts `std::from_chars` reads as floating point numbers
-/

namespace Sharg

open Spec

/-! ### The grammar -/

/-- The text behind the sign. -/
def decBody (d : DecimalText) : Str :=
  d.int ++ (d.frac.elim [] fun f => '.' :: f) ++ d.exp.elim [] fun x => x.1 :: (x.2.1.elim [] fun c => [c]) ++ x.2.2

theorem render_body (d : DecimalText) : d.render = minusSign d.neg ++ decBody d := by
  unfold DecimalText.render decBody minusSign
  simp only [List.append_assoc]

theorem notDigit_of (c : Char) (h : c = '.' ∨ c = 'e' ∨ c = 'E' ∨ c = '+' ∨ c = '-') : c ∉ digits := by
  rcases h with rfl | rfl | rfl | rfl | rfl <;> decide

/-- Digits at the beginning are split off. -/
theorem split_digits (a rest : Str) (ha : ∀ c ∈ a, c ∈ digits) (hr : ∀ c, rest.head? = some c → c ∉ digits) :
    (a ++ rest).takeWhile isDigit = a ∧ (a ++ rest).dropWhile isDigit = rest := by
  refine ⟨takeWhile_digits_append a rest ha hr, ?_⟩
  have h := List.takeWhile_append_dropWhile (p := isDigit) (l := a ++ rest)
  rw [takeWhile_digits_append a rest ha hr] at h
  exact List.append_cancel_left h

/-- The text of the exponent. -/
def expText (e : Option (Char × Option Char × Str)) : Str := e.elim [] fun x => x.1 :: (x.2.1.elim [] fun c => [c]) ++ x.2.2

theorem scanExponent_minus (c : Char) (s : Str) (hc : c = 'e' ∨ c = 'E') :
    scanExponent (c :: '-' :: s) = if s.takeWhile isDigit = [] then (0, c :: '-' :: s)
      else (-(digitsVal (s.takeWhile isDigit) : Int), s.dropWhile isDigit) := by
  have h : scanExponent (c :: '-' :: s) = if c = 'e' ∨ c = 'E' then (if s.takeWhile isDigit = [] then (0, c :: '-' :: s)
      else (-(digitsVal (s.takeWhile isDigit) : Int), s.dropWhile isDigit)) else (0, c :: '-' :: s) := rfl
  rw [h, if_pos hc]

theorem scanExponent_plus (c : Char) (s : Str) (hc : c = 'e' ∨ c = 'E') :
    scanExponent (c :: '+' :: s) = if s.takeWhile isDigit = [] then (0, c :: '+' :: s)
      else ((digitsVal (s.takeWhile isDigit) : Int), s.dropWhile isDigit) := by
  have h : scanExponent (c :: '+' :: s) = if c = 'e' ∨ c = 'E' then (if s.takeWhile isDigit = [] then (0, c :: '+' :: s)
      else ((digitsVal (s.takeWhile isDigit) : Int), s.dropWhile isDigit)) else (0, c :: '+' :: s) := rfl
  rw [h, if_pos hc]

theorem scanExponent_plain (c : Char) (s : Str) (hc : c = 'e' ∨ c = 'E') (h1 : s.head? ≠ some '-') (h2 : s.head? ≠ some '+') :
    scanExponent (c :: s) = if s.takeWhile isDigit = [] then (0, c :: s)
      else ((digitsVal (s.takeWhile isDigit) : Int), s.dropWhile isDigit) := by
  have h3 : (s.head? == some '-') = false := beq_false_of_ne h1
  have h : scanExponent (c :: s) = if c = 'e' ∨ c = 'E' then
      (if ((if ((s.head? == some '-') = true ∨ s.head? = some '+') then s.tail else s).takeWhile isDigit = []) then (0, c :: s)
      else (if (s.head? == some '-') = true then -(digitsVal ((if ((s.head? == some '-') = true ∨ s.head? = some '+') then s.tail else s).takeWhile isDigit) : Int)
        else (digitsVal ((if ((s.head? == some '-') = true ∨ s.head? = some '+') then s.tail else s).takeWhile isDigit) : Int),
        (if ((s.head? == some '-') = true ∨ s.head? = some '+') then s.tail else s).dropWhile isDigit)) else (0, c :: s) := rfl
  have h4 : ¬ (false = true ∨ s.head? = some '+') := by simp [h2]
  rw [h, if_pos hc, h3, if_neg h4, if_neg (by simp : ¬ false = true)]

theorem scanExponent_text (d : DecimalText) (h : d.Ok) : scanExponent (expText d.exp) = (d.exponent, []) := by
  unfold DecimalText.exponent
  cases he : d.exp with
  | none => rfl
  | some x =>
    obtain ⟨c, sign, ds⟩ := x
    obtain ⟨hc, hs, hd⟩ := h.exp c sign ds he
    have hall : ds.takeWhile isDigit = ds := takeWhile_isDigit_eq ds hd.2
    have hnil : ds.dropWhile isDigit = [] := (dropWhile_isDigit_nil ds).2 hd.2
    cases sign with
    | none =>
      have h1 : ∀ x, x ∉ digits → ds.head? ≠ some x := by
        intro x hx e
        cases ds with
        | nil => cases e
        | cons a l => simp only [List.head?_cons, Option.some.injEq] at e; subst e; exact hx (hd.2 a (by simp))
      show scanExponent (c :: ds) = _
      rw [scanExponent_plain c ds hc (h1 _ (by decide)) (h1 _ (by decide)), hall, hnil, if_neg hd.1, digitsVal_eq _ hd.2]
      rfl
    | some s =>
      rcases hs s rfl with rfl | rfl
      · show scanExponent (c :: '+' :: ds) = _
        rw [scanExponent_plus c ds hc, hall, hnil, if_neg hd.1, digitsVal_eq _ hd.2]
        rfl
      · show scanExponent (c :: '-' :: ds) = _
        rw [scanExponent_minus c ds hc, hall, hnil, if_neg hd.1, digitsVal_eq _ hd.2]
        rfl

theorem scanFraction_text (d : DecimalText) (h : d.Ok) :
    scanFraction ((d.frac.elim [] fun f => '.' :: f) ++ expText d.exp) = (d.fracDigits, expText d.exp) := by
  have hhead : ∀ c, (expText d.exp).head? = some c → c ∉ digits := by
    intro c hc
    cases he : d.exp with
    | none => rw [he] at hc; simp [expText] at hc
    | some x =>
      obtain ⟨e, sign, ds⟩ := x
      rw [he] at hc
      have : e = c := by simpa [expText] using hc
      subst this
      exact notDigit_of e (by have := (h.exp e sign ds he).1; tauto)
  unfold DecimalText.fracDigits
  cases hf : d.frac with
  | none =>
    show scanFraction (expText d.exp) = ([], expText d.exp)
    cases he : d.exp with
    | none => rfl
    | some x =>
      obtain ⟨e, sign, ds⟩ := x
      have := (h.exp e sign ds he).1
      have hne : e ≠ '.' := by rintro rfl; rcases this with h | h <;> exact absurd h (by decide)
      show scanFraction (e :: _) = ([], e :: _)
      unfold scanFraction
      split
      · rename_i hh; injection hh with h1 _; exact absurd h1 hne
      · rfl
  | some f =>
    have hfd : ∀ c ∈ f, c ∈ digits := by have := h.frac; unfold DecimalText.fracDigits at this; rw [hf] at this; exact this
    show ((f ++ expText d.exp).takeWhile isDigit, (f ++ expText d.exp).dropWhile isDigit) = _
    rw [(split_digits f _ hfd hhead).1, (split_digits f _ hfd hhead).2]
    rfl

theorem frac_head (d : DecimalText) (h : d.Ok) :
    ∀ c, ((d.frac.elim [] fun f => '.' :: f) ++ expText d.exp).head? = some c → c ∉ digits := by
  intro c hc
  cases hf : d.frac with
  | some f => rw [hf] at hc; have : '.' = c := by simpa using hc
              subst this; decide
  | none =>
    rw [hf] at hc
    cases he : d.exp with
    | none => rw [he] at hc; simp [expText] at hc
    | some x =>
      obtain ⟨e, sign, ds⟩ := x
      rw [he] at hc
      have : e = c := by simpa [expText] using hc
      subst this
      exact notDigit_of e (by have := (h.exp e sign ds he).1; tauto)

theorem stripWord_head (word s rest : Str) (a : Char) (l : Str) (hw : word = a :: l) (h : stripWord word s = some rest) :
    ∃ c t, s = c :: t ∧ c.toLower = a := by
  unfold stripWord at h
  split at h
  · rename_i h1
    cases s with
    | nil => rw [hw] at h1; simp at h1
    | cons c t =>
      refine ⟨c, t, rfl, ?_⟩
      rw [hw] at h1
      simp only [List.length_cons, List.take_succ_cons, List.map_cons, List.cons.injEq] at h1
      exact h1.1
  · exact absurd h (by simp)

/-- The first character of a decimal number is a digit or the point. -/
theorem decBody_head (d : DecimalText) (h : d.Ok) : ∃ c t, decBody d = c :: t ∧ (c ∈ digits ∨ c = '.') := by
  unfold decBody
  cases hi : d.int with
  | cons a l => exact ⟨a, _, rfl, Or.inl (h.int a (by rw [hi]; simp))⟩
  | nil =>
    rcases h.notEmpty with h1 | h1
    · exact absurd hi h1
    · unfold DecimalText.fracDigits at h1
      cases hf : d.frac with
      | none => rw [hf] at h1; exact absurd rfl h1
      | some f => exact ⟨'.', _, rfl, Or.inr rfl⟩

theorem toLower_of_start (c : Char) (h : c ∈ digits ∨ c = '.') : c.toLower = c := by
  rcases h with h | rfl
  · simp only [digits, List.mem_cons, List.not_mem_nil, or_false] at h
    rcases h with rfl | rfl | rfl | rfl | rfl | rfl | rfl | rfl | rfl | rfl <;> decide
  · decide

theorem stripWord_none (word s : Str) (a : Char) (l : Str) (hw : word = a :: l) (ha : a ∉ digits ∧ a ≠ '.')
    (hs : ∃ c t, s = c :: t ∧ (c ∈ digits ∨ c = '.')) : stripWord word s = none := by
  cases h : stripWord word s with
  | none => rfl
  | some r =>
    obtain ⟨c, t, rfl, hc⟩ := stripWord_head word s r a l hw h
    obtain ⟨c', t', h1, h2⟩ := hs
    injection h1 with h1 _
    subst h1
    rw [toLower_of_start c h2] at hc
    subst hc
    rcases h2 with h2 | h2
    · exact absurd h2 ha.1
    · exact absurd h2 ha.2

/-- A decimal number is read as such. -/
theorem unsignedChars_decimal (F : FloatFormat) (neg : Bool) (d : DecimalText) (h : d.Ok) :
    unsignedChars F neg (decBody d) = scaled F neg (d.int ++ d.fracDigits) (d.exponent - d.fracDigits.length) [] := by
  have hh := decBody_head d h
  have e1 := stripWord_none "infinity".toList (decBody d) 'i' _ rfl (by decide) hh
  have e2 := stripWord_none "inf".toList (decBody d) 'i' _ rfl (by decide) hh
  have e3 := stripWord_none "nan".toList (decBody d) 'n' _ rfl (by decide) hh
  unfold unsignedChars
  rw [e1, e2, e3]
  have e4 : decBody d = d.int ++ ((d.frac.elim [] fun f => '.' :: f) ++ expText d.exp) := by
    unfold decBody expText; rw [List.append_assoc]
  have e5 := split_digits d.int _ h.int (frac_head d h)
  rw [← e4] at e5
  dsimp only
  rw [e5.1, e5.2, scanFraction_text d h, scanExponent_text d h]
  rw [if_neg]
  rintro ⟨h1, h2⟩
  exact h.notEmpty.elim (fun k => k h1) (fun k => k h2)

/-- The exponent and the rest make up the text. -/
theorem scanExponent_inv (s : Str) : ∃ e : Option (Char × Option Char × Str),
    s = expText e ++ (scanExponent s).2 ∧
    (∀ c sign ds, e = some (c, sign, ds) → (c = 'e' ∨ c = 'E') ∧ (∀ x ∈ sign, x = '+' ∨ x = '-') ∧ IsDecimal ds) := by
  have triv : ∀ s : Str, ∃ e : Option (Char × Option Char × Str), s = expText e ++ s ∧
      (∀ c sign ds, e = some (c, sign, ds) → (c = 'e' ∨ c = 'E') ∧ (∀ x ∈ sign, x = '+' ∨ x = '-') ∧ IsDecimal ds) :=
    fun s => ⟨none, rfl, by simp⟩
  have some' : ∀ (c : Char) (sign : Option Char) (body : Str), (c = 'e' ∨ c = 'E') → (∀ x ∈ sign, x = '+' ∨ x = '-') →
      body.takeWhile isDigit ≠ [] → ∃ e : Option (Char × Option Char × Str),
      c :: (sign.elim [] fun c => [c]) ++ body = expText e ++ body.dropWhile isDigit ∧
      (∀ c sign ds, e = some (c, sign, ds) → (c = 'e' ∨ c = 'E') ∧ (∀ x ∈ sign, x = '+' ∨ x = '-') ∧ IsDecimal ds) := by
    intro c sign body hc hs hb
    refine ⟨some (c, sign, body.takeWhile isDigit), ?_, ?_⟩
    · show _ = (c :: (sign.elim [] fun c => [c]) ++ body.takeWhile isDigit) ++ body.dropWhile isDigit
      rw [List.append_assoc, List.takeWhile_append_dropWhile]
    · rintro c' sign' ds hh
      simp only [Option.some.injEq, Prod.mk.injEq] at hh
      obtain ⟨rfl, rfl, rfl⟩ := hh
      exact ⟨hc, hs, hb, takeWhile_digits_mem body⟩
  cases s with
  | nil => exact triv []
  | cons c s =>
    by_cases hc : c = 'e' ∨ c = 'E'
    · by_cases h1 : s.head? = some '-'
      · obtain ⟨l, rfl⟩ : ∃ l, s = '-' :: l := by
          cases s with
          | nil => cases h1
          | cons a l => simp only [List.head?_cons, Option.some.injEq] at h1; subst h1; exact ⟨l, rfl⟩
        rw [scanExponent_minus c l hc]
        by_cases h3 : l.takeWhile isDigit = []
        · rw [if_pos h3]; exact triv _
        · rw [if_neg h3]; exact some' c (some '-') l hc (by simp) h3
      · by_cases h2 : s.head? = some '+'
        · obtain ⟨l, rfl⟩ : ∃ l, s = '+' :: l := by
            cases s with
            | nil => cases h2
            | cons a l => simp only [List.head?_cons, Option.some.injEq] at h2; subst h2; exact ⟨l, rfl⟩
          rw [scanExponent_plus c l hc]
          by_cases h3 : l.takeWhile isDigit = []
          · rw [if_pos h3]; exact triv _
          · rw [if_neg h3]; exact some' c (some '+') l hc (by simp) h3
        · rw [scanExponent_plain c s hc h1 h2]
          by_cases h3 : s.takeWhile isDigit = []
          · rw [if_pos h3]; exact triv _
          · rw [if_neg h3]; exact some' c none s hc (by simp) h3
    · have h : scanExponent (c :: s) = (0, c :: s) := if_neg hc
      rw [h]
      exact triv _

theorem scanFraction_inv (s : Str) : ∃ f : Option Str, s = (f.elim [] fun f => '.' :: f) ++ (scanFraction s).2 ∧ (scanFraction s).1 = f.getD [] ∧
    ∀ c ∈ f.getD [], c ∈ digits := by
  unfold scanFraction
  split
  · rename_i t
    exact ⟨some (t.takeWhile isDigit), congrArg _ List.takeWhile_append_dropWhile.symm, rfl, takeWhile_digits_mem t⟩
  · exact ⟨none, rfl, rfl, by simp⟩

/-- The number at the beginning of a text. -/
theorem scan_inv (s : Str) (hne : ¬ (s.takeWhile isDigit = [] ∧ (scanFraction (s.dropWhile isDigit)).1 = [])) (neg : Bool) :
    ∃ d : DecimalText, d.Ok ∧ d.neg = neg ∧ s = decBody d ++ (scanExponent (scanFraction (s.dropWhile isDigit)).2).2 := by
  obtain ⟨f, hf, hf1, hf2⟩ := scanFraction_inv (s.dropWhile isDigit)
  obtain ⟨e, he, he1⟩ := scanExponent_inv (scanFraction (s.dropWhile isDigit)).2
  refine ⟨⟨neg, s.takeWhile isDigit, f, e⟩, ⟨takeWhile_digits_mem s, hf2, ?_, he1⟩, rfl, ?_⟩
  · rw [hf1] at hne
    rcases List.eq_nil_or_concat (s.takeWhile isDigit) with h | ⟨a, b, h⟩
    · exact Or.inr fun k => hne ⟨h, k⟩
    · refine Or.inl ?_
      show s.takeWhile isDigit ≠ []
      rw [h]; simp
  · show s = s.takeWhile isDigit ++ (f.elim [] fun f => '.' :: f) ++ expText e ++ _
    rw [List.append_assoc, ← he, List.append_assoc, ← hf, List.takeWhile_append_dropWhile]

/-! ### `inf` and `nan` -/

theorem stripWord_iff (word s rest : Str) :
    stripWord word s = some rest ↔ ∃ w, s = w ++ rest ∧ w.map Char.toLower = word := by
  unfold stripWord
  constructor
  · intro h
    split at h
    · rename_i h1
      injection h with h
      exact ⟨s.take word.length, by rw [← h, List.take_append_drop], h1⟩
    · cases h
  · rintro ⟨w, rfl, rfl⟩
    have h1 : (w ++ rest).take (w.map Char.toLower).length = w := by rw [List.length_map]; exact List.take_left
    have h2 : (w ++ rest).drop (w.map Char.toLower).length = rest := by rw [List.length_map]; exact List.drop_left
    rw [h1, h2, if_pos rfl]

theorem stripNanChars_nil (r : Str) :
    stripNanChars r = [] ↔ r = [] ∨ ∃ chars, r = '(' :: (chars ++ [')']) ∧ ∀ c ∈ chars, c.isAlphanum = true ∨ c = '_' := by
  constructor
  · intro h
    unfold stripNanChars at h
    split at h
    · rename_i s
      split at h
      · rename_i rest hd
        subst h
        refine Or.inr ⟨s.takeWhile (fun c => c.isAlphanum || c == '_'), ?_, ?_⟩
        · rw [← hd, List.takeWhile_append_dropWhile]
        · intro c hc
          have := List.all_eq_true.1 (List.all_takeWhile (p := fun c => c.isAlphanum || c == '_') (l := s)) c hc
          simpa using this
      · cases h
    · exact Or.inl h
  · rintro (rfl | ⟨chars, rfl, hc⟩)
    · rfl
    · have hd : (chars ++ [')']).dropWhile (fun c => c.isAlphanum || c == '_') = [')'] := by
        rw [List.dropWhile_append_of_pos]
        · decide
        · intro c h
          have := hc c h
          simpa using this
      show (match (chars ++ [')']).dropWhile (fun c => c.isAlphanum || c == '_') with
        | ')' :: rest => rest
        | _ => '(' :: (chars ++ [')'])) = []
      rw [hd]
      rfl

theorem unsignedChars_of (F : FloatFormat) (neg : Bool) (s : Str) :
    (∀ rest, stripWord "infinity".toList s = some rest → unsignedChars F neg s = .ok (F.signBit neg + F.infinity) rest) ∧
    (∀ rest, stripWord "infinity".toList s = none → stripWord "inf".toList s = some rest →
      unsignedChars F neg s = .ok (F.signBit neg + F.infinity) rest) ∧
    (∀ rest, stripWord "infinity".toList s = none → stripWord "inf".toList s = none → stripWord "nan".toList s = some rest →
      unsignedChars F neg s = .ok (F.signBit neg + F.nan) (stripNanChars rest)) ∧
    (stripWord "infinity".toList s = none → stripWord "inf".toList s = none → stripWord "nan".toList s = none →
      unsignedChars F neg s = if s.takeWhile isDigit = [] ∧ (scanFraction (s.dropWhile isDigit)).1 = [] then .invalid
        else scaled F neg (s.takeWhile isDigit ++ (scanFraction (s.dropWhile isDigit)).1)
          ((scanExponent (scanFraction (s.dropWhile isDigit)).2).1 - (scanFraction (s.dropWhile isDigit)).1.length)
          (scanExponent (scanFraction (s.dropWhile isDigit)).2).2) := by
  unfold unsignedChars
  refine ⟨fun r h => by rw [h], fun r h1 h2 => by rw [h1, h2], fun r h1 h2 h3 => by rw [h1, h2, h3], fun h1 h2 h3 => by rw [h1, h2, h3]⟩

theorem scaled_ok (F : FloatFormat) (neg : Bool) (ds : Str) (k : Int) (rest : Str) (v : Nat) (rest' : Str)
    (h : scaled F neg ds k rest = .ok v rest') : rest' = rest := by
  unfold scaled at h
  dsimp only at h
  split at h
  · cases h
  · injection h with _ h; exact h.symm

theorem infinity_starts (s : Str) (h : IsInfinity s) : ∃ c t, s = c :: t ∧ c.toLower = 'i' := by
  cases s with
  | nil => rcases h with h | h <;> exact absurd h (by decide)
  | cons c t =>
    refine ⟨c, t, rfl, ?_⟩
    rcases h with h | h
    · exact (List.cons.inj (show c.toLower :: t.map Char.toLower = 'i' :: ['n', 'f'] from h)).1
    · exact (List.cons.inj (show c.toLower :: t.map Char.toLower = 'i' :: ['n', 'f', 'i', 'n', 'i', 't', 'y'] from h)).1

theorem nan_starts (s : Str) (h : IsNan s) : ∃ c t, s = c :: t ∧ c.toLower = 'n' := by
  obtain ⟨w, more, rfl, hw, _⟩ := h
  cases w with
  | nil => exact absurd hw (by decide)
  | cons c t => exact ⟨c, _, rfl, (List.cons.inj (show c.toLower :: t.map Char.toLower = 'n' :: ['a', 'n'] from hw)).1⟩

theorem stripWord_other (word s : Str) (a b : Char) (l : Str) (hw : word = a :: l) (hs : ∃ c t, s = c :: t ∧ c.toLower = b) (hab : a ≠ b) :
    stripWord word s = none := by
  cases h : stripWord word s with
  | none => rfl
  | some r =>
    obtain ⟨c, t, rfl, hc⟩ := stripWord_head word s r a l hw h
    obtain ⟨c', t', h1, h2⟩ := hs
    injection h1 with h1 _
    subst h1
    exact absurd (hc.symm.trans h2) hab

/-- What is read completely behind the sign. -/
theorem unsignedChars_ok (F : FloatFormat) (neg : Bool) (s : Str) (v : Nat) :
    unsignedChars F neg s = .ok v [] ↔
      (∃ d : DecimalText, d.Ok ∧ d.neg = neg ∧ s = decBody d ∧
        scaled F neg (d.int ++ d.fracDigits) (d.exponent - d.fracDigits.length) [] = .ok v []) ∨
      (IsInfinity s ∧ v = F.signBit neg + F.infinity) ∨ (IsNan s ∧ v = F.signBit neg + F.nan) := by
  obtain ⟨u1, u2, u3, u4⟩ := unsignedChars_of F neg s
  constructor
  · intro h
    cases h1 : stripWord "infinity".toList s with
    | some rest =>
      rw [u1 rest h1] at h
      injection h with hv hr
      subst hr
      obtain ⟨w, hw, hw'⟩ := (stripWord_iff _ _ _).1 h1
      rw [List.append_nil] at hw
      subst hw
      exact Or.inr (Or.inl ⟨Or.inr hw', hv.symm⟩)
    | none =>
      cases h2 : stripWord "inf".toList s with
      | some rest =>
        rw [u2 rest h1 h2] at h
        injection h with hv hr
        subst hr
        obtain ⟨w, hw, hw'⟩ := (stripWord_iff _ _ _).1 h2
        rw [List.append_nil] at hw
        subst hw
        exact Or.inr (Or.inl ⟨Or.inl hw', hv.symm⟩)
      | none =>
        cases h3 : stripWord "nan".toList s with
        | some rest =>
          rw [u3 rest h1 h2 h3] at h
          injection h with hv hr
          obtain ⟨w, hw, hw'⟩ := (stripWord_iff _ _ _).1 h3
          exact Or.inr (Or.inr ⟨⟨w, rest, hw, hw', (stripNanChars_nil rest).1 hr⟩, hv.symm⟩)
        | none =>
          have h0 := h
          rw [u4 h1 h2 h3] at h
          by_cases hne : s.takeWhile isDigit = [] ∧ (scanFraction (s.dropWhile isDigit)).1 = []
          · rw [if_pos hne] at h; cases h
          · rw [if_neg hne] at h
            have hr := scaled_ok F neg _ _ _ v [] h
            obtain ⟨d, hd, hn, hs⟩ := scan_inv s hne neg
            rw [← hr, List.append_nil] at hs
            refine Or.inl ⟨d, hd, hn, hs, ?_⟩
            rw [← unsignedChars_decimal F neg d hd, ← hs]
            exact h0
  · rintro (⟨d, hd, _, hs, h⟩ | ⟨h, hv⟩ | ⟨h, hv⟩)
    · rw [hs, unsignedChars_decimal F neg d hd, h]
    · rcases h with h | h
      · have h1 : stripWord "infinity".toList s = none := by
          cases hh : stripWord "infinity".toList s with
          | none => rfl
          | some rest =>
            obtain ⟨w, rfl, hw⟩ := (stripWord_iff _ _ _).1 hh
            have l1 : (List.map Char.toLower (w ++ rest)).length = 3 := by rw [h]; rfl
            have l2 : (List.map Char.toLower w).length = 8 := by rw [hw]; rfl
            rw [List.length_map, List.length_append] at l1
            rw [List.length_map] at l2
            omega
        rw [u2 [] h1 ((stripWord_iff _ _ _).2 ⟨s, (List.append_nil s).symm, h⟩), hv]
      · rw [u1 [] ((stripWord_iff _ _ _).2 ⟨s, (List.append_nil s).symm, h⟩), hv]
    · have hn := nan_starts s h
      have h1 := stripWord_other "infinity".toList s 'i' 'n' _ rfl hn (by decide)
      have h2 := stripWord_other "inf".toList s 'i' 'n' _ rfl hn (by decide)
      obtain ⟨w, more, hs, hw, hm⟩ := h
      rw [u3 more h1 h2 ((stripWord_iff _ _ _).2 ⟨w, hs, hw⟩), (stripNanChars_nil more).2 hm, hv]

/-! ### The sign -/

theorem unsignedChars_minus (F : FloatFormat) (neg : Bool) (s : Str) : unsignedChars F neg ('-' :: s) = .invalid := by
  obtain ⟨_, _, _, u4⟩ := unsignedChars_of F neg ('-' :: s)
  have h : ∃ c t, '-' :: s = c :: t ∧ c.toLower = '-' := ⟨'-', s, rfl, by decide⟩
  rw [u4 (stripWord_other _ _ 'i' '-' _ rfl h (by decide)) (stripWord_other _ _ 'i' '-' _ rfl h (by decide))
    (stripWord_other _ _ 'n' '-' _ rfl h (by decide))]
  exact if_pos ⟨rfl, rfl⟩

theorem fromCharsFloat_iff (F : FloatFormat) (s : Str) (r : FloatChars) (hr : r ≠ .invalid) :
    fromCharsFloat F s = r ↔ ∃ neg body, s = minusSign neg ++ body ∧ unsignedChars F neg body = r := by
  unfold fromCharsFloat
  constructor
  · intro h
    by_cases hs : s.head? = some '-'
    · rw [if_pos hs] at h
      cases s with
      | nil => cases hs
      | cons c t =>
        simp only [List.head?_cons, Option.some.injEq] at hs
        subst hs
        exact ⟨true, t, rfl, h⟩
    · rw [if_neg hs] at h
      exact ⟨false, s, rfl, h⟩
  · rintro ⟨neg, body, rfl, h⟩
    cases neg with
    | true => exact h
    | false =>
      show (if body.head? = some '-' then _ else _) = r
      by_cases hs : body.head? = some '-'
      · cases body with
        | nil => cases hs
        | cons c t =>
          simp only [List.head?_cons, Option.some.injEq] at hs
          subst hs
          rw [unsignedChars_minus] at h
          exact absurd h.symm hr
      · rw [if_neg hs]; exact h

/-! ### The value -/

theorem decValue_concat (a b : Str) : decValue (a ++ b) = decValue a * 10 ^ b.length + decValue b := by
  induction a with
  | nil => simp [decValue]
  | cons c a ih =>
    show digits.idxOf c * 10 ^ (a ++ b).length + decValue (a ++ b) = (digits.idxOf c * 10 ^ a.length + decValue a) * 10 ^ b.length + decValue b
    rw [ih, List.length_append, pow_add]
    ring

theorem zpow_split (x : ℚ) (k : Int) : x * (10 : ℚ) ^ k = (x * 10 ^ k.toNat) / (10 ^ (-k).toNat) := by
  rcases le_total 0 k with h | h
  · have h1 : (-k).toNat = 0 := by omega
    obtain ⟨n, rfl⟩ := Int.eq_ofNat_of_zero_le h
    rw [h1]
    simp
  · have h1 : k.toNat = 0 := by omega
    obtain ⟨n, hn⟩ := Int.eq_ofNat_of_zero_le (show 0 ≤ -k by omega)
    have : k = -(n : Int) := by omega
    subst this
    rw [h1]
    simp [zpow_neg, div_eq_mul_inv]

/-- The number that is rounded. -/
theorem abs_eq (d : DecimalText) (h : d.Ok) :
    d.abs = ((digitsVal (d.int ++ d.fracDigits) * 10 ^ (d.exponent - d.fracDigits.length).toNat : Nat) : ℚ) /
      ((10 ^ (-(d.exponent - d.fracDigits.length)).toNat : Nat) : ℚ) := by
  have hd : digitsVal (d.int ++ d.fracDigits) = decValue (d.int ++ d.fracDigits) := digitsVal_eq _ (by
    intro c hc
    rcases List.mem_append.1 hc with hc | hc
    · exact h.int c hc
    · exact h.frac c hc)
  rw [hd, decValue_concat]
  push_cast
  rw [← zpow_split]
  unfold DecimalText.abs
  rw [zpow_sub₀ (by norm_num : (10 : ℚ) ≠ 0), zpow_natCast]
  have : (10 : ℚ) ^ d.fracDigits.length ≠ 0 := by positivity
  field_simp

theorem abs_eq_zero (d : DecimalText) (h : d.Ok) : d.abs = 0 ↔ digitsVal (d.int ++ d.fracDigits) = 0 := by
  rw [abs_eq d h]
  have h1 : ((10 ^ (-(d.exponent - d.fracDigits.length)).toNat : Nat) : ℚ) ≠ 0 := by positivity
  rw [div_eq_zero_iff]
  constructor
  · rintro (k | k)
    · have k' : digitsVal (d.int ++ d.fracDigits) * 10 ^ (d.exponent - d.fracDigits.length).toNat = 0 := by exact_mod_cast k
      rcases Nat.mul_eq_zero.1 k' with k' | k'
      · exact k'
      · exact absurd k' (by positivity)
    · exact absurd k h1
  · intro k; left; rw [k]; simp

theorem scaled_iff (F : FloatFormat) (hf : 1 ≤ F.fraction) (neg : Bool) (d : DecimalText) (h : d.Ok) (rest : Str) :
    (∀ v, scaled F neg (d.int ++ d.fracDigits) (d.exponent - d.fracDigits.length) rest = .ok v rest ↔
      ∃ n, Rounded F d.abs n ∧ v = F.signBit neg + n) ∧
    (scaled F neg (d.int ++ d.fracDigits) (d.exponent - d.fracDigits.length) rest = .outOfRange ↔ ¬ ∃ n, Rounded F d.abs n) := by
  have hn := roundPattern_nearest F hf (digitsVal (d.int ++ d.fracDigits) * 10 ^ (d.exponent - d.fracDigits.length).toNat)
    (10 ^ (-(d.exponent - d.fracDigits.length)).toNat) (by positivity)
  rw [← abs_eq d h] at hn
  unfold scaled
  dsimp only
  generalize roundPattern F _ _ = n at hn
  have hr : (∃ k, Rounded F d.abs k) ↔ ¬ (F.infinity ≤ n ∨ (n = 0 ∧ digitsVal (d.int ++ d.fracDigits) ≠ 0)) := by
    constructor
    · rintro ⟨k, hk, h1, h2⟩
      have := nearest_unique F hk hn
      subst this
      rintro (h3 | ⟨h3, h4⟩)
      · omega
      · exact h4 ((abs_eq_zero d h).1 (h2 h3))
    · intro hh
      refine ⟨n, hn, by omega, fun h0 => ?_⟩
      rw [abs_eq_zero d h]
      tauto
  constructor
  · intro v
    split
    · rename_i hc
      constructor
      · intro e; cases e
      · rintro ⟨k, hk, _⟩
        exact absurd hc (hr.1 ⟨k, hk⟩)
    · rename_i hc
      constructor
      · intro e
        injection e with e
        obtain ⟨k, hk⟩ := hr.2 hc
        have := nearest_unique F hk.1 hn
        subst this
        exact ⟨k, hk, e.symm⟩
      · rintro ⟨k, hk, rfl⟩
        rw [nearest_unique F hk.1 hn]
  · split
    · rename_i hc
      simp only [true_iff]
      exact fun e => hr.1 e hc
    · rename_i hc
      constructor
      · intro e; cases e
      · intro e; exact absurd (hr.2 hc) e

end Sharg
