import Verif.Lemmas.Consume
import Verif.Spec.Values

/-!
# The conversions of the model against the specification
-/

namespace Sharg

open Spec

theorem mem_digits_iff (c : Char) : c ∈ digits ↔ isDigit c = true := by
  unfold isDigit digits
  rw [decide_eq_true_iff]
  constructor
  · intro h; simp at h; rcases h with rfl | rfl | rfl | rfl | rfl | rfl | rfl | rfl | rfl | rfl <;> decide
  · rintro ⟨h1, h2⟩
    have h1 : 48 ≤ c.toNat := h1
    have h2 : c.toNat ≤ 57 := h2
    have hc : c = Char.ofNat c.toNat := by simp
    rw [hc]
    have : c.toNat = 48 ∨ c.toNat = 49 ∨ c.toNat = 50 ∨ c.toNat = 51 ∨ c.toNat = 52 ∨ c.toNat = 53 ∨ c.toNat = 54
      ∨ c.toNat = 55 ∨ c.toNat = 56 ∨ c.toNat = 57 := by omega
    rcases this with h | h | h | h | h | h | h | h | h | h <;> rw [h] <;> decide

theorem idxOf_digits (c : Char) (h : c ∈ digits) : digits.idxOf c = digitVal c := by
  unfold digits at h
  simp at h
  rcases h with rfl | rfl | rfl | rfl | rfl | rfl | rfl | rfl | rfl | rfl <;> decide

theorem digitsVal_aux (s : Str) (acc : Nat) (h : ∀ c ∈ s, c ∈ digits) :
    s.foldl (fun acc c => 10 * acc + digitVal c) acc = acc * 10 ^ s.length + decValue s := by
  induction s generalizing acc with
  | nil => simp [decValue]
  | cons c s ih =>
    simp only [List.foldl_cons, decValue, List.length_cons]
    rw [ih _ (fun d hd => h d (by simp [hd])), idxOf_digits c (h c (by simp)), Nat.pow_succ]
    grind

theorem digitsVal_eq (s : Str) (h : ∀ c ∈ s, c ∈ digits) : digitsVal s = decValue s := by
  unfold digitsVal
  rw [digitsVal_aux s 0 h]; simp

theorem takeWhile_isDigit_eq (s : Str) (h : ∀ c ∈ s, c ∈ digits) : s.takeWhile isDigit = s := by
  induction s with
  | nil => rfl
  | cons c s ih =>
    have := (mem_digits_iff c).1 (h c (by simp))
    simp [this, ih (fun d hd => h d (by simp [hd]))]

theorem dropWhile_isDigit_nil (s : Str) : s.dropWhile isDigit = [] ↔ ∀ c ∈ s, c ∈ digits := by
  induction s with
  | nil => simp
  | cons c s ih =>
    by_cases hc : isDigit c = true
    · simp [hc, ih, (mem_digits_iff c).2 hc]
    · have : c ∉ digits := fun h => hc ((mem_digits_iff c).1 h)
      simp [hc, this]

theorem minus_not_digit : '-' ∉ digits := by decide

theorem fromDigits_ok (body : Str) (lo hi v : Int) (f : Nat → Int) :
    ((if body.takeWhile isDigit = [] then FromChars.invalid
      else if f (digitsVal (body.takeWhile isDigit)) < lo ∨ hi < f (digitsVal (body.takeWhile isDigit)) then .outOfRange
      else .ok (f (digitsVal (body.takeWhile isDigit))) (body.dropWhile isDigit)) = .ok v []) ↔
      IsDecimal body ∧ v = f (decValue body) ∧ lo ≤ v ∧ v ≤ hi := by
  constructor
  · intro h
    split at h
    · simp at h
    · rename_i hne
      split at h
      · simp at h
      · rename_i hr
        simp only [FromChars.ok.injEq] at h
        obtain ⟨rfl, hrest⟩ := h
        rw [dropWhile_isDigit_nil] at hrest
        rw [takeWhile_isDigit_eq body hrest] at hne hr ⊢
        rw [digitsVal_eq body hrest] at hr ⊢
        exact ⟨⟨hne, hrest⟩, rfl, by omega, by omega⟩
  · rintro ⟨⟨h4, h5⟩, h6, h1, h2⟩
    rw [takeWhile_isDigit_eq body h5, digitsVal_eq body h5, (dropWhile_isDigit_nil body).2 h5, ← h6]
    simp [h4]; omega

theorem fromChars_ok (lo hi : Int) (s : Str) (v : Int) :
    fromChars lo hi s = .ok v [] ↔ DenotesInt lo hi s v := by
  by_cases hneg : lo < 0 ∧ s.head? = some '-'
  · obtain ⟨hlo, hh⟩ := hneg
    cases s with
    | nil => simp at hh
    | cons c ds =>
      simp at hh
      subst hh
      have h0 : fromChars lo hi ('-' :: ds) =
        (if ds.takeWhile isDigit = [] then FromChars.invalid
          else if -(digitsVal (ds.takeWhile isDigit) : Int) < lo ∨ hi < -(digitsVal (ds.takeWhile isDigit) : Int) then
            .outOfRange
          else .ok (-(digitsVal (ds.takeWhile isDigit) : Int)) (ds.dropWhile isDigit)) := by
        simp [fromChars, hlo]
      rw [h0, fromDigits_ok ds lo hi v (fun n => -(n : Int))]
      unfold DenotesInt
      constructor
      · rintro ⟨h1, h2, h3, h4⟩
        exact ⟨h3, h4, Or.inr ⟨hlo, ds, rfl, h1, h2⟩⟩
      · rintro ⟨h1, h2, h3 | ⟨_, ds', h3, h4, h6⟩⟩
        · exact absurd (h3.1.2 '-' (by simp)) minus_not_digit
        · simp at h3
          subst h3
          exact ⟨h4, h6, h1, h2⟩
  · have hb : (decide (lo < 0) && (s.head? == some '-')) = false := by
      cases hx : (decide (lo < 0) && (s.head? == some '-')) with
      | false => rfl
      | true => simp at hx; exact absurd hx hneg
    have h0 : fromChars lo hi s =
      (if s.takeWhile isDigit = [] then FromChars.invalid
        else if (digitsVal (s.takeWhile isDigit) : Int) < lo ∨ hi < (digitsVal (s.takeWhile isDigit) : Int) then
          .outOfRange
        else .ok (digitsVal (s.takeWhile isDigit) : Int) (s.dropWhile isDigit)) := by
      simp [fromChars, hb]
    rw [h0, fromDigits_ok s lo hi v (fun n => (n : Int))]
    unfold DenotesInt
    constructor
    · rintro ⟨h1, h2, h3, h4⟩
      exact ⟨h3, h4, Or.inl ⟨h1, h2⟩⟩
    · rintro ⟨h1, h2, ⟨h4, h6⟩ | ⟨hlo, ds', h3, _⟩⟩
      · exact ⟨h4, h6, h1, h2⟩
      · exact absurd ⟨hlo, by simp [h3]⟩ hneg

theorem lookup_some_iff (names : List (Str × Int)) (s : Str) (tag : Int) :
    names.lookup s = some tag ↔ ∃ before after, names = before ++ (s, tag) :: after ∧ ∀ p ∈ before, p.1 ≠ s := by
  induction names with
  | nil => simp
  | cons p l ih =>
    obtain ⟨k, t⟩ := p
    rw [List.lookup_cons]
    by_cases hk : s = k
    · subst hk
      simp only [BEq.rfl]
      constructor
      · intro h; cases h; exact ⟨[], l, rfl, by simp⟩
      · rintro ⟨before, after, h1, h2⟩
        cases before with
        | nil => simp at h1; simp [h1]
        | cons q b => simp at h1; have := h2 q (by simp); simp [← h1.1] at this
    · have hk' : (s == k) = false := by simpa using hk
      simp only [hk']
      rw [ih]
      constructor
      · rintro ⟨before, after, rfl, h2⟩
        refine ⟨(k, t) :: before, after, rfl, ?_⟩
        intro p hp
        simp at hp
        rcases hp with rfl | hp
        · exact fun h => hk h.symm
        · exact h2 p hp
      · rintro ⟨before, after, h1, h2⟩
        cases before with
        | nil => simp at h1; exact absurd h1.1.1.symm hk
        | cons q b =>
          simp at h1
          exact ⟨b, after, h1.2, fun p hp => h2 p (by simp [hp])⟩

/-- The model converts exactly as specified. -/
theorem readElem_iff (ty : ElemTy) (t : Str) (e : Elem) : readElem ty t = some e ↔ Denotes ty t e := by
  rw [readElem_some]
  cases ty with
  | string => simp [parseElem, Denotes, eq_comm]
  | boolean =>
    simp only [parseElem, parseBool, Denotes]
    grind
  | integer lo hi =>
    simp only [parseElem, parseInteger, Denotes]
    constructor
    · intro h
      split at h
      · simp at h
      · simp at h
      · rename_i v rest hf
        split at h
        · rename_i hr
          subst hr
          simp at h
          subst h
          exact ⟨v, rfl, (fromChars_ok lo hi t v).1 hf⟩
        · simp at h
    · rintro ⟨v, rfl, h⟩
      rw [(fromChars_ok lo hi t v).2 h]
      simp
  | enumeration names =>
    simp only [parseElem, parseEnum, Denotes]
    constructor
    · intro h
      split at h
      · rename_i tag hl
        simp at h
        subst h
        exact ⟨tag, rfl, (lookup_some_iff names t tag).1 hl⟩
      · split at h <;> simp at h
    · rintro ⟨tag, rfl, h⟩
      rw [(lookup_some_iff names t tag).2 h]
  | foreign a c =>
    simp only [parseElem, parseForeign, Denotes]
    cases hc : c t <;> simp

/-! ### Out of range -/

theorem takeWhile_digits_append (ds rest : Str) (h1 : ∀ c ∈ ds, c ∈ digits) (h2 : ∀ c, rest.head? = some c → c ∉ digits) :
    (ds ++ rest).takeWhile isDigit = ds := by
  induction ds with
  | nil =>
    cases rest with
    | nil => rfl
    | cons c rest =>
      have : isDigit c = false := by
        cases hc : isDigit c with
        | false => rfl
        | true => exact absurd ((mem_digits_iff c).2 hc) (h2 c rfl)
      simp [this]
  | cons c ds ih =>
    have := (mem_digits_iff c).1 (h1 c (by simp))
    simp [this, ih (fun d hd => h1 d (by simp [hd]))]

theorem head_dropWhile_digits (s : Str) : ∀ c, (s.dropWhile isDigit).head? = some c → c ∉ digits := by
  intro c h hc
  induction s with
  | nil => simp at h
  | cons d s ih =>
    by_cases hd : isDigit d = true
    · simp [hd] at h; exact ih h
    · simp [hd] at h; subst h; exact hd ((mem_digits_iff d).1 hc)

theorem takeWhile_digits_mem (s : Str) : ∀ c ∈ s.takeWhile isDigit, c ∈ digits := by
  intro c hc
  exact (mem_digits_iff c).2 (List.all_takeWhile (p := isDigit) (l := s) |> fun h => by
    rw [List.all_eq_true] at h; exact h c hc)

theorem fromChars_outOfRange (lo hi : Int) (s : Str) : fromChars lo hi s = .outOfRange ↔ IntOutOfRange lo hi s := by
  have key : ∀ (body : Str) (f : Nat → Int),
      ((if body.takeWhile isDigit = [] then FromChars.invalid
        else if f (digitsVal (body.takeWhile isDigit)) < lo ∨ hi < f (digitsVal (body.takeWhile isDigit)) then .outOfRange
        else .ok (f (digitsVal (body.takeWhile isDigit))) (body.dropWhile isDigit)) = .outOfRange) ↔
      ∃ ds rest, IsDecimal ds ∧ (∀ c, rest.head? = some c → c ∉ digits) ∧ body = ds ++ rest ∧
        ¬ (lo ≤ f (decValue ds) ∧ f (decValue ds) ≤ hi) := by
    intro body f
    constructor
    · intro h
      split at h
      · simp at h
      · rename_i hne
        split at h
        · rename_i hr
          rw [digitsVal_eq _ (takeWhile_digits_mem body)] at hr
          exact ⟨_, _, ⟨hne, takeWhile_digits_mem body⟩, head_dropWhile_digits body, List.takeWhile_append_dropWhile.symm,
            by omega⟩
        · simp at h
    · rintro ⟨ds, rest, ⟨h1, h2⟩, h3, rfl, h4⟩
      rw [takeWhile_digits_append ds rest h2 h3, digitsVal_eq _ h2, if_neg h1, if_pos (by omega)]
  unfold IntOutOfRange
  by_cases hneg : lo < 0 ∧ s.head? = some '-'
  · obtain ⟨hlo, hh⟩ := hneg
    cases s with
    | nil => simp at hh
    | cons c ds =>
      simp at hh
      subst hh
      have h0 : fromChars lo hi ('-' :: ds) =
        (if ds.takeWhile isDigit = [] then FromChars.invalid
          else if -(digitsVal (ds.takeWhile isDigit) : Int) < lo ∨ hi < -(digitsVal (ds.takeWhile isDigit) : Int) then
            .outOfRange
          else .ok (-(digitsVal (ds.takeWhile isDigit) : Int)) (ds.dropWhile isDigit)) := by
        simp [fromChars, hlo]
      rw [h0, key ds (fun n => -(n : Int))]
      constructor
      · rintro ⟨a, b, h1, h2, h3, h4⟩
        exact ⟨a, b, h1, h2, Or.inr ⟨hlo, by rw [h3], h4⟩⟩
      · rintro ⟨a, b, h1, h2, ⟨h3, h4⟩ | ⟨_, h3, h4⟩⟩
        · cases a with
          | nil => exact absurd rfl h1.1
          | cons c a =>
            injection h3 with h3 _
            subst h3
            exact absurd (h1.2 '-' (by simp)) minus_not_digit
        · exact ⟨a, b, h1, h2, by injection h3, h4⟩
  · have hb : (decide (lo < 0) && (s.head? == some '-')) = false := by
      cases hx : (decide (lo < 0) && (s.head? == some '-')) with
      | false => rfl
      | true => simp at hx; exact absurd hx hneg
    have h0 : fromChars lo hi s =
      (if s.takeWhile isDigit = [] then FromChars.invalid
        else if (digitsVal (s.takeWhile isDigit) : Int) < lo ∨ hi < (digitsVal (s.takeWhile isDigit) : Int) then
          .outOfRange
        else .ok (digitsVal (s.takeWhile isDigit) : Int) (s.dropWhile isDigit)) := by
      simp [fromChars, hb]
    rw [h0, key s (fun n => (n : Int))]
    constructor
    · rintro ⟨a, b, h1, h2, h3, h4⟩
      exact ⟨a, b, h1, h2, Or.inl ⟨h3, h4⟩⟩
    · rintro ⟨a, b, h1, h2, ⟨h3, h4⟩ | ⟨hlo, h3, h4⟩⟩
      · exact ⟨a, b, h1, h2, h3, h4⟩
      · exact absurd ⟨hlo, by rw [h3]; rfl⟩ hneg

theorem parseElem_outOfRange (ty : ElemTy) (t : Str) :
    (∃ w, parseElem ty t = .ok (.overflowError, w)) ↔ OutOfRange ty t := by
  cases ty with
  | string => simp [parseElem, OutOfRange]
  | boolean => simp [parseElem, OutOfRange, parseBool]; grind
  | integer lo hi =>
    simp only [parseElem, OutOfRange, parseInteger, ← fromChars_outOfRange]
    cases fromChars lo hi t with
    | ok v rest => by_cases h : rest = [] <;> simp [h]
    | invalid => simp
    | outOfRange => simp
  | enumeration names => simp [parseElem, OutOfRange, parseEnum]; grind
  | foreign a c =>
    simp only [parseElem, OutOfRange, parseForeign]
    cases hc : c t <;> cases a <;> simp

theorem takeWhile_digits (a rest : Str) (ha : ∀ c ∈ a, c ∈ digits) (hr : ∀ c, rest.head? = some c → c ∉ digits) :
    (a ++ rest).takeWhile isDigit = a ∧ (a ++ rest).dropWhile isDigit = rest := by
  induction a with
  | nil =>
    cases rest with
    | nil => simp
    | cons c rest =>
      have h1 : isDigit c ≠ true := fun e => hr c rfl ((mem_digits_iff c).2 e)
      simp [h1]
  | cons c a ih =>
    have h1 : isDigit c = true := (mem_digits_iff c).1 (ha c (by simp))
    obtain ⟨h2, h3⟩ := ih (fun d hd => ha d (by simp [hd]))
    simp [h1, h2, h3]

theorem takeWhile_digits_spec (s : Str) :
    (∀ c ∈ s.takeWhile isDigit, c ∈ digits) ∧ (∀ c, (s.dropWhile isDigit).head? = some c → c ∉ digits) := by
  constructor
  · intro c hc
    exact (mem_digits_iff c).2 (List.all_eq_true.1 (List.all_takeWhile (p := isDigit) (l := s)) c hc)
  · intro c hc hd
    cases hs : s.dropWhile isDigit with
    | nil => rw [hs] at hc; cases hc
    | cons d t =>
      rw [hs] at hc
      cases hc
      have := List.head_dropWhile_not isDigit (l := s) (by rw [hs]; simp)
      simp only [hs, List.head_cons] at this
      rw [(mem_digits_iff _).1 hd] at this
      cases this

theorem dot_not_digit : '.' ∉ digits := by decide

end Sharg
