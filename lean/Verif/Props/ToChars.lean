import Verif.Model.ToChars
import Verif.Lemmas.Explained
import Verif.Props.Charconv
import Mathlib.Data.Nat.Digits.Defs

/-!
# Property C72: the replacement of `std::to_chars` for floating point numbers
-/

namespace Sharg

open Spec

/-- C72, the buffer (partial): for every type and every buffer, the text is written at the beginning of the buffer if it fits, and nothing is
written otherwise; the buffer keeps its size; the position is behind the text, or at the end of the buffer if the text does not fit. Missing:
that the text can be read back, see below. -/
theorem C72_buffer_partial {V : Type} (show' : V → Str) (buffer : Str) (v : V) :
    (shimToChars show' buffer v).buffer.length = buffer.length ∧
    ((shimToChars show' buffer v).tooLarge = true ↔ buffer.length < (show' v).length) ∧
    ((shimToChars show' buffer v).tooLarge = true →
      (shimToChars show' buffer v).buffer = buffer ∧ (shimToChars show' buffer v).used = buffer.length) ∧
    ((shimToChars show' buffer v).tooLarge = false →
      (shimToChars show' buffer v).buffer.take (shimToChars show' buffer v).used = show' v ∧
      (shimToChars show' buffer v).buffer.drop (shimToChars show' buffer v).used =
        buffer.drop (shimToChars show' buffer v).used) := by
  unfold shimToChars
  dsimp only
  split
  · rename_i h
    simp [h]
  · rename_i h
    refine ⟨?_, by simp [h], by simp, fun _ => ⟨by simp, by simp⟩⟩
    simp only [List.length_append, List.length_drop]
    omega

/-! ### Six significant digits -/

theorem decExp_bounds (n : Nat) (h : 0 < n) : 10 ^ decExp n ≤ n ∧ n < 10 ^ (decExp n + 1) := by
  induction n using Nat.strongRecOn with
  | ind n ih =>
    unfold decExp
    split
    · simp; omega
    · rename_i h10
      obtain ⟨h1, h2⟩ := ih (n / 10) (by omega) (by omega)
      rw [Nat.pow_succ, Nat.pow_succ 10 (decExp (n / 10) + 1)]
      omega

theorem decExp_shift (q k r : Nat) (hq : 0 < q) (hr : r < 10 ^ k) : decExp (q * 10 ^ k + r) = decExp q + k := by
  induction k generalizing r with
  | zero =>
    have : r = 0 := by simpa using hr
    simp [this]
  | succ k ih =>
    have hp : 0 < 10 ^ k := Nat.pow_pos (by omega)
    have hd : (q * 10 ^ (k + 1) + r) / 10 = q * 10 ^ k + r / 10 := by
      rw [Nat.pow_succ, ← Nat.mul_assoc]
      omega
    have h10 : ¬ q * 10 ^ (k + 1) + r < 10 := by
      have : 10 ≤ q * 10 ^ (k + 1) := by
        rw [Nat.pow_succ, ← Nat.mul_assoc]
        have := Nat.mul_pos hq hp
        omega
      omega
    rw [decExp, dif_neg h10, hd, ih (r / 10) (by rw [Nat.pow_succ] at hr; omega)]
    omega

/-- The text depends on the digits in front and on how the rest is rounded. -/
theorem streamFloat_congr (q k r r' : Nat) (hq : 10 ^ 5 ≤ q ∧ q < 10 ^ 6) (hk : 1 ≤ k) (hr : r < 10 ^ k) (hr' : r' < 10 ^ k)
    (h : (2 * r < 10 ^ k ∨ (2 * r = 10 ^ k ∧ q % 2 = 0)) ↔ (2 * r' < 10 ^ k ∨ (2 * r' = 10 ^ k ∧ q % 2 = 0))) :
    streamFloat (q * 10 ^ k + r) = streamFloat (q * 10 ^ k + r') := by
  have hq5 : decExp q = 5 := by
    have hb := decExp_bounds q (by omega)
    have h1 : decExp q < 6 := by
      apply Classical.byContradiction
      intro hn
      have : 10 ^ 6 ≤ 10 ^ decExp q := Nat.pow_le_pow_right (by omega) (by omega)
      omega
    have h2 : 4 < decExp q := by
      apply Classical.byContradiction
      intro hn
      have : 10 ^ (decExp q + 1) ≤ 10 ^ 5 := Nat.pow_le_pow_right (by omega) (by omega)
      omega
    omega
  have hp : 0 < 10 ^ k := Nat.pow_pos (by omega)
  have e1 : ∀ r, r < 10 ^ k → decExp (q * 10 ^ k + r) = 5 + k := fun r h => by rw [decExp_shift q k r (by omega) h, hq5]
  have e2 : ∀ r, r < 10 ^ k → (q * 10 ^ k + r) / 10 ^ k = q := fun r h => by
    rw [Nat.add_comm, Nat.add_mul_div_right _ _ hp, Nat.div_eq_of_lt h, Nat.zero_add]
  have e3 : ∀ r, r < 10 ^ k → (q * 10 ^ k + r) % 10 ^ k = r := fun r h => by
    rw [Nat.add_comm, Nat.add_mul_mod_self_right, Nat.mod_eq_of_lt h]
  have e4 : ∀ r, ¬ q * 10 ^ k + r < 10 ^ 6 := fun r => by
    have : 10 ^ 1 ≤ 10 ^ k := Nat.pow_le_pow_right (by omega) hk
    have : 10 ^ 5 * 10 ^ 1 ≤ q * 10 ^ k := Nat.mul_le_mul hq.1 this
    omega
  unfold streamFloat
  have e5 : 5 + k - 5 = k := by omega
  simp only [if_neg (e4 r), if_neg (e4 r'), e1 r hr, e1 r' hr', e5, e2 r hr, e2 r' hr', e3 r hr, e3 r' hr', h]

/-- C72 does not hold: every number of eight digits and more has the same text as another number, so that it cannot be read back, whatever the
buffer and the reader. -/
theorem C72_large_numbers_share_their_text (n : Nat) (h : 10 ^ 7 ≤ n) : ∃ m, m ≠ n ∧ streamFloat m = streamFloat n := by
  have hb := decExp_bounds n (by omega)
  have he : 7 ≤ decExp n := by
    apply Classical.byContradiction
    intro hn
    have : 10 ^ (decExp n + 1) ≤ 10 ^ 7 := Nat.pow_le_pow_right (by omega) (by omega)
    omega
  obtain ⟨k, hk⟩ : ∃ k, decExp n = k + 5 := ⟨decExp n - 5, by omega⟩
  have hp : 0 < 10 ^ k := Nat.pow_pos (by omega)
  have h100 : 100 ≤ 10 ^ k := Nat.pow_le_pow_right (n := 10) (i := 2) (by omega) (by omega)
  have heven : 10 ^ k % 2 = 0 := by
    obtain ⟨j, rfl⟩ : ∃ j, k = j + 1 := ⟨k - 1, by omega⟩
    rw [Nat.pow_succ]; omega
  have hq : 10 ^ 5 ≤ n / 10 ^ k ∧ n / 10 ^ k < 10 ^ 6 := by
    constructor
    · rw [Nat.le_div_iff_mul_le hp, ← Nat.pow_add, Nat.add_comm, ← hk]
      exact hb.1
    · rw [Nat.div_lt_iff_lt_mul hp, ← Nat.pow_add, show 6 + k = decExp n + 1 by omega]
      exact hb.2
  have hn : n = n / 10 ^ k * 10 ^ k + n % 10 ^ k := by
    have := Nat.div_add_mod n (10 ^ k)
    rw [Nat.mul_comm]; omega
  have hr := Nat.mod_lt n hp
  generalize n / 10 ^ k = q at *
  generalize n % 10 ^ k = r at *
  suffices ∃ r', r' ≠ r ∧ r' < 10 ^ k ∧
      ((2 * r' < 10 ^ k ∨ (2 * r' = 10 ^ k ∧ q % 2 = 0)) ↔ (2 * r < 10 ^ k ∨ (2 * r = 10 ^ k ∧ q % 2 = 0))) by
    obtain ⟨r', h1, h2, h3⟩ := this
    exact ⟨q * 10 ^ k + r', by omega, by rw [hn]; exact streamFloat_congr q k r' r hq (by omega) h2 hr h3⟩
  generalize 10 ^ k = u at *
  rcases Nat.lt_trichotomy (2 * r) u with h | h | h
  · by_cases h' : 2 * (r + 1) < u
    · exact ⟨r + 1, by omega, by omega, by omega⟩
    · exact ⟨r - 1, by omega, by omega, by omega⟩
  · by_cases hq2 : q % 2 = 0
    · exact ⟨r - 1, by omega, by omega, by omega⟩
    · exact ⟨r + 1, by omega, by omega, by omega⟩
  · by_cases h' : 2 * (r - 1) > u
    · exact ⟨r - 1, by omega, by omega, by omega⟩
    · exact ⟨r + 1, by omega, by omega, by omega⟩

/-- C72 does not hold already for seven digits. -/
theorem C72_seven_digits : (shimToChars streamFloat "...............".toList 1234567) = ⟨"1.23457e+06....".toList, 11, false⟩ ∧
    streamFloat 1234567 = streamFloat 1234568 := by decide +kernel

/-- C72 (partial): numbers of at most six digits are written in decimal and read back by the replacement of `std::from_chars`. Missing: larger
numbers, see `C72_large_numbers_share_their_text`, and fractions. -/
theorem C72_small_numbers_come_back_partial (n : Nat) (h : n < 10 ^ 6) (buffer : Str) (hroom : 6 ≤ buffer.length) :
    (shimToChars streamFloat buffer n).tooLarge = false ∧
    let text := (shimToChars streamFloat buffer n).buffer.take (shimToChars streamFloat buffer n).used
    IsDecimal text ∧ decValue text = n ∧ shimOption doubleDigits text false = (.success, some n, false) := by
  obtain ⟨hd, hv⟩ := numberText_showNat n
  have hl : (showNat n).length ≤ 6 := Nat.toDigits_length 10 n 6 (by omega) h
  have hs : streamFloat n = showNat n := by unfold streamFloat; rw [if_pos h]
  have hb := C72_buffer_partial streamFloat buffer n
  have hf : (shimToChars streamFloat buffer n).tooLarge = false := by
    cases hc : (shimToChars streamFloat buffer n).tooLarge with
    | false => rfl
    | true =>
      have := hb.2.1.1 hc
      rw [hs] at this
      omega
  refine ⟨hf, ?_⟩
  dsimp only
  rw [(hb.2.2.2 hf).1, hs]
  refine ⟨hd, hv, ?_⟩
  have hw := takeWhile_isDigit_eq _ hd.2
  have hst : strtodDigits (showNat n) = ⟨n, (showNat n).length, false⟩ := by
    unfold strtodDigits
    rw [hw]
    dsimp only
    rw [if_pos (by omega), digitsVal_eq _ hd.2, hv]
  have hnul : '\x00' ∉ showNat n := fun hm => absurd (hd.2 _ hm) (by decide)
  have hplus : (showNat n).headD '\x00' ≠ '+' := by
    cases hx : showNat n with
    | nil => exact absurd hx hd.1
    | cons a t =>
      intro ha
      have : a ∈ digits := hd.2 a (by rw [hx]; simp)
      simp only [List.headD_cons] at ha
      subst ha
      exact absurd this (by decide)
  have hz : ¬ ((showNat n).length = 0) := fun h0 => hd.1 (List.length_eq_zero_iff.1 h0)
  have hround : roundToFloat n = n := by unfold roundToFloat; rw [if_pos (by omega)]
  unfold shimOption shimFromChars
  rw [shimText_general, takeWhile_not_nul hnul]
  simp only [if_neg hplus, reduceCtorEq, false_and, if_false, doubleDigits, hst, Bool.or_false, Bool.false_eq_true, hz, and_false, hround,
    if_true]

/-- The hypotheses are met, and buffers that are too small are left alone. -/
example : shimToChars streamFloat "........".toList 271828 = ⟨"271828..".toList, 6, false⟩ ∧
    shimToChars streamFloat ".....".toList 271828 = ⟨".....".toList, 5, true⟩ ∧ streamFloat 10000001 = "1e+07".toList ∧
    streamFloat 9999995 = "1e+07".toList ∧ streamFloat 123456500 = "1.23456e+08".toList := by decide +kernel

end Sharg
