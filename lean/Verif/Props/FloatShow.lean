import Verif.Lemmas.FloatShow
import Verif.Props.Float

/-!
# Property C84: how default values of floating point options are shown
-/

namespace Sharg

open Spec

variable {W : Type}

/-! ### The number that is shown -/

/-- The sign bit. -/
def Spec.isNegative (F : FloatFormat) (v : Nat) : Bool := decide (2 ^ (F.expBits + F.fraction) ≤ v)

theorem pattern_split (F : FloatFormat) (v : Nat) (hp : IsPattern F v) : v = F.signBit (isNegative F v) + F.magnitude v := by
  unfold IsPattern at hp
  unfold isNegative FloatFormat.magnitude FloatFormat.signBit
  generalize 2 ^ (F.expBits + F.fraction) = H at *
  by_cases h : H ≤ v
  · rw [decide_eq_true h, if_pos rfl, Nat.mod_eq_sub_mod h, Nat.mod_eq_of_lt (by omega)]
    omega
  · rw [decide_eq_false h, if_neg (by decide), Nat.mod_eq_of_lt (by omega), Nat.zero_add]

theorem floatText_finite (F : FloatFormat) (v : Nat) (hv : FiniteFloat F v) (h0 : F.magnitude v ≠ 0) :
    floatText F v = minusSign (isNegative F v) ++
      generalText (sixDigits (F.decimal (F.magnitude v))).1 ((sixDigits (F.decimal (F.magnitude v))).2 - F.minExp) := by
  have hv' : F.magnitude v < F.infinity := hv
  unfold floatText minusSign isNegative
  dsimp only
  rw [if_neg (show ¬ F.infinity < F.magnitude v by omega), if_neg (show ¬ F.magnitude v = F.infinity by omega), if_neg h0]
  by_cases h : 2 ^ (F.expBits + F.fraction) ≤ v
  · rw [if_pos h, decide_eq_true h, if_pos rfl]
  · rw [if_neg h, decide_eq_false h, if_neg (by decide)]

/-- The text is a decimal number; the first rounding that gave it. -/
theorem floatText_decimal (F : FloatFormat) (v : Nat) (hv : FiniteFloat F v) (h0 : F.magnitude v ≠ 0) :
    ∃ d : DecimalText, d.Ok ∧ d.neg = isNegative F v ∧ floatText F v = d.render ∧ SixDigits d.abs ∧
      ∃ (m : Nat) (x : Int), d.abs = m * (10 : ℚ) ^ (x - 5) ∧ (10 : ℚ) ^ x ≤ patternValue F (F.magnitude v) ∧
        patternValue F (F.magnitude v) < (10 : ℚ) ^ (x + 1) ∧ |patternValue F (F.magnitude v) - d.abs| ≤ (10 : ℚ) ^ (x - 5) / 2 := by
  have hN := decimal_pos F (F.magnitude v) (by omega)
  obtain ⟨h1, h2, h3⟩ := sixDigits_spec _ hN
  obtain ⟨d, hd, hneg, hr, ha, _⟩ := generalText_decimal (isNegative F v) (sixDigits (F.decimal (F.magnitude v))).1
    ((sixDigits (F.decimal (F.magnitude v))).2 - F.minExp) h1 h2
  have hval := sixDigits_value _ F.minExp hN
  obtain ⟨b1, b2, b3⟩ := sixDigits_bounds _ F.minExp hN _ (decimal_value F (F.magnitude v))
  refine ⟨d, hd, hneg, by rw [floatText_finite F v hv h0, hr], ⟨_, _, h2, ha⟩, _, _, ha.trans hval, b1, b2, ?_⟩
  rw [ha, hval]
  exact b3

/-- C84 (partial): the text shown for a finite default value is a decimal number with at most six digits and the right sign, which differs from the
value by at most half a unit of its sixth digit, that is, by at most five millionths. Missing: that the text stands for the value, see below. -/
theorem C84_shown_number_partial (F : FloatFormat) (v : Nat) (hv : FiniteFloat F v) :
    ∃ d : DecimalText, d.Ok ∧ d.neg = isNegative F v ∧ floatText F v = d.render ∧ SixDigits d.abs ∧
      |d.abs - patternValue F (F.magnitude v)| ≤ patternValue F (F.magnitude v) * (5 / 10 ^ 6) := by
  by_cases h0 : F.magnitude v = 0
  · refine ⟨⟨isNegative F v, ['0'], none, none⟩, ⟨by simp [digits], by simp [DecimalText.fracDigits], Or.inl (by simp), by simp⟩, rfl, ?_, ?_, ?_⟩
    · have hv' : F.magnitude v < F.infinity := hv
      unfold floatText isNegative DecimalText.render
      dsimp only
      rw [if_neg (show ¬ F.infinity < F.magnitude v by omega), if_neg (show ¬ F.magnitude v = F.infinity by omega), if_pos h0]
      by_cases h : 2 ^ (F.expBits + F.fraction) ≤ v <;> simp [h]
    · exact ⟨0, 0, by norm_num, by simp [DecimalText.abs, DecimalText.fracDigits, decValue, digits]⟩
    · rw [h0, patternValue_zero]
      simp [DecimalText.abs, DecimalText.fracDigits, decValue, digits]
  · obtain ⟨d, hd, hneg, hr, hs, m, x, ha, b1, b2, b3⟩ := floatText_decimal F v hv h0
    refine ⟨d, hd, hneg, hr, hs, ?_⟩
    rw [abs_sub_comm]
    refine b3.trans ?_
    rw [zpow_sub₀ (by norm_num)]
    norm_num
    linarith

/-- A number with six digits, written as by `%g`. -/
theorem generalText_shown (neg : Bool) (n K : Nat) (hn : 0 < n) (V : ℚ) (hV : V = n / (10 : ℚ) ^ K) :
    ∃ (d : DecimalText) (m : Nat) (x : Int), d.Ok ∧ d.neg = neg ∧ d.render = minusSign neg ++ generalText (sixDigits n).1 ((sixDigits n).2 - K) ∧
      GeneralForm d x ∧ 10 ^ 5 ≤ m ∧ m < 10 ^ 6 ∧ d.abs = m * (10 : ℚ) ^ (x - 5) ∧ (∀ y, SixDigits y → |d.abs - V| ≤ |y - V|) ∧
      (|V - d.abs| = (10 : ℚ) ^ (x - 5) / 2 → m % 2 = 0) := by
  obtain ⟨h1, h2, h3⟩ := sixDigits_spec n hn
  obtain ⟨d, hd, hneg, hr, ha, hg⟩ := generalText_decimal neg (sixDigits n).1 ((sixDigits n).2 - K) h1 h2
  have hval := sixDigits_value n K hn
  obtain ⟨b1, b2, b3⟩ := sixDigits_bounds n K hn V hV
  refine ⟨d, _, _, hd, hneg, hr, hg, h1, h2, ha, fun y hy => ?_, fun ht => sixDigits_tie n K V hV (ha ▸ ht)⟩
  rw [ha, hval]
  exact shown_closest V _ _ b1 b3 y hy

/-- C84: how a finite default value other than 0 is shown. The number is the closest one with six digits (the even one of two), and the notation is
the shortest: no zeros at the end of a fraction, and an exponent only for numbers below 0.0001 or of a million and more. -/
theorem C84_notation (F : FloatFormat) (v : Nat) (hv : FiniteFloat F v) (h0 : F.magnitude v ≠ 0) :
    ∃ (d : DecimalText) (m : Nat) (x : Int), d.Ok ∧ d.neg = isNegative F v ∧ floatText F v = d.render ∧ GeneralForm d x ∧
      10 ^ 5 ≤ m ∧ m < 10 ^ 6 ∧ d.abs = m * (10 : ℚ) ^ (x - 5) ∧
      (∀ y, SixDigits y → |d.abs - patternValue F (F.magnitude v)| ≤ |y - patternValue F (F.magnitude v)|) ∧
      (|patternValue F (F.magnitude v) - d.abs| = (10 : ℚ) ^ (x - 5) / 2 → m % 2 = 0) := by
  obtain ⟨d, m, x, hd, hneg, hr, rest⟩ := generalText_shown (isNegative F v) _ F.minExp (decimal_pos F (F.magnitude v) (by omega)) _
    (decimal_value F (F.magnitude v))
  exact ⟨d, m, x, hd, hneg, by rw [floatText_finite F v hv h0, hr], rest⟩

/-- C84: a default value that was written with at most six digits is shown as that number. (`F` has at least 20 bits behind the point, as `float` and
`double`, and the value is not subnormal.) -/
theorem C84_six_digits_shown_as_written (F : FloatFormat) (hf : 20 ≤ F.fraction) (v : Nat) (hv : FiniteFloat F v)
    (hn : FullPrecision F (F.magnitude v)) (y : ℚ) (hy : SixDigits y) (h : Rounded F y (F.magnitude v)) :
    ∃ d : DecimalText, d.Ok ∧ d.neg = isNegative F v ∧ floatText F v = d.render ∧ d.abs = y := by
  rcases hn with h0 | hn
  · obtain ⟨d, hd, hneg, hr, hs, hle⟩ := C84_shown_number_partial F v hv
    refine ⟨d, hd, hneg, hr, ?_⟩
    rw [h0, patternValue_zero] at hle
    rw [h.2.2 h0]
    have : |d.abs - 0| ≤ 0 := by simpa using hle
    have := _root_.abs_eq_zero.1 (le_antisymm this (abs_nonneg _))
    linarith
  · have hpos : 0 < 2 ^ F.fraction := Nat.two_pow_pos _
    obtain ⟨d, hd, hneg, hr, hs, m, x, ha, b1, b2, b3⟩ := floatText_decimal F v hv (by omega)
    refine ⟨d, hd, hneg, hr, ?_⟩
    have hrel := nearest_relative F h.1 hn
    generalize patternValue F (F.magnitude v) = V at *
    have hV : 0 < V := lt_of_lt_of_le (zpow_pos (by norm_num) _) b1
    have hrel' : |y - V| ≤ V / 2 ^ 21 := by
      refine hrel.trans ?_
      gcongr
      · norm_num
      · omega
    have hy0 : y ≠ 0 := by
      rintro rfl
      rw [zero_sub, abs_neg, abs_of_pos hV] at hrel'
      linarith
    obtain ⟨M, j, hM1, hM2, rfl⟩ := sixDigits_normal y hy hy0
    have hj : (0 : ℚ) < (10 : ℚ) ^ j := zpow_pos (by norm_num) _
    have shift : ∀ a : Int, (10 : ℚ) ^ (x - 5 - j + a) * (10 : ℚ) ^ j = (10 : ℚ) ^ (x - 5 + a) := by
      intro a
      rw [← zpow_add₀ (by norm_num)]
      congr 1
      ring
    have shift0 := shift 0
    rw [add_zero, add_zero] at shift0
    have key := nearest_six M m (V / (10 : ℚ) ^ j) (x - 5 - j) hM1 hM2 (by
        rw [le_div_iff₀ hj, shift]
        rw [show x - 5 + 5 = x by ring]
        exact b1) (by
        rw [div_lt_iff₀ hj, shift]
        rw [show x - 5 + 6 = x + 1 by ring]
        exact b2) (by
        rw [ha] at b3
        have e : V / (10 : ℚ) ^ j - m * (10 : ℚ) ^ (x - 5 - j) = (V - m * (10 : ℚ) ^ (x - 5)) / (10 : ℚ) ^ j := by
          rw [← shift0]
          field_simp
        rw [e, abs_div, abs_of_pos hj, div_le_iff₀ hj, div_mul_eq_mul_div, shift0]
        exact b3) (by
        have e : (M : ℚ) - V / (10 : ℚ) ^ j = (M * (10 : ℚ) ^ j - V) / (10 : ℚ) ^ j := by
          field_simp
        rw [e, abs_div, abs_of_pos hj, div_le_iff₀ hj]
        refine hrel'.trans (le_of_eq ?_)
        field_simp)
    rw [ha, ← shift0, ← mul_assoc, key]

/-! ### Reading it back -/

/-- C84, exactly: the text shown for a default value denotes this value if and only if the value is the one nearest to some decimal number with at
most six digits. -/
theorem C84_reads_back_iff (F : FloatFormat) (hf : 20 ≤ F.fraction) (v : Nat) (hp : IsPattern F v) (hv : FiniteFloat F v) :
    DenotesFloat F (floatText F v) v ↔ ∃ y, SixDigits y ∧ Rounded F y (F.magnitude v) := by
  constructor
  · intro h
    obtain ⟨d, hd, hneg, hr, hs, _⟩ := C84_shown_number_partial F v hv
    rw [hr] at h
    obtain ⟨n, h1, h2⟩ := denotes_decimal F (by omega) d hd v h
    have := pattern_split F v hp
    rw [hneg] at h2
    have hnm : n = F.magnitude v := by omega
    exact ⟨_, hs, hnm ▸ h1⟩
  · rintro ⟨y, hy, h⟩
    by_cases hn : FullPrecision F (F.magnitude v)
    · obtain ⟨d, hd, hneg, hr, ha⟩ := C84_six_digits_shown_as_written F hf v hv hn y hy h
      rw [hr]
      exact Or.inl ⟨d, hd, rfl, _, ha ▸ h, by rw [hneg]; exact pattern_split F v hp⟩
    · have h0 : F.magnitude v ≠ 0 := fun h => hn (Or.inl h)
      have hlt : F.magnitude v < 2 ^ F.fraction := Nat.lt_of_not_le fun h => hn (Or.inr h)
      obtain ⟨d, hd, hneg, hr, hs, m, x, ha, b1, b2, b3⟩ := floatText_decimal F v hv h0
      rw [hr]
      refine Or.inl ⟨d, hd, rfl, _, ⟨?_, h.2.1, fun h' => absurd h' h0⟩, by rw [hneg]; exact pattern_split F v hp⟩
      refine nearest_subnormal F hlt (by omega) h.1 ?_
      rw [ha]
      exact shown_closest _ m x b1 (ha ▸ b3) y hy

/-- C84: the hundred thousand smallest numbers are read back. -/
theorem C84_smallest_numbers_come_back (F : FloatFormat) (v : Nat) (hp : IsPattern F v) (hv : FiniteFloat F v)
    (h5 : F.magnitude v < 10 ^ 5) (hs : F.magnitude v < 2 ^ F.fraction) : DenotesFloat F (floatText F v) v := by
  obtain ⟨d, hd, hneg, hr, _, hle⟩ := C84_shown_number_partial F v hv
  rw [hr]
  refine Or.inl ⟨d, hd, rfl, F.magnitude v, ⟨?_, hv, fun h0 => ?_⟩, by rw [hneg]; exact pattern_split F v hp⟩
  · have vn := patternValue_subnormal F (F.magnitude v) (by omega)
    have h5' : (F.magnitude v : ℚ) < 10 ^ 5 := by exact_mod_cast h5
    have hu : 0 < patternValue F 1 := by
      have := (patternValue_lt_iff F 0 1).2 (by omega)
      rwa [patternValue_zero] at this
    have hhalf : |d.abs - patternValue F (F.magnitude v)| < patternValue F 1 / 2 := by
      refine lt_of_le_of_lt hle ?_
      rw [vn]
      nlinarith
    intro k
    by_cases hk : k = F.magnitude v
    · subst hk
      exact ⟨le_refl _, fun hne => absurd rfl hne⟩
    · have far := patternValue_far F (F.magnitude v) k hs hk
      have tri : |patternValue F k - patternValue F (F.magnitude v)| ≤
          |d.abs - patternValue F k| + |d.abs - patternValue F (F.magnitude v)| := by
        have := abs_sub_le (patternValue F k) d.abs (patternValue F (F.magnitude v))
        rwa [abs_sub_comm (patternValue F k) d.abs] at this
      exact ⟨by linarith, fun _ he => absurd he (by linarith)⟩
  · rw [h0, patternValue_zero] at hle
    have : |d.abs - 0| ≤ 0 := by simpa using hle
    have := _root_.abs_eq_zero.1 (le_antisymm this (abs_nonneg _))
    linarith

/-- The largest finite number has `c` as its first six digits (not rounded up). -/
structure Spec.LargestDigits (F : FloatFormat) (c : Nat) (x : Int) : Prop where
  lower : c * (10 : ℚ) ^ (x - 5) ≤ patternValue F (F.infinity - 1)
  upper : patternValue F (F.infinity - 1) < (c + 1 / 2) * (10 : ℚ) ^ (x - 5)
  digits : 10 ^ 5 < c ∧ c < 10 ^ 6

theorem largest_binary32 : LargestDigits binary32 340282 38 := by
  have h : patternValue binary32 (binary32.infinity - 1) = (2 ^ 24 - 1) * 2 ^ 104 := by
    have e1 : (binary32.infinity - 1) / 2 ^ binary32.fraction = 254 := by decide +kernel
    have e2 : (binary32.infinity - 1) % 2 ^ binary32.fraction = 2 ^ 23 - 1 := by decide +kernel
    unfold patternValue
    dsimp only
    rw [e1, e2]
    norm_num [binary32]
  refine ⟨?_, ?_, by norm_num⟩
  · rw [h]; norm_num
  · rw [h]; norm_num

theorem largest_binary64 : LargestDigits binary64 179769 308 := by
  have h : patternValue binary64 (binary64.infinity - 1) = (2 ^ 53 - 1) * 2 ^ 971 := by
    have e1 : (binary64.infinity - 1) / 2 ^ binary64.fraction = 2046 := by decide +kernel
    have e2 : (binary64.infinity - 1) % 2 ^ binary64.fraction = 2 ^ 52 - 1 := by decide +kernel
    unfold patternValue
    dsimp only
    rw [e1, e2]
    have e3 : (2 : ℚ) ^ 2045 = 2 ^ 971 * 2 ^ 1074 := by rw [← pow_add]
    norm_num [binary64]
    rw [e3, ← mul_assoc, mul_div_assoc, div_self (pow_ne_zero _ (by norm_num)), mul_one]
  have k1 : 179769 * 10 ^ 303 ≤ 9007199254740991 * 2 ^ 971 := by decide +kernel
  have k2 : 2 * (9007199254740991 * 2 ^ 971) < (2 * 179769 + 1) * 10 ^ 303 := by decide +kernel
  have hA : (10 : ℚ) ^ 303 = ((10 ^ 303 : ℕ) : ℚ) := (Nat.cast_pow 10 303).symm
  have hB : (2 : ℚ) ^ 971 = ((2 ^ 971 : ℕ) : ℚ) := (Nat.cast_pow 2 971).symm
  have hM : (2 : ℚ) ^ 53 - 1 = (9007199254740991 : ℕ) := by norm_num
  rw [hM, hB] at h
  have e : (10 : ℚ) ^ ((308 : Int) - 5) = 10 ^ 303 := by
    rw [show ((308 : Int) - 5) = ((303 : ℕ) : Int) by norm_num, zpow_natCast]
  refine ⟨?_, ?_, by norm_num⟩
  · rw [h, e, hA]
    generalize 10 ^ 303 = a at k1
    generalize 2 ^ 971 = b at k1
    exact_mod_cast k1
  · rw [h, e, hA]
    generalize 10 ^ 303 = a at k2
    generalize 2 ^ 971 = b at k2
    have : (2 : ℚ) * ((9007199254740991 : ℕ) * b) < (2 * (179769 : ℕ) + 1) * a := by exact_mod_cast k2
    have h3 : ((179769 : ℕ) + 1 / 2 : ℚ) * a = (2 * (179769 : ℕ) + 1) * a / 2 := by ring
    rw [h3, lt_div_iff₀ (by norm_num), mul_comm]
    exact this

/-- C84: the text shown for a finite default value is never rejected. (`LargestDigits` holds for `float` and `double`.) -/
theorem C84_shown_text_accepted (F : FloatFormat) (hF : Ieee F) (c : Nat) (x₀ : Int) (hc : LargestDigits F c x₀) (v : Nat) (hv : FiniteFloat F v) :
    ∃ v', DenotesFloat F (floatText F v) v' := by
  by_cases h0 : F.magnitude v = 0
  · obtain ⟨d, hd, hneg, hr, hs, hle⟩ := C84_shown_number_partial F v hv
    rw [hr, C83_accepted_numbers F hF d hd]
    left
    rw [h0, patternValue_zero] at hle
    have : |d.abs - 0| ≤ 0 := by simpa using hle
    have := _root_.abs_eq_zero.1 (le_antisymm this (abs_nonneg _))
    linarith
  · obtain ⟨d, hd, hneg, hr, hs, m, x, ha, b1, b2, b3⟩ := floatText_decimal F v hv h0
    rw [hr, C83_accepted_numbers F hF d hd]
    right
    have hfin : F.magnitude v < F.infinity := hv
    have l1 := (patternValue_le_iff F 1 (F.magnitude v)).2 (by omega)
    have l2 := (patternValue_le_iff F (F.magnitude v) (F.infinity - 1)).2 (by omega)
    have l3 := (patternValue_lt_iff F (F.infinity - 1) F.infinity).2 (by omega)
    obtain ⟨c1, c2⟩ := abs_le.1 b3
    have hx : (10 : ℚ) ^ (x - 5) = (10 : ℚ) ^ x / 10 ^ 5 := by
      rw [zpow_sub₀ (by norm_num)]
      norm_num
    have hx1 : (10 : ℚ) ^ (x + 1) = (10 : ℚ) ^ x * 10 := by rw [zpow_add₀ (by norm_num)]; norm_num
    have hpos : (0 : ℚ) < (10 : ℚ) ^ x := zpow_pos (by norm_num) _
    refine ⟨by linarith, lt_of_le_of_lt ?_ (show patternValue F (F.infinity - 1) < _ by linarith)⟩
    have hx0 : (10 : ℚ) ^ (x₀ - 5) = (10 : ℚ) ^ x₀ / 10 ^ 5 := by
      rw [zpow_sub₀ (by norm_num)]
      norm_num
    have hpos0 : (0 : ℚ) < (10 : ℚ) ^ x₀ := zpow_pos (by norm_num) _
    have g1 := hc.lower
    have g2 := hc.upper
    have g3 : (10 ^ 5 + 1 : ℚ) ≤ c := by exact_mod_cast hc.digits.1
    have g4 : (c + 1 : ℚ) ≤ 10 ^ 6 := by exact_mod_cast hc.digits.2
    rcases lt_trichotomy x x₀ with h | h | h
    · have h1 : (10 : ℚ) ^ (x + 1) ≤ (10 : ℚ) ^ x₀ := zpow_le_zpow_right₀ (by norm_num) (by omega)
      refine le_trans ?_ g1
      rw [hx0]
      have : (10 ^ 5 + 1) * ((10 : ℚ) ^ x₀ / 10 ^ 5) ≤ c * ((10 : ℚ) ^ x₀ / 10 ^ 5) := mul_le_mul_of_nonneg_right g3 (by positivity)
      refine le_trans ?_ this
      rw [hx] at c1
      linarith
    · subst h
      have hm : m ≤ c := by
        have : (m : ℚ) < c + 1 := by
          rw [ha] at c1
          have hp : (0 : ℚ) < (10 : ℚ) ^ (x - 5) := zpow_pos (by norm_num) _
          by_contra hcon
          have : (c + 1) * (10 : ℚ) ^ (x - 5) ≤ m * (10 : ℚ) ^ (x - 5) := mul_le_mul_of_nonneg_right (not_lt.1 hcon) hp.le
          linarith
        have : m < c + 1 := by exact_mod_cast this
        omega
      refine le_trans ?_ g1
      rw [ha]
      have : (m : ℚ) ≤ c := by exact_mod_cast hm
      exact mul_le_mul_of_nonneg_right this (zpow_nonneg (by norm_num) _)
    · exfalso
      have h1 : (10 : ℚ) ^ (x₀ + 1) ≤ (10 : ℚ) ^ x := zpow_le_zpow_right₀ (by norm_num) (by omega)
      have hx01 : (10 : ℚ) ^ (x₀ + 1) = (10 : ℚ) ^ x₀ * 10 := by rw [zpow_add₀ (by norm_num)]; norm_num
      have : (c + 1) * ((10 : ℚ) ^ x₀ / 10 ^ 5) ≤ 10 ^ 6 * ((10 : ℚ) ^ x₀ / 10 ^ 5) := mul_le_mul_of_nonneg_right g4 (by positivity)
      rw [hx0] at g2
      linarith

/-- C84, the others: infinity is shown so that it can be read back, and NaN so that a NaN is read. -/
theorem C84_infinity_and_nan (F : FloatFormat) (v : Nat) (hp : IsPattern F v) :
    (F.magnitude v = F.infinity → DenotesFloat F (floatText F v) v) ∧
    (F.infinity < F.magnitude v → DenotesFloat F (floatText F v) (F.signBit (isNegative F v) + F.nan)) := by
  have hneg : (if 2 ^ (F.expBits + F.fraction) ≤ v then ['-'] else []) = minusSign (isNegative F v) := by
    unfold minusSign isNegative
    by_cases h : 2 ^ (F.expBits + F.fraction) ≤ v <;> simp [h]
  constructor
  · intro h
    have ht : floatText F v = minusSign (isNegative F v) ++ "inf".toList := by
      unfold floatText
      dsimp only
      rw [hneg, if_neg (show ¬ F.infinity < F.magnitude v by omega), if_pos h]
    rw [ht]
    refine Or.inr ⟨_, _, rfl, Or.inl ⟨Or.inl (by decide), ?_⟩⟩
    rw [← h]
    exact pattern_split F v hp
  · intro h
    have ht : floatText F v = minusSign (isNegative F v) ++ "nan".toList := by
      unfold floatText
      dsimp only
      rw [hneg, if_pos h]
    rw [ht]
    exact Or.inr ⟨_, _, rfl, Or.inr ⟨⟨"nan".toList, [], by simp, by decide, Or.inl rfl⟩, rfl⟩⟩

/-! ### On the help page and on the command line -/

/-- C84: on the help page the text is behind `Default: `. -/
theorem C84_on_the_page (te : TypeEnv) (F : FloatFormat) (hte : te.showOther F.elemTy = floatText F) (v : Nat) :
    ShowsDefault te F.elemTy (.one (.other v)) (floatText F v) := by
  show " Default: ".toList ++ toStringElem te F.elemTy (.other v) = _
  have : toStringElem te F.elemTy (.other v) = floatText F v := by
    unfold toStringElem
    rw [← hte]
    cases te.kind F.elemTy <;> rfl
  rw [this]

/-- C84, for `parse()`: giving a floating point option, in whatever spelling, the text that the help page shows as its default value makes the
variable hold that value if and only if the value is the one nearest to some decimal number with at most six digits. -/
theorem C84_default_given_back_iff (env : Env W) (g g' : Prog W) (hg : Reachable env g) (items : List Item)
    (tail : Option (List Str)) (hl : LineGiven g items tail) (hok : LineOk (decls g) items tail)
    (hnd : env.ndebug = false ∨ ListsRepresentable (decls g) items tail) (hvars : VarsDistinct (decls g))
    (h : parse env g = (.returned, g')) (d : OptDecl W) (hd : d ∈ (decls g).options) (F : FloatFormat) (hf : 20 ≤ F.fraction)
    (hty : d.ty = F.elemTy) (hs : d.isList = false) (te : TypeEnv) (hte : te.showOther F.elemTy = floatText F) (v : Nat) (hp : IsPattern F v)
    (hv : FiniteFloat F v) (text : Str) (ht : ShowsDefault te F.elemTy (.one (.other v)) text)
    (it : Item) (hit : it ∈ items) (hval : it.valueFor d = some text) :
    g'.store d.var = .one (.other v) ↔ ∃ y, SixDigits y ∧ Rounded F y (F.magnitude v) := by
  have htext : text = floatText F v := by
    have h1 : " Default: ".toList ++ toStringElem te F.elemTy (.other v) = _ := ht
    have h2 : " Default: ".toList ++ toStringElem te F.elemTy (.other v) = _ := C84_on_the_page te F hte v
    exact List.append_cancel_left (h1.symm.trans h2)
  subst htext
  obtain ⟨v', h1, h2⟩ := C83_option_holds_nearest env g g' hg items tail hl hok hnd hvars h d hd F (by omega) hty hs it hit _ hval
  rw [← C84_reads_back_iff F hf v hp hv, h2]
  constructor
  · intro he
    have : v' = v := by injection he with he; injection he
    exact this ▸ h1
  · intro hden
    rw [C83_one_value F (by omega) _ _ _ h1 hden]

/-- The number 1234567 as a `double`. -/
def exMillion : Nat := 0x4132D68700000000

/-- C84, counterexample: a default value of 1234567 is shown as `1.23457e+06`, which is another number. -/
theorem C84_shown_as_another_number : IsPattern binary64 exMillion ∧ FiniteFloat binary64 exMillion ∧ floatValue binary64 exMillion = 1234567 ∧
    floatText binary64 exMillion = "1.23457e+06".toList ∧ ¬ DenotesFloat binary64 (floatText binary64 exMillion) exMillion := by
  have ht : floatText binary64 exMillion = "1.23457e+06".toList := by decide +kernel
  refine ⟨by unfold IsPattern; decide +kernel, by unfold FiniteFloat; decide +kernel, by decide +kernel, ht, ?_⟩
  rw [ht]
  intro h
  have h1 : floatConv binary64 "1.23457e+06".toList = .ok (.other exMillion) :=
    (C83_accepted_exactly binary64 (by decide) _ (.other exMillion)).2 ⟨_, rfl, h⟩
  revert h1
  decide +kernel

/-- Values to which the theorems apply: 0.1, -2.5 and the largest `double`. -/
def exTenth : Nat := 0x3FB999999999999A

theorem exTenth_ok : IsPattern binary64 exTenth ∧ FiniteFloat binary64 exTenth :=
  ⟨by unfold IsPattern; decide +kernel, by unfold FiniteFloat; decide +kernel⟩

example : floatText binary64 exTenth = "0.1".toList ∧ floatText binary64 0xC004000000000000 = "-2.5".toList ∧
    floatText binary64 0x7FEFFFFFFFFFFFFF = "1.79769e+308".toList ∧ floatText binary64 1 = "4.94066e-324".toList ∧
    floatText binary64 0xFFF0000000000000 = "-inf".toList := by decide +kernel

/-- 0.1 is the number nearest to a decimal with one digit. -/
theorem exTenth_denotes : DenotesFloat binary64 (floatText binary64 exTenth) exTenth := by
  have ht : floatText binary64 exTenth = "0.1".toList := by decide +kernel
  rw [ht]
  obtain ⟨v, h1, h2⟩ := (C83_accepted_exactly binary64 (by decide) "0.1".toList (.other exTenth)).1 (show floatConv _ _ = _ by decide +kernel)
  injection h1 with h1
  rw [h1]
  exact h2

theorem exTenth_six : ∃ y, SixDigits y ∧ Rounded binary64 y (binary64.magnitude exTenth) :=
  (C84_reads_back_iff binary64 (by decide) exTenth exTenth_ok.1 exTenth_ok.2).1 exTenth_denotes

example : ∃ d : DecimalText, d.Ok ∧ d.neg = isNegative binary64 exTenth ∧ floatText binary64 exTenth = d.render ∧ SixDigits d.abs ∧
    |d.abs - patternValue binary64 (binary64.magnitude exTenth)| ≤ patternValue binary64 (binary64.magnitude exTenth) * (5 / 10 ^ 6) :=
  C84_shown_number_partial binary64 exTenth exTenth_ok.2

example : ∃ y, SixDigits y ∧ ∃ d : DecimalText, d.Ok ∧ d.neg = isNegative binary64 exTenth ∧ floatText binary64 exTenth = d.render ∧ d.abs = y := by
  obtain ⟨y, h1, h2⟩ := exTenth_six
  exact ⟨y, h1, C84_six_digits_shown_as_written binary64 (by decide) exTenth exTenth_ok.2 (Or.inr (by decide +kernel)) y h1 h2⟩

example : ∃ v', DenotesFloat binary64 (floatText binary64 0x7FEFFFFFFFFFFFFF) v' :=
  C84_shown_text_accepted binary64 ieee_binary64 _ _ largest_binary64 _ (by unfold FiniteFloat; decide +kernel)

example : ∃ v', DenotesFloat binary32 (floatText binary32 1) v' :=
  C84_shown_text_accepted binary32 ieee_binary32 _ _ largest_binary32 _ (by unfold FiniteFloat; decide +kernel)

example : DenotesFloat binary32 "-inf".toList 0xFF800000 :=
  (C84_infinity_and_nan binary32 0xFF800000 (by unfold IsPattern; decide +kernel)).1 (by decide +kernel)

example : DenotesFloat binary64 (floatText binary64 0x800000000000FFFF) 0x800000000000FFFF :=
  C84_smallest_numbers_come_back binary64 _ (by unfold IsPattern; decide +kernel) (by unfold FiniteFloat; decide +kernel) (by decide +kernel)
    (by decide +kernel)

/-- A parser that shows values of type `double` as the stream does. -/
def exFloatTypes : TypeEnv := { exTypes with showOther := fun _ => floatText binary64 }

/-- The program of C83, given the default value 0.1 as shown by its help page. -/
def exShownRun : Prog Unit := exRun exFloatCalls (["-x", "0.1"].map String.toList)

theorem exShown_mem : exFloatDecl ∈ (decls exShownRun).options := by
  rw [show decls exShownRun = declsOf (exFloatCalls.filterMap Call.entry?) from exRun_decls _ _ (by decide +kernel)]
  exact .head _

theorem exShown_returned : parse exEnv exShownRun = (.returned, (parse exEnv exShownRun).2) := returned_pair (by decide +kernel)

theorem exShown_text : ShowsDefault exFloatTypes binary64.elemTy (.one (.other exTenth)) "0.1".toList := by
  have h := C84_on_the_page exFloatTypes binary64 rfl exTenth
  rwa [show floatText binary64 exTenth = "0.1".toList by decide +kernel] at h

example : (parse exEnv exShownRun).2.store exFloatDecl.var = .one (.other exTenth) :=
  (C84_default_given_back_iff exEnv exShownRun (parse exEnv exShownRun).2 (exRun_reachable _ _) [.short 'x' .separate "0.1".toList] none
    (by decide +kernel) (by decide +kernel) (Or.inl rfl) (by decide +kernel) exShown_returned exFloatDecl exShown_mem binary64 (by decide) rfl rfl
    exFloatTypes rfl exTenth exTenth_ok.1 exTenth_ok.2 "0.1".toList exShown_text
    (.short 'x' .separate "0.1".toList) (.head _) (by decide)).2 exTenth_six

end Sharg
