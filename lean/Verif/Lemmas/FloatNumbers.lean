import Verif.Lemmas.Float
import Mathlib.Tactic.Ring
import Mathlib.Tactic.FieldSimp
import Mathlib.Tactic.Positivity
import Mathlib.Tactic.NormNum

/-!
# Lemmas: the numbers of a floating point type, and their differences
-/

namespace Sharg

open Spec

theorem patternValue_le_iff (F : FloatFormat) (j k : Nat) : patternValue F j ≤ patternValue F k ↔ j ≤ k := by
  rw [← not_lt, patternValue_lt_iff, not_lt]

theorem patternValue_zero (F : FloatFormat) : patternValue F 0 = 0 := by
  unfold patternValue
  simp

theorem patternValue_nonneg (F : FloatFormat) (k : Nat) : 0 ≤ patternValue F k := by
  rw [← patternValue_zero F, patternValue_le_iff]; omega

theorem signBit_half (F : FloatFormat) : F.signBit true = 2 ^ (F.expBits + F.fraction) := rfl

theorem infinity_lt (F : FloatFormat) : F.infinity < 2 ^ (F.expBits + F.fraction) := by
  unfold FloatFormat.infinity
  have h1 : 0 < 2 ^ F.expBits := by positivity
  have h2 : 0 < 2 ^ F.fraction := by positivity
  rw [pow_add]
  exact (Nat.mul_lt_mul_right h2).2 (by omega)

theorem floatValue_rounded (F : FloatFormat) (neg : Bool) (n : Nat) (h : n < F.infinity) :
    floatValue F (F.signBit neg + n) = if neg then -patternValue F n else patternValue F n := by
  have hi := infinity_lt F
  unfold floatValue
  cases neg with
  | true =>
    rw [signBit_half, if_neg (by omega), Nat.add_sub_cancel_left]
    rfl
  | false =>
    have : F.signBit false = 0 := rfl
    rw [this, Nat.zero_add, if_pos (by omega)]
    rfl

/-- Where the rounding changes from `k` to `k + 1`: in the middle. -/
theorem nearest_above_iff (F : FloatFormat) {x : ℚ} {n : Nat} (hn : Nearest F x n) (k : Nat) :
    k < n ↔ (patternValue F k + patternValue F (k + 1)) / 2 < x ∨ (x = (patternValue F k + patternValue F (k + 1)) / 2 ∧ k % 2 = 1) := by
  have hk := (patternValue_lt_iff F k (k + 1)).2 (by omega)
  constructor
  · intro h
    have h1 := (hn k).1
    have h2 := (patternValue_le_iff F (k + 1) n).2 h
    by_cases he : n = k + 1
    · subst he
      by_cases hx : x = (patternValue F k + patternValue F (k + 1)) / 2
      · refine Or.inr ⟨hx, ?_⟩
        have := (hn k).2 (by omega) (by
          rw [hx, abs_sub_comm]
          rw [abs_of_nonneg (by linarith), abs_of_nonneg (by linarith)]
          ring)
        omega
      · left
        rcases lt_trichotomy ((patternValue F k + patternValue F (k + 1)) / 2) x with h3 | h3 | h3
        · exact h3
        · exact absurd h3.symm hx
        · exfalso
          rcases abs_cases (x - patternValue F (k + 1)) with ⟨a1, a2⟩ | ⟨a1, a2⟩ <;>
            rcases abs_cases (x - patternValue F k) with ⟨b1, b2⟩ | ⟨b1, b2⟩ <;> rw [a1, b1] at h1 <;> linarith
    · left
      have h3 := (patternValue_lt_iff F (k + 1) n).2 (by omega)
      rcases abs_cases (x - patternValue F n) with ⟨a1, a2⟩ | ⟨a1, a2⟩ <;>
        rcases abs_cases (x - patternValue F k) with ⟨b1, b2⟩ | ⟨b1, b2⟩ <;> rw [a1, b1] at h1 <;> linarith
  · intro h
    by_cases hc : k < n
    · exact hc
    · exfalso
      have h1 := (hn (k + 1)).1
      have h2 := (patternValue_le_iff F n k).2 (by omega)
      rcases h with h | ⟨h, hodd⟩
      · rcases abs_cases (x - patternValue F n) with ⟨a1, a2⟩ | ⟨a1, a2⟩ <;>
          rcases abs_cases (x - patternValue F (k + 1)) with ⟨b1, b2⟩ | ⟨b1, b2⟩ <;> rw [a1, b1] at h1 <;> linarith
      · have heq : patternValue F n = patternValue F k := by
          rcases abs_cases (x - patternValue F n) with ⟨a1, a2⟩ | ⟨a1, a2⟩ <;>
            rcases abs_cases (x - patternValue F (k + 1)) with ⟨b1, b2⟩ | ⟨b1, b2⟩ <;> rw [a1, b1] at h1 <;> linarith
        have hnk : n = k := by
          rcases Nat.lt_trichotomy n k with h3 | h3 | h3
          · have := (patternValue_lt_iff F n k).2 h3; linarith
          · exact h3
          · omega
        subst hnk
        have := (hn (n + 1)).2 (by omega) (by
          rw [h, abs_sub_comm _ (patternValue F (n + 1))]
          rw [abs_of_nonneg (by linarith), abs_of_nonneg (by linarith)]
          ring)
        omega

theorem ieee_binary32 : Ieee binary32 := ⟨by decide, by decide, by decide⟩

theorem ieee_binary64 : Ieee binary64 := ⟨by decide, by decide, by decide⟩

/-- Integers below a power of two are numbers of the type. -/
theorem integer_pattern (F : FloatFormat) (hF : Ieee F) (hb : F.fraction + 1 < 2 ^ (F.expBits - 1)) (m : Nat) (hm : m ≤ 2 ^ (F.fraction + 1)) :
    ∃ k, k < F.infinity ∧ patternValue F k = m := by
  have hexp : 2 ^ F.expBits = 2 ^ (F.expBits - 1) + 2 ^ (F.expBits - 1) := by
    obtain ⟨b, hb'⟩ : ∃ b, F.expBits = b + 1 := ⟨F.expBits - 1, by have := hF.expBits; omega⟩
    rw [hb', pow_succ, Nat.add_sub_cancel]
    omega
  have hmin := hF.minExp
  have h2 : 2 ≤ 2 ^ (F.expBits - 1) := by
    have := Nat.pow_le_pow_right (n := 2) (by omega) (show 1 ≤ F.expBits - 1 by have := hF.expBits; omega)
    simpa using this
  have build : ∀ e M, 2 ^ F.fraction ≤ M → M < 2 * 2 ^ F.fraction → e ≤ F.minExp + 1 → M * 2 ^ e = m * 2 ^ F.minExp →
      ∃ k, k < F.infinity ∧ patternValue F k = m := by
    intro e M h3 h4 h5 h6
    refine ⟨e * 2 ^ F.fraction + M, ?_, ?_⟩
    · unfold FloatFormat.infinity
      calc e * 2 ^ F.fraction + M < e * 2 ^ F.fraction + 2 * 2 ^ F.fraction := by omega
        _ = (e + 2) * 2 ^ F.fraction := by ring
        _ ≤ (2 ^ F.expBits - 1) * 2 ^ F.fraction := Nat.mul_le_mul_right _ (by omega)
    · rw [patternValue_units, patUnits_of F e M (Or.inr h3) (by omega), h6]
      push_cast
      field_simp
  by_cases h0 : m = 0
  · subst h0
    refine ⟨0, ?_, by rw [patternValue_zero]; simp⟩
    unfold FloatFormat.infinity
    exact Nat.mul_pos (by omega) (by positivity)
  · by_cases ht : m = 2 ^ (F.fraction + 1)
    · have hp : 0 < 2 ^ F.fraction := by positivity
      refine build (F.minExp + 1) (2 ^ F.fraction) le_rfl (by omega) le_rfl ?_
      rw [ht]
      ring
    · have hl := Nat.log2_self_le h0
      have hl2 : m < 2 ^ (m.log2 + 1) := Nat.lt_log2_self
      have hle : m.log2 ≤ F.fraction := by
        have : m.log2 < F.fraction + 1 := (Nat.log2_lt h0).2 (by omega)
        omega
      obtain ⟨c, hc⟩ : ∃ c, F.fraction = m.log2 + c := ⟨F.fraction - m.log2, by omega⟩
      obtain ⟨b, hb⟩ : ∃ b, F.minExp = b + c := ⟨F.minExp - c, by omega⟩
      refine build b (m * 2 ^ c) ?_ ?_ (by omega) ?_
      · rw [hc, pow_add]; exact Nat.mul_le_mul_right _ hl
      · rw [hc, pow_add]
        have : m * 2 ^ c < 2 ^ (m.log2 + 1) * 2 ^ c := (Nat.mul_lt_mul_right (by positivity)).2 hl2
        rw [pow_succ] at this
        calc m * 2 ^ c < 2 ^ m.log2 * 2 * 2 ^ c := this
          _ = _ := by ring
      · rw [hb, pow_add]; ring

/-! ### Differences -/

theorem multiple_value (F : FloatFormat) (v : Nat) (hp : IsPattern F v) : ((F.multiple v : Int) : ℚ) / 2 ^ F.minExp = floatValue F v := by
  unfold FloatFormat.multiple floatValue FloatFormat.magnitude
  by_cases h : v < 2 ^ (F.expBits + F.fraction)
  · rw [if_pos h, if_pos h, Nat.mod_eq_of_lt h, patternValue_units]
    rfl
  · have h1 : v % 2 ^ (F.expBits + F.fraction) = v - 2 ^ (F.expBits + F.fraction) := by
      unfold IsPattern at hp
      rw [Nat.mod_eq_sub_mod (by omega), Nat.mod_eq_of_lt (by omega)]
    rw [if_neg h, if_neg h, h1, patternValue_units]
    push_cast
    rw [neg_div]
    rfl

/-- The pattern of an integer that is a number of the type. -/
theorem roundPattern_integer (F : FloatFormat) (hF : Ieee F) (hb : F.fraction + 1 < 2 ^ (F.expBits - 1)) (m : Nat) (hm : m ≤ 2 ^ (F.fraction + 1)) :
    roundPattern F m 1 < F.infinity ∧ patternValue F (roundPattern F m 1) = m := by
  obtain ⟨k, hk, hv⟩ := integer_pattern F hF hb m hm
  have h1 := roundPattern_nearest F hF.fraction m 1 (by omega)
  rw [Nat.cast_one, div_one] at h1
  have h2 := nearest_unique F h1 (hv ▸ nearest_self F k)
  rw [h2]
  exact ⟨hk, hv⟩

/-! ### A day -/

/-- The bit pattern of 86400. -/
def dayPattern : Nat := 4680673776000565248

theorem day_pattern : roundPattern binary64 86400 1 = dayPattern := by decide +kernel

theorem day_middle : (patternValue binary64 (dayPattern - 1) + patternValue binary64 dayPattern) / 2 = 86400 - 1 / 2 ^ 37 := by
  have h1 : patUnits binary64 (dayPattern - 1) = (86400 * 2 ^ 36 - 1) * 2 ^ (1074 - 36) := by decide +kernel
  have h2 : patUnits binary64 dayPattern = 86400 * 2 ^ 36 * 2 ^ (1074 - 36) := by decide +kernel
  have hm : binary64.minExp = 36 + (1074 - 36) := rfl
  rw [patternValue_units, patternValue_units, h1, h2, hm, pow_add]
  generalize 1074 - 36 = k
  have : (0 : ℚ) < 2 ^ k := by positivity
  push_cast [show (1 : Nat) ≤ 86400 * 2 ^ 36 by norm_num]
  field_simp
  norm_num

/-- Less than a day, for a finite number: the middle between 86400 and the number in front of it decides. -/
theorem lessThanDay_finite (now v : Nat) (hnow : now ≤ 2 ^ 53) (hp : IsPattern binary64 v) (hf : FiniteFloat binary64 v) :
    floatLt binary64 (floatMinus binary64 (roundPattern binary64 now 1) v) (roundPattern binary64 86400 1) = true ↔
      (now : ℚ) - floatValue binary64 v < 86400 - 1 / 2 ^ 37 := by
  obtain ⟨h1, h2⟩ := roundPattern_integer binary64 ieee_binary64 (by decide) now hnow
  have hi := infinity_lt binary64
  have hdi : dayPattern < binary64.infinity := by decide +kernel
  rw [day_pattern]
  generalize roundPattern binary64 now 1 = c at h1 h2
  have hcm : binary64.magnitude c = c := Nat.mod_eq_of_lt (by omega)
  have hcv : floatValue binary64 c = now := by
    unfold floatValue
    rw [if_pos (by omega), h2]
  have hcp : IsPattern binary64 c := by unfold IsPattern; omega
  have hvm : binary64.magnitude v < binary64.infinity := hf
  have hx : (((binary64.multiple c - binary64.multiple v : Int)) : ℚ) / 2 ^ binary64.minExp = now - floatValue binary64 v := by
    push_cast
    rw [sub_div, multiple_value _ _ hcp, multiple_value _ _ hp, hcv]
  have e : floatMinus binary64 c v = binary64.signBit (decide (binary64.multiple c - binary64.multiple v < 0)) +
      min binary64.infinity (roundPattern binary64 (binary64.multiple c - binary64.multiple v).natAbs (2 ^ binary64.minExp)) := by
    unfold floatMinus
    rw [if_neg (by omega), if_neg (by omega), if_neg (by omega)]
  rw [e, ← hx]
  generalize binary64.multiple c - binary64.multiple v = d
  have hday : binary64.place dayPattern = dayPattern := by decide +kernel
  have hdm : binary64.magnitude dayPattern ≤ binary64.infinity := by decide +kernel
  have hP : (0 : ℚ) < 2 ^ binary64.minExp := by positivity
  unfold floatLt
  rw [hday, decide_eq_true hdm, Bool.and_true]
  by_cases hd : d < 0
  · rw [decide_eq_true hd]
    have hneg : (d : ℚ) / 2 ^ binary64.minExp < 0 := div_neg_of_neg_of_pos (by exact_mod_cast hd) hP
    refine iff_of_true ?_ (lt_trans hneg (by norm_num))
    generalize hr : min binary64.infinity (roundPattern binary64 d.natAbs (2 ^ binary64.minExp)) = r
    have hr' : r ≤ binary64.infinity := by rw [← hr]; exact Nat.min_le_left _ _
    have hs : binary64.signBit true = 2 ^ (binary64.expBits + binary64.fraction) := rfl
    have hmag : binary64.magnitude (binary64.signBit true + r) = r := by
      unfold FloatFormat.magnitude
      rw [hs, Nat.add_mod_left, Nat.mod_eq_of_lt (by omega)]
    have hpl : binary64.place (binary64.signBit true + r) = -(r : Int) := by
      unfold FloatFormat.place
      rw [if_neg (by omega), hmag]
    rw [hmag, hpl, decide_eq_true hr', Bool.true_and, decide_eq_true_eq]
    have : 0 < dayPattern := by decide
    omega
  · rw [decide_eq_false hd]
    have hs : binary64.signBit false = 0 := rfl
    obtain ⟨n, rfl⟩ := Int.eq_ofNat_of_zero_le (show 0 ≤ d by omega)
    rw [hs, Nat.zero_add]
    have hq := roundPattern_nearest binary64 ieee_binary64.fraction n (2 ^ binary64.minExp) (by positivity)
    rw [Int.natAbs_natCast]
    generalize hr : roundPattern binary64 n (2 ^ binary64.minExp) = r at hq
    have hr' : min binary64.infinity r ≤ binary64.infinity := Nat.min_le_left _ _
    have hmag : binary64.magnitude (min binary64.infinity r) = min binary64.infinity r := Nat.mod_eq_of_lt (by omega)
    have hpl : binary64.place (min binary64.infinity r) = (min binary64.infinity r : Nat) := by
      unfold FloatFormat.place
      rw [if_pos (by omega), hmag]
    rw [hmag, hpl, decide_eq_true hr', Bool.true_and, decide_eq_true_eq]
    have hab := nearest_above_iff binary64 hq (dayPattern - 1)
    rw [show dayPattern - 1 + 1 = dayPattern from rfl, day_middle] at hab
    have hodd : (dayPattern - 1) % 2 = 1 := by decide
    have hcast : ((n : Nat) : ℚ) / ((2 ^ binary64.minExp : Nat) : ℚ) = (((n : Nat) : Int) : ℚ) / 2 ^ binary64.minExp := by push_cast; rfl
    rw [hcast] at hab
    have h0 : 0 < dayPattern := by decide
    constructor
    · intro h
      have h3 : ¬ dayPattern - 1 < r := by omega
      rw [hab] at h3
      rcases lt_trichotomy ((((n : Nat) : Int) : ℚ) / 2 ^ binary64.minExp) (86400 - 1 / 2 ^ 37) with h4 | h4 | h4
      · exact h4
      · exact absurd (Or.inr ⟨h4, hodd⟩) h3
      · exact absurd (Or.inl h4) h3
    · intro h
      have h3 : ¬ dayPattern - 1 < r := by
        rw [hab]
        rintro (h4 | ⟨h4, -⟩)
        · exact absurd h (not_lt.2 h4.le)
        · exact absurd h (by rw [h4]; exact lt_irrefl _)
      omega

/-- Infinity and NaN. -/
theorem lessThanDay_other (now v : Nat) (hnow : now ≤ 2 ^ 53) (hf : ¬ FiniteFloat binary64 v) :
    floatLt binary64 (floatMinus binary64 (roundPattern binary64 now 1) v) (roundPattern binary64 86400 1) = true ↔ v = binary64.infinity := by
  obtain ⟨h1, -⟩ := roundPattern_integer binary64 ieee_binary64 (by decide) now hnow
  have hi := infinity_lt binary64
  rw [day_pattern]
  generalize roundPattern binary64 now 1 = c at h1
  have hcm : binary64.magnitude c = c := Nat.mod_eq_of_lt (by omega)
  have hvm : binary64.infinity ≤ binary64.magnitude v := by unfold FiniteFloat at hf; exact not_lt.1 hf
  unfold floatMinus
  by_cases hn : binary64.infinity < binary64.magnitude v
  · rw [if_pos (Or.inr hn)]
    refine iff_of_false (by decide +kernel) ?_
    rintro rfl
    rw [show binary64.magnitude binary64.infinity = binary64.infinity from Nat.mod_eq_of_lt hi] at hn
    omega
  · have he : binary64.magnitude v = binary64.infinity := by omega
    rw [if_neg (by omega), if_neg (by omega), if_pos he]
    by_cases hv : v < 2 ^ (binary64.expBits + binary64.fraction)
    · rw [decide_eq_true hv]
      have : v = binary64.infinity := by rw [← he]; exact (Nat.mod_eq_of_lt hv).symm
      exact iff_of_true (by decide +kernel) this
    · rw [decide_eq_false hv]
      exact iff_of_false (by decide +kernel) (by omega)

end Sharg
