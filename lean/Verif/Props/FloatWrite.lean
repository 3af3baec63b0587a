import Verif.Props.FloatShow
import Verif.Props.ToChars

/-!
# Property C72 for fractions: the replacement of `std::to_chars` with the values of a floating point type
-/

namespace Sharg

open Spec

theorem dropZeros_length_le (s : Str) : (dropZeros s).length ≤ s.length := by
  obtain ⟨k, hk⟩ := dropZeros_split s
  have := congrArg List.length hk
  simp at this
  omega

theorem pointText_length (a b : Str) : (pointText a b).length ≤ a.length + b.length + 1 := by
  have := dropZeros_length_le b
  unfold pointText
  split <;> simp <;> omega

theorem generalText_length (m : Nat) (x : Int) (h1 : 10 ^ 5 ≤ m) (h2 : m < 10 ^ 6) (hx : x.natAbs < 1000) : (generalText m x).length ≤ 12 := by
  have hl := showNat_length_six m h1 h2
  have he : (showNat x.natAbs).length ≤ 3 := Nat.toDigits_length 10 _ 3 (by omega) hx
  have he1 : x.natAbs < 10 → (showNat x.natAbs).length ≤ 1 := fun h => Nat.toDigits_length 10 _ 1 (by omega) h
  unfold generalText
  dsimp only
  split
  · split
    · refine (pointText_length _ _).trans ?_
      simp [hl]; omega
    · refine (pointText_length _ _).trans ?_
      simp [hl]; omega
  · have hp := pointText_length ((showNat m).take 1) ((showNat m).drop 1)
    simp only [List.length_take, List.length_drop, hl] at hp
    rw [List.length_append, List.length_cons, List.length_cons, List.length_append]
    split
    · rename_i h
      have := he1 h
      simp only [List.length_singleton]
      omega
    · simp only [List.length_nil]
      omega

/-- The exponents of the numbers have at most three digits. -/
structure Spec.ShortExponents (F : FloatFormat) : Prop where
  small : ∃ a, 10 ^ a ≤ 5 ^ F.minExp ∧ F.minExp ≤ a + 999
  large : F.decimal F.infinity ≤ 10 ^ (F.minExp + 998)

theorem shortExponents_binary32 : ShortExponents binary32 := ⟨⟨0, by decide +kernel, by decide +kernel⟩, by decide +kernel⟩

theorem shortExponents_binary64 : ShortExponents binary64 := ⟨⟨750, by decide +kernel, by decide +kernel⟩, by decide +kernel⟩

theorem decimal_lt (F : FloatFormat) (m n : Nat) (h : m < n) : F.decimal m < F.decimal n := by
  have h1 := (patternValue_lt_iff F m n).2 h
  rw [decimal_value, decimal_value] at h1
  have hp : (0 : ℚ) < 10 ^ F.minExp := by positivity
  have := (div_lt_div_iff_of_pos_right hp).1 h1
  exact_mod_cast this

theorem decimal_ge (F : FloatFormat) (n : Nat) (h : 0 < n) : 5 ^ F.minExp ≤ F.decimal n := by
  have hp := decimal_pos F n h
  unfold FloatFormat.decimal at hp ⊢
  exact Nat.le_mul_of_pos_left _ (Nat.pos_of_mul_pos_right hp)

/-- C72: no text is longer than thirteen characters. -/
theorem C72_thirteen_characters (F : FloatFormat) (hF : ShortExponents F) (v : Nat) : (floatText F v).length ≤ 13 := by
  have hsign : (if 2 ^ (F.expBits + F.fraction) ≤ v then ['-'] else []).length ≤ 1 := by split <;> simp
  unfold floatText
  dsimp only
  rw [List.length_append]
  have hrest : (if F.infinity < F.magnitude v then "nan".toList
    else if F.magnitude v = F.infinity then "inf".toList
    else if F.magnitude v = 0 then ['0']
    else generalText (sixDigits (F.decimal (F.magnitude v))).1 ((sixDigits (F.decimal (F.magnitude v))).2 - F.minExp)).length ≤ 12 := by
    split
    · decide
    · split
      · decide
      · split
        · decide
        · rename_i h1 h2 h3
          have hN := decimal_pos F (F.magnitude v) (by omega)
          obtain ⟨g1, g2, g3⟩ := sixDigits_spec _ hN
          refine generalText_length _ _ g1 g2 ?_
          obtain ⟨b1, b2⟩ := decExp_bounds _ hN
          obtain ⟨a, ha, hb⟩ := hF.small
          have l1 := decimal_ge F (F.magnitude v) (by omega)
          have l2 := decimal_lt F (F.magnitude v) F.infinity (by omega)
          have l3 := hF.large
          have c1 : a < decExp (F.decimal (F.magnitude v)) + 1 := (Nat.pow_lt_pow_iff_right (a := 10) (by omega)).1 (by omega)
          have c2 : decExp (F.decimal (F.magnitude v)) < F.minExp + 998 := (Nat.pow_lt_pow_iff_right (a := 10) (by omega)).1 (by omega)
          have c3 : (sixDigits (F.decimal (F.magnitude v))).2 = decExp (F.decimal (F.magnitude v)) ∨
              (sixDigits (F.decimal (F.magnitude v))).2 = decExp (F.decimal (F.magnitude v)) + 1 := by
            unfold sixDigits
            dsimp only
            split <;> split <;> simp
          omega
  omega

/-- C72, for every finite number of `float` or `double`: a buffer of thirteen characters suffices, and then the text written stands for the number if
and only if the number is the one nearest to some decimal number with at most six digits. -/
theorem C72_written_number_iff (F : FloatFormat) (hF : ShortExponents F) (hf : 20 ≤ F.fraction) (buffer : Str) (hroom : 13 ≤ buffer.length) (v : Nat)
    (hp : IsPattern F v) (hv : FiniteFloat F v) :
    (shimToChars (floatText F) buffer v).tooLarge = false ∧
    (DenotesFloat F ((shimToChars (floatText F) buffer v).buffer.take (shimToChars (floatText F) buffer v).used) v ↔
      ∃ y, SixDigits y ∧ Rounded F y (F.magnitude v)) := by
  have hl := C72_thirteen_characters F hF v
  have hb := C72_buffer_partial (floatText F) buffer v
  have hfit : (shimToChars (floatText F) buffer v).tooLarge = false := by
    cases hc : (shimToChars (floatText F) buffer v).tooLarge with
    | false => rfl
    | true =>
      have := hb.2.1.1 hc
      omega
  refine ⟨hfit, ?_⟩
  rw [(hb.2.2.2 hfit).1]
  exact C84_reads_back_iff F hf v hp hv

/-! ### Whole numbers -/

theorem decExp_million (n : Nat) (h : 10 ^ 6 ≤ n) : 6 ≤ decExp n := by
  have hb := (decExp_bounds n (by omega)).2
  by_cases h6 : 6 ≤ decExp n
  · exact h6
  · have : 10 ^ (decExp n + 1) ≤ 10 ^ 6 := Nat.pow_le_pow_right (by omega) (by omega)
    omega

theorem streamFloat_general (n : Nat) (h : 10 ^ 6 ≤ n) : streamFloat n = generalText (sixDigits n).1 ((sixDigits n).2 - (0 : Nat)) := by
  have h6 := decExp_million n h
  have hu : 10 ^ decExp n = 10 ^ (decExp n - 5) * 10 ^ 5 := by rw [← Nat.pow_add]; congr 1; omega
  have hq : n * 10 ^ 5 / 10 ^ decExp n = n / 10 ^ (decExp n - 5) := by rw [hu, Nat.mul_div_mul_right _ _ (by norm_num)]
  have hr : n * 10 ^ 5 % 10 ^ decExp n = n % 10 ^ (decExp n - 5) * 10 ^ 5 := by rw [hu, Nat.mul_mod_mul_right]
  have hc : (2 * (n * 10 ^ 5 % 10 ^ decExp n) < 10 ^ decExp n ∨
      (2 * (n * 10 ^ 5 % 10 ^ decExp n) = 10 ^ decExp n ∧ n * 10 ^ 5 / 10 ^ decExp n % 2 = 0)) ↔
      (2 * (n % 10 ^ (decExp n - 5)) < 10 ^ (decExp n - 5) ∨
      (2 * (n % 10 ^ (decExp n - 5)) = 10 ^ (decExp n - 5) ∧ n / 10 ^ (decExp n - 5) % 2 = 0)) := by
    rw [hq, hr, hu]
    generalize 10 ^ (decExp n - 5) = u
    omega
  have hs : ∀ m e, 6 ≤ e → generalText m (((e : Nat) : Int) - (0 : Nat)) = (showNat m).take 1 ++
      (if dropZeros (showNat m).tail = [] then [] else '.' :: dropZeros (showNat m).tail) ++ "e+".toList ++ (if e < 10 then ['0'] else []) ++
      showNat e := by
    intro m e he
    have e1 : ((e : Int) - (0 : Nat)).natAbs = e := by omega
    unfold generalText pointText
    dsimp only
    rw [if_neg (show ¬ (-4 ≤ (e : Int) - (0 : Nat) ∧ (e : Int) - (0 : Nat) < 6) by omega), if_neg (show ¬ (e : Int) - (0 : Nat) < 0 by omega), e1,
      List.drop_one]
    simp only [List.append_assoc]
    rfl
  unfold streamFloat
  rw [if_neg (by omega)]
  have h6' : sixDigits n = if (if 2 * (n % 10 ^ (decExp n - 5)) < 10 ^ (decExp n - 5) ∨
      (2 * (n % 10 ^ (decExp n - 5)) = 10 ^ (decExp n - 5) ∧ n / 10 ^ (decExp n - 5) % 2 = 0) then n / 10 ^ (decExp n - 5)
      else n / 10 ^ (decExp n - 5) + 1) = 10 ^ 6 then (10 ^ 5, decExp n + 1)
    else (if 2 * (n % 10 ^ (decExp n - 5)) < 10 ^ (decExp n - 5) ∨
      (2 * (n % 10 ^ (decExp n - 5)) = 10 ^ (decExp n - 5) ∧ n / 10 ^ (decExp n - 5) % 2 = 0) then n / 10 ^ (decExp n - 5)
      else n / 10 ^ (decExp n - 5) + 1, decExp n) := by
    unfold sixDigits
    dsimp only
    rw [if_congr hc rfl rfl, hq]
  rw [h6']
  dsimp only
  generalize (if 2 * (n % 10 ^ (decExp n - 5)) < 10 ^ (decExp n - 5) ∨
      (2 * (n % 10 ^ (decExp n - 5)) = 10 ^ (decExp n - 5) ∧ n / 10 ^ (decExp n - 5) % 2 = 0) then n / 10 ^ (decExp n - 5)
      else n / 10 ^ (decExp n - 5) + 1) = m
  by_cases hm : m = 10 ^ 6
  · simp only [if_pos hm]
    exact (hs _ _ (by omega)).symm
  · simp only [if_neg hm]
    exact (hs _ _ h6).symm

/-- C72: what is written for a whole number of a million or more. It is the closest number with six digits (the even one of two), in scientific
notation, without zeros at the end of the fraction. -/
theorem C72_large_numbers_rounded (n : Nat) (h : 10 ^ 6 ≤ n) :
    ∃ (d : DecimalText) (m : Nat) (x : Int), d.Ok ∧ d.neg = false ∧ streamFloat n = d.render ∧ GeneralForm d x ∧ 6 ≤ x ∧
      10 ^ 5 ≤ m ∧ m < 10 ^ 6 ∧ d.abs = m * (10 : ℚ) ^ (x - 5) ∧ (∀ y, SixDigits y → |d.abs - n| ≤ |y - n|) ∧
      (|(n : ℚ) - d.abs| = (10 : ℚ) ^ (x - 5) / 2 → m % 2 = 0) := by
  obtain ⟨d, m, x, hd, hneg, hr, hg, h1, h2, ha, hy, ht⟩ := generalText_shown false n 0 (by omega) (n : ℚ) (by simp)
  refine ⟨d, m, x, hd, hneg, by rw [streamFloat_general n h, hr]; rfl, hg, ?_, h1, h2, ha, hy, ht⟩
  by_cases hx : 6 ≤ x
  · exact hx
  · exfalso
    have hle := hy (10 ^ 6) ⟨10 ^ 5, 1, by norm_num, by norm_num⟩
    have hn : (10 : ℚ) ^ 6 ≤ n := by exact_mod_cast h
    have hd6 : d.abs < 10 ^ 6 := by
      rw [ha]
      have hm : (m : ℚ) < 10 ^ 6 := by exact_mod_cast h2
      have hz : (10 : ℚ) ^ (x - 5) ≤ (10 : ℚ) ^ (0 : Int) := zpow_le_zpow_right₀ (by norm_num) (by omega)
      rw [zpow_zero] at hz
      have hz0 : (0 : ℚ) < (10 : ℚ) ^ (x - 5) := zpow_pos (by norm_num) _
      nlinarith
    rw [abs_of_nonpos (by linarith), abs_of_nonpos (by linarith)] at hle
    linarith

/-- The hypothesis is met: rounded up over a power of ten, rounded to even, and exactly. -/
example : streamFloat 9999995 = "1e+07".toList ∧ streamFloat 123456500 = "1.23456e+08".toList ∧ streamFloat 123457500 = "1.23458e+08".toList ∧
    streamFloat 1500000 = "1.5e+06".toList ∧ streamFloat (10 ^ 100) = "1e+100".toList := by decide +kernel

example : shimToChars (floatText binary64) "..............".toList 0xFFEFFFFFFFFFFFFF = ⟨"-1.79769e+308.".toList, 13, false⟩ ∧
    shimToChars (floatText binary64) "....".toList 0x3FE0000000000000 = ⟨"0.5.".toList, 3, false⟩ ∧
    shimToChars (floatText binary64) "..".toList 0x3FE0000000000000 = ⟨"..".toList, 2, true⟩ := by decide +kernel

example : DenotesFloat binary64 ((shimToChars (floatText binary64) ".............".toList exTenth).buffer.take
    (shimToChars (floatText binary64) ".............".toList exTenth).used) exTenth :=
  (C72_written_number_iff binary64 shortExponents_binary64 (by decide) ".............".toList (by decide) exTenth exTenth_ok.1
    exTenth_ok.2).2.2 exTenth_six

end Sharg
