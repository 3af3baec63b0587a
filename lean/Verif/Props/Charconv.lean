import Verif.Spec.Charconv
import Verif.Lemmas.TimeStamp
import Mathlib.Data.Nat.Log

/-!
# Property C63: floating point numbers with the replacement of `std::from_chars`
-/

namespace Sharg

open Spec

variable {V : Type}

theorem takeWhile_not_nul {s : Str} (h : '\x00' ∉ s) : s.takeWhile (· ≠ '\x00') = s := by
  induction s with
  | nil => rfl
  | cons a s ih =>
    simp only [List.mem_cons, not_or] at h
    rw [List.takeWhile_cons_of_pos (by simpa using Ne.symm h.1), ih h.2]

theorem shimText_general (s : Str) : shimText .general '\x00' s = some (s.takeWhile (· ≠ '\x00')) := by
  unfold shimText
  rw [if_neg (by simp)]

/-- In the use by the parser there is no undefined behaviour. -/
theorem shimOption_defined (T : FloatType V) (s : Str) (errno : Bool) : (shimFromChars T .general '\x00' s errno).1 ≠ .undefined := by
  unfold shimFromChars
  rw [shimText_general]
  dsimp only
  split
  · simp
  · simp only [reduceCtorEq, false_and, if_false]
    split
    · simp
    · split <;> simp

/-- C63, the part that holds (partial): if no range error happened in the process before (`errno`), then for texts that `std::from_chars` and
`strtod` read alike and values that `float` represents, the replacement gives what the standard specifies, and the parser accepts the text exactly
if it was read completely. Missing: see the negations below. -/
theorem C63_as_specified_partial (T : FloatType V) (hT : StrtoContract T) (s : Str) (hs : ReadAlike s)
    (hv : T.viaFloat (T.strto s).value = (T.strto s).value) :
    (shimFromChars T .general '\x00' s false).1 = stdFromChars T s ∧
    ((shimOption T s false).1 = .success ↔ ∃ v, stdFromChars T s = .ok v s.length) ∧
    (∀ v, stdFromChars T s = .ok v s.length → (shimOption T s false).2.1 = some v) ∧
    ((shimOption T s false).2.2 = true ↔ ∃ n, stdFromChars T s = .outOfRange n) := by
  have h0 : shimFromChars T .general '\x00' s false =
      if (T.strto s).range = true then (.outOfRange (T.strto s).length, true)
      else if (T.strto s).length = 0 then (.invalid 0, false) else (.ok (T.strto s).value (T.strto s).length, false) := by
    unfold shimFromChars
    rw [if_neg, shimText_general, takeWhile_not_nul hs.2.2]
    · simp only [reduceCtorEq, false_and, if_false, Bool.false_or, hv]
      by_cases hr : (T.strto s).range = true
      · simp [hr]
      · by_cases hl : (T.strto s).length = 0
        · have := (hT.nothing s hl).1
          rw [hv] at this
          simp [hr, hl, this]
        · simp [hr, hl]
    · cases s with
      | nil => decide
      | cons a s => exact (hs.1 a rfl).2
  have h1 : (shimFromChars T .general '\x00' s false).1 = stdFromChars T s := by
    rw [h0]
    unfold stdFromChars
    by_cases hl : (T.strto s).length = 0
    · simp [hl, (hT.nothing s hl).2]
    · by_cases hr : (T.strto s).range = true <;> simp [hl, hr]
  refine ⟨h1, ?_⟩
  unfold shimOption
  rw [← h1, h0]
  by_cases hr : (T.strto s).range = true
  · simp [hr]
  · by_cases hl : (T.strto s).length = 0
    · simp [hr, hl]
    · simp only [if_neg hr, if_neg hl]
      by_cases hn : (T.strto s).length = s.length
      · simp [hn]
      · simp [hn]

/-- C63 does not hold: `errno` is not reset. After one range error in the process no text at all is accepted any more. -/
theorem C63_nothing_after_range_error (T : FloatType V) (s : Str) :
    (shimOption T s true).1 ≠ .success ∧ (shimOption T s true).2.1 = none ∧ (shimOption T s true).2.2 = true := by
  unfold shimOption shimFromChars
  rw [shimText_general]
  dsimp only
  by_cases h : s.headD '\x00' = '+'
  · rw [if_pos h]
    exact ⟨by simp, rfl, rfl⟩
  · simp only [if_neg h, reduceCtorEq, false_and, if_false, Bool.true_or, if_true]
    simp

/-- The same for all later conversions: none of them succeeds. -/
theorem C63_all_later_conversions_fail (T : FloatType V) (ss : List Str) : ∀ r ∈ shimOptions T ss true, r.1 ≠ .success ∧ r.2 = none := by
  induction ss with
  | nil => simp [shimOptions]
  | cons s ss ih =>
    obtain ⟨h1, h2, h3⟩ := C63_nothing_after_range_error T s
    intro r hr
    simp only [shimOptions, h3, List.mem_cons] at hr
    rcases hr with rfl | hr
    · exact ⟨h1, h2⟩
    · exact ih r hr

/-- C63 does not hold: the verdict on a text depends on texts that were read before it. -/
theorem C63_same_text_other_verdict : shimOptions doubleDigits ["5".toList, "1234567890123456".toList, "5".toList] false =
    [(.success, some 5), (.overflowError, none), (.overflowError, none)] := by decide +kernel

/-- C63 does not hold: whatever the type, only values that went through `float` are written. -/
theorem C63_only_float_values (T : FloatType V) (s : Str) (errno : Bool) (v : V) (h : (shimOption T s errno).2.1 = some v) :
    ∃ u, v = T.viaFloat u := by
  unfold shimOption shimFromChars at h
  rw [shimText_general] at h
  dsimp only at h
  by_cases h1 : s.headD '\x00' = '+'
  · rw [if_pos h1] at h
    cases h
  · by_cases h2 : (errno || (T.strto (s.takeWhile (· ≠ '\x00'))).range) = true
    · simp only [if_neg h1, reduceCtorEq, false_and, if_false, if_pos h2] at h
    · by_cases h3 : T.isZero (T.viaFloat (T.strto (s.takeWhile (· ≠ '\x00'))).value) = true ∧ (T.strto (s.takeWhile (· ≠ '\x00'))).length = 0
      · simp only [if_neg h1, reduceCtorEq, false_and, if_false, if_neg h2, if_pos h3] at h
      · simp only [if_neg h1, reduceCtorEq, false_and, if_false, if_neg h2, if_neg h3] at h
        exact ⟨_, (Option.some.inj h).symm⟩

/-- An option of type `double` with the value 16777217 gets the value 16777216. -/
theorem C63_double_precision_lost : shimOption doubleDigits "16777217".toList false = (.success, some 16777216, false) := by decide +kernel

/-- C63 does not hold: apart from a plus sign in front, everything that the C library function reads completely is accepted, also white space and a
hexadecimal prefix in front, which `std::from_chars` does not accept. -/
theorem C63_accepts_what_strto_reads (T : FloatType V) (s : Str) (h0 : '\x00' ∉ s) (hs : s ≠ []) (hp : s.head? ≠ some '+') :
    (shimOption T s false).1 = .success ↔ (T.strto s).length = s.length ∧ (T.strto s).range = false := by
  have h1 : s.headD '\x00' ≠ '+' := by
    cases s with
    | nil => exact absurd rfl hs
    | cons a s => simpa using hp
  have hl : s.length ≠ 0 := fun h => hs (List.length_eq_zero_iff.1 h)
  unfold shimOption shimFromChars
  rw [shimText_general, takeWhile_not_nul h0]
  dsimp only
  simp only [if_neg h1, reduceCtorEq, false_and, if_false, Bool.false_or]
  by_cases hr : (T.strto s).range = true
  · simp [hr]
  · simp only [if_neg hr]
    by_cases hn : (T.strto s).length = s.length
    · rw [if_neg (by rw [hn]; exact fun h => hl h.2)]
      simp [hn, hr]
    · by_cases hz : T.isZero (T.viaFloat (T.strto s).value) = true ∧ (T.strto s).length = 0
      · simp only [if_pos hz]
        simp [hn]
      · simp only [if_neg hz]
        simp [hn]

/-- C63 does not hold for the hexadecimal format: the last two characters are not read (and the position is two characters off). -/
theorem C63_hexadecimal_cut (T : FloatType V) (next : Char) (s : Str) (h0 : '\x00' ∉ s) (h1 : s.headD next ≠ '+') (h2 : s.length ≤ 98) :
    (shimFromChars T .hex next s false).1 =
      let r := T.strto (("0x".toList ++ s).dropLast.dropLast)
      if r.range = true then .outOfRange r.length
      else if T.isZero (T.viaFloat r.value) ∧ r.length = 0 then .invalid r.length else .ok (T.viaFloat r.value) r.length := by
  have e : shimText .hex next s = some (("0x".toList ++ s).dropLast.dropLast) := by
    unfold shimText
    rw [if_pos (by simp)]
    have hm : min (100 - 2) s.length = s.length := by omega
    simp only [if_true, List.length_cons, List.length_nil, Nat.zero_add, Nat.reduceAdd, hm]
    rw [if_neg (by omega)]
    have hd : ("0x".toList ++ s).dropLast.dropLast = (['0', 'x'] ++ s).take s.length := by
      rw [List.dropLast_eq_take, List.dropLast_eq_take, List.take_take]
      show List.take _ (['0', 'x'] ++ s) = _
      congr 1
      have : ("0x".toList ++ s).length = s.length + 2 := by
        show (['0', 'x'] ++ s).length = _
        simp
      rw [List.length_take, this]
      omega
    rw [hd, takeWhile_not_nul]
    intro hm
    rcases List.mem_append.1 (List.mem_of_mem_take hm) with h | h
    · revert h; decide
    · exact h0 h
  unfold shimFromChars
  rw [if_neg h1, e]
  dsimp only
  simp only [reduceCtorEq, false_and, if_false, Bool.false_or]
  split
  · rfl
  · split <;> rfl

/-- C63 for the formats `fixed` and `scientific`: a text with the letter `e` anywhere is invalid in the format `fixed`, a text without it is
invalid in the format `scientific`, `errno` is left alone then, and any other text is read as in the general format. -/
theorem C63_exponent_formats (T : FloatType V) (next : Char) (s : Str) (errno : Bool) (h1 : s.headD next ≠ '+') :
    (('e' ∈ s ∨ 'E' ∈ s) → shimFromChars T .fixed next s errno = (.invalid s.length, errno) ∧
      shimFromChars T .scientific next s errno = shimFromChars T .general next s errno) ∧
    (¬ ('e' ∈ s ∨ 'E' ∈ s) → shimFromChars T .scientific next s errno = (.invalid s.length, errno) ∧
      shimFromChars T .fixed next s errno = shimFromChars T .general next s errno) := by
  have ha : (s.any fun c => c = 'e' ∨ c = 'E') = true ↔ ('e' ∈ s ∨ 'E' ∈ s) := by
    rw [List.any_eq_true]
    constructor
    · rintro ⟨c, hc, h⟩
      rcases of_decide_eq_true h with rfl | rfl
      · exact Or.inl hc
      · exact Or.inr hc
    · rintro (h | h)
      · exact ⟨_, h, by decide⟩
      · exact ⟨_, h, by decide⟩
  have ht : ∀ f : CharsFormat, f ≠ .hex → shimText f next s = shimText .general next s := by
    intro f hf
    unfold shimText
    simp [hf]
  constructor
  · intro h
    have h := ha.2 h
    unfold shimFromChars
    simp only [if_neg h1, h, ht .scientific (by decide), reduceCtorEq, not_true_eq_false, and_false, false_and, if_false, if_true,
      and_self]
  · intro h
    have h : (s.any fun c => c = 'e' ∨ c = 'E') = false := by
      cases h0 : (s.any fun c => c = 'e' ∨ c = 'E') with
      | false => rfl
      | true => exact absurd (ha.1 h0) h
    unfold shimFromChars
    simp only [if_neg h1, h, ht .fixed (by decide), reduceCtorEq, Bool.false_eq_true, not_false_eq_true, and_false, false_and, if_false,
      true_and, if_true, and_self]

/-- C63 does not hold for these formats: whether there is an exponent is looked up in the whole text, not in the number. In "3;e" the number 3
has no exponent; it is refused in the format `fixed` and accepted in the format `scientific`. -/
theorem C63_exponent_behind_the_number : (shimFromChars doubleDigits .fixed '\x00' "3;e".toList false).1 = .invalid 3 ∧
    (shimFromChars doubleDigits .scientific '\x00' "3;e".toList false).1 = .ok 3 1 ∧
    (shimFromChars doubleDigits .fixed '\x00' "3;".toList false).1 = .ok 3 1 := by decide +kernel

/-- C63 does not hold: exactly for texts of 100 characters and more in the middle of a longer one, and of more than 98 hexadecimal digits, the
buffer is written behind its end. -/
theorem C63_buffer_overrun (fmt : CharsFormat) (next : Char) (s : Str) :
    shimText fmt next s = none ↔ (fmt = .hex ∧ 98 < s.length) ∨ (fmt ≠ .hex ∧ next ≠ '\x00' ∧ 100 ≤ s.length) := by
  unfold shimText
  by_cases hf : fmt = .hex
  · rw [if_pos (Or.inr hf)]
    simp only [hf, if_true, List.length_cons, List.length_nil, ne_eq, not_true_eq_false, false_and, or_false, true_and]
    split
    · simp only [true_iff]; omega
    · simp only [reduceCtorEq, false_iff]; omega
  · by_cases hn : next = '\x00'
    · simp [hf, hn]
    · rw [if_pos (Or.inl hn)]
      simp only [hf, hn, if_false, List.length_nil, ne_eq, not_false_eq_true, false_and, true_and, false_or]
      split
      · simp only [true_iff]; omega
      · simp only [reduceCtorEq, false_iff]; omega

/-! ### Time stamps -/

/-- Rounding to `float` changes a number below `2^31` by at most 64. -/
theorem roundToFloat_close (n : Nat) (h : n < 2 ^ 31) : n ≤ roundToFloat n + 64 ∧ roundToFloat n ≤ n + 64 := by
  unfold roundToFloat
  by_cases h1 : n < 2 ^ 24
  · rw [if_pos h1]; omega
  · rw [if_neg h1]
    have hn : n ≠ 0 := by rintro rfl; simp at h1
    have hlog : n.log2 < 31 := (Nat.log2_lt hn).2 h
    have hu : 2 ^ (n.log2 - 23) ≤ 2 ^ 7 := Nat.pow_le_pow_right (by omega) (by omega)
    have hpos : 0 < 2 ^ (n.log2 - 23) := Nat.pow_pos (by omega)
    have heven : 2 ^ (n.log2 - 23) = 1 ∨ 2 ^ (n.log2 - 23) % 2 = 0 := by
      rcases Nat.eq_zero_or_pos (n.log2 - 23) with h0 | h0
      · left; rw [h0, Nat.pow_zero]
      · right
        obtain ⟨k, hk⟩ := Nat.exists_eq_succ_of_ne_zero (Nat.pos_iff_ne_zero.1 h0)
        rw [hk, Nat.pow_succ]; omega
    generalize 2 ^ (n.log2 - 23) = u at *
    dsimp only
    have hd := Nat.div_add_mod n u
    have hm := Nat.mod_lt n hpos
    have hc : u * (n / u) = n / u * u := Nat.mul_comm _ _
    have hs : (n / u + 1) * u = n / u * u + u := Nat.succ_mul _ _
    split
    · omega
    · rw [hs]; omega

/-- `float` represents `m`: 24 significant bits. -/
def FloatNat (m : Nat) : Prop := ∃ a e, a < 2 ^ 24 ∧ m = a * 2 ^ e

/-- C63: what is left of a number that goes through `float` is the nearest number that `float` represents; of two it is the one with an even
last bit. -/
theorem C63_nearest_float (n : Nat) : FloatNat (roundToFloat n) ∧
    (∀ m, FloatNat m → (n - roundToFloat n) + (roundToFloat n - n) ≤ (n - m) + (m - n)) ∧
    (∀ m, FloatNat m → m ≠ roundToFloat n → (n - roundToFloat n) + (roundToFloat n - n) = (n - m) + (m - n) →
      roundToFloat n % 2 ^ (n.log2 - 22) = 0) := by
  unfold roundToFloat
  by_cases h1 : n < 2 ^ 24
  · rw [if_pos h1]
    exact ⟨⟨n, 0, h1, by omega⟩, fun m _ => by omega, fun m _ hm h => by omega⟩
  · rw [if_neg h1]
    have hn : n ≠ 0 := by rintro rfl; simp at h1
    have hlog : 24 ≤ n.log2 := by
      have := (Nat.log2_lt (k := 24) hn).not.2 h1
      omega
    obtain ⟨k, hk⟩ : ∃ k, n.log2 - 23 = k + 1 := ⟨n.log2 - 24, by omega⟩
    have hk' : n.log2 - 22 = k + 2 := by omega
    rw [hk, hk']
    dsimp only
    have hlo : 2 ^ n.log2 ≤ n := Nat.log2_self_le hn
    have hhi : n < 2 ^ (n.log2 + 1) := Nat.lt_log2_self
    rw [show n.log2 = 23 + (k + 1) by omega, Nat.pow_add] at hlo
    rw [show n.log2 + 1 = 24 + (k + 1) by omega, Nat.pow_add] at hhi
    have hpos : 0 < 2 ^ (k + 1) := Nat.pow_pos (by omega)
    have hu2 : 2 ^ (k + 2) = 2 ^ (k + 1) * 2 := Nat.pow_succ _ _
    have hq1 : 2 ^ 23 ≤ n / 2 ^ (k + 1) := (Nat.le_div_iff_mul_le hpos).2 hlo
    have hq2 : n / 2 ^ (k + 1) < 2 ^ 24 := (Nat.div_lt_iff_lt_mul hpos).2 hhi
    have gap : ∀ m, FloatNat m → m ≤ n / 2 ^ (k + 1) * 2 ^ (k + 1) ∨ (n / 2 ^ (k + 1) + 1) * 2 ^ (k + 1) ≤ m := by
      rintro m ⟨a, e, ha, rfl⟩
      by_cases he : k + 1 ≤ e
      · obtain ⟨f, rfl⟩ := Nat.exists_eq_add_of_le he
        rw [show a * 2 ^ (k + 1 + f) = a * 2 ^ f * 2 ^ (k + 1) by rw [Nat.pow_add, Nat.mul_assoc, Nat.mul_comm (2 ^ (k + 1))]]
        rcases Nat.lt_or_ge (n / 2 ^ (k + 1)) (a * 2 ^ f) with h | h
        · exact Or.inr (Nat.mul_le_mul_right _ h)
        · exact Or.inl (Nat.mul_le_mul_right _ h)
      · left
        have h2 : 2 ^ e * 2 ≤ 2 ^ (k + 1) := by rw [← Nat.pow_succ]; exact Nat.pow_le_pow_right (by omega) (by omega)
        calc a * 2 ^ e ≤ 2 ^ 24 * 2 ^ e := Nat.mul_le_mul_right _ (by omega)
          _ = 2 ^ 23 * (2 ^ e * 2) := by rw [show (2 ^ 24 : Nat) = 2 ^ 23 * 2 by decide]; rw [Nat.mul_assoc, Nat.mul_comm 2]
          _ ≤ 2 ^ 23 * 2 ^ (k + 1) := Nat.mul_le_mul_left _ h2
          _ ≤ _ := Nat.mul_le_mul_right _ hq1
    have hF1 : FloatNat (n / 2 ^ (k + 1) * 2 ^ (k + 1)) := ⟨_, _, hq2, rfl⟩
    have hF2 : FloatNat ((n / 2 ^ (k + 1) + 1) * 2 ^ (k + 1)) := by
      by_cases h : n / 2 ^ (k + 1) + 1 < 2 ^ 24
      · exact ⟨_, _, h, rfl⟩
      · refine ⟨2 ^ 23, k + 2, by decide, ?_⟩
        rw [show n / 2 ^ (k + 1) + 1 = 2 ^ 24 by omega, hu2, Nat.mul_comm (2 ^ (k + 1)) 2, ← Nat.mul_assoc, show (2 ^ 23 * 2 : Nat) = 2 ^ 24 by decide]
    have heven : ∀ q, q % 2 = 0 → q * 2 ^ (k + 1) % (2 ^ (k + 1) * 2) = 0 := by
      intro q hq
      obtain ⟨r, rfl⟩ : ∃ r, q = 2 * r := ⟨q / 2, by omega⟩
      rw [Nat.mul_comm (2 ^ (k + 1)) 2, Nat.mul_comm 2 r, Nat.mul_assoc]
      exact Nat.mul_mod_left _ _
    rw [hu2]
    clear hk hk' hlo hhi hu2 hlog
    generalize 2 ^ (k + 1) = u at *
    have hd := Nat.div_add_mod n u
    have hm := Nat.mod_lt n hpos
    have hc : u * (n / u) = n / u * u := Nat.mul_comm _ _
    have hs : (n / u + 1) * u = n / u * u + u := Nat.succ_mul _ _
    split
    · rename_i h
      refine ⟨hF1, fun m hm => ?_, fun m hm hne he => ?_⟩
      · rcases gap m hm with g | g <;> omega
      · refine heven _ ?_
        rcases h with h | h
        · rcases gap m hm with g | g <;> omega
        · exact h.2
    · rename_i h
      refine ⟨hF2, fun m hm => ?_, fun m hm hne he => ?_⟩
      · rcases gap m hm with g | g <;> omega
      · refine heven _ ?_
        have : 2 * (n % u) = u := by rcases gap m hm with g | g <;> omega
        have : ¬ (n / u) % 2 = 0 := fun h' => h (Or.inr ⟨this, h'⟩)
        omega

theorem younger_digits (line : Str) (hd : line ≠ [] ∧ line.all isDigit = true) (hl : digitsVal line ≤ lastSecond) (now : Nat)
    (hnow : now ≤ lastSecond) : youngerThanDay line now = decide (now < digitsVal line + 86400) := by
  have hdec : IsDecimal line := ⟨hd.1, fun c hc => (mem_digits_iff c).2 (List.all_eq_true.1 hd.2 c hc)⟩
  rw [digitsVal_eq line hdec.2] at hl ⊢
  rw [Bool.eq_iff_iff, youngerThanDay_iff line now hnow, young_decimal now line hdec hl, decide_eq_true_iff]

/-- C52, C63: with the replacement, a time stamp (below `2^31`) is one day old up to 64 seconds too early or too late, no more. -/
theorem C63_day_within_a_minute_partial (line : Str) (hd : line ≠ [] ∧ line.all isDigit = true) (hl : digitsVal line < 2 ^ 31) (now : Nat)
    (hnow : now ≤ lastSecond) (hfar : now + 64 < digitsVal line + 86400 ∨ digitsVal line + 86400 + 64 ≤ now) :
    youngerThanDayShim line now = youngerThanDay line now := by
  rw [younger_digits line hd (Nat.le_trans (Nat.le_of_lt hl) (by decide)) now hnow]
  unfold youngerThanDayShim
  have := roundToFloat_close _ hl
  rcases hfar with h | h
  · rw [decide_eq_true (by omega), decide_eq_true (by omega)]
  · rw [decide_eq_false (by omega), decide_eq_false (by omega)]

/-- C63 does not hold for time stamps: 63 seconds before the day is over the user is asked again, and 64 seconds after the day is over the user
is still not asked. -/
theorem C63_day_is_off :
    (youngerThanDayShim "1700000063".toList 1700086400 = false ∧ youngerThanDay "1700000063".toList 1700086400 = true) ∧
    youngerThanDayShim "1700000065".toList 1700086527 = true ∧ youngerThanDay "1700000065".toList 1700086527 = false := by
  decide +kernel

/-! ### Examples -/

/-- The C library function of the examples keeps to its contract. -/
theorem doubleDigits_contract : StrtoContract { doubleDigits with strto := fun s => if (s.takeWhile isDigit).length ≤ 15 then strtodDigits s else ⟨0, 0, false⟩ } where
  length s := by
    dsimp only
    split
    · rename_i h
      simp only [strtodDigits, if_pos h]
      exact (List.takeWhile_sublist _).length_le
    · simp
  nothing s h := by
    dsimp only at h ⊢
    split
    · rename_i h1
      rw [if_pos h1] at h
      simp only [strtodDigits, if_pos h1] at h ⊢
      rw [List.length_eq_zero_iff.1 h]
      decide
    · decide

/-- "12" is a text as in `C63_as_specified_partial`. -/
example : ReadAlike "12".toList ∧ roundToFloat 12 = 12 ∧ shimOption doubleDigits "12".toList false = (.success, some 12, false) := by
  refine ⟨⟨by decide, ?_, by decide⟩, by decide, by decide⟩
  rintro ⟨r, h | h | h | h⟩ <;> simp at h

example : (shimFromChars doubleDigits .hex '\x00' "1a".toList false).1 = .ok 0 1 ∧ roundToFloat 1700000063 = 1700000000 ∧
    roundToFloat (2 ^ 24 + 1) = 2 ^ 24 ∧ roundToFloat (2 ^ 24 + 3) = 2 ^ 24 + 4 := by decide +kernel

end Sharg
