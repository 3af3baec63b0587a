import Verif.Spec.Float
import Mathlib.Algebra.Order.Ring.Abs
import Mathlib.Tactic.Ring
import Mathlib.Tactic.Linarith
import Mathlib.Tactic.FieldSimp
import Mathlib.Tactic.NormNum

/-!
# Lemmas: rounding to the nearest floating point number
-/

namespace Sharg

open Spec

/-- The number in units of the smallest one. -/
def patUnits (F : FloatFormat) (n : Nat) : Nat :=
  if n / 2 ^ F.fraction = 0 then n % 2 ^ F.fraction else (2 ^ F.fraction + n % 2 ^ F.fraction) * 2 ^ (n / 2 ^ F.fraction - 1)

theorem patternValue_units (F : FloatFormat) (n : Nat) : patternValue F n = (patUnits F n : ℚ) / 2 ^ F.minExp := by
  unfold patternValue patUnits
  dsimp only
  split
  · rfl
  · push_cast
    rfl

theorem patUnits_of (F : FloatFormat) (e m : Nat) (h : e = 0 ∨ 2 ^ F.fraction ≤ m) (hm : m ≤ 2 * 2 ^ F.fraction) :
    patUnits F (e * 2 ^ F.fraction + m) = m * 2 ^ e := by
  unfold patUnits
  have hP : 0 < 2 ^ F.fraction := Nat.two_pow_pos _
  generalize 2 ^ F.fraction = P at *
  by_cases h1 : m < P
  · have he : e = 0 := by omega
    subst he
    rw [Nat.zero_mul, Nat.zero_add, Nat.div_eq_of_lt h1, Nat.mod_eq_of_lt h1, if_pos rfl, Nat.pow_zero, Nat.mul_one]
  · by_cases h2 : m < 2 * P
    · have e1 : e * P + m = P * (e + 1) + (m - P) := by
        have : P * (e + 1) = e * P + P := by ring
        omega
      have h3 : m - P < P := by omega
      rw [e1, Nat.mul_add_div hP, Nat.mul_add_mod, Nat.div_eq_of_lt h3, Nat.mod_eq_of_lt h3, Nat.add_zero, if_neg (Nat.succ_ne_zero _),
        Nat.add_sub_cancel]
      congr 1
      omega
    · have h3 : m = 2 * P := by omega
      have e1 : e * P + m = P * (e + 2) := by rw [h3]; ring
      rw [e1, Nat.mul_div_cancel_left _ hP, Nat.mul_mod_right, if_neg (Nat.succ_ne_zero _), h3]
      show (P + 0) * 2 ^ (e + 1) = _
      ring

theorem pattern_form (F : FloatFormat) (k : Nat) :
    ∃ e m, k = e * 2 ^ F.fraction + m ∧ m < 2 * 2 ^ F.fraction ∧ (e = 0 ∨ 2 ^ F.fraction ≤ m) := by
  have hP : 0 < 2 ^ F.fraction := Nat.two_pow_pos _
  generalize 2 ^ F.fraction = P at *
  have hk := Nat.div_add_mod k P
  have hr := Nat.mod_lt k hP
  by_cases h : k / P = 0
  · refine ⟨0, k % P, ?_, by omega, Or.inl rfl⟩
    rw [h] at hk
    omega
  · refine ⟨k / P - 1, P + k % P, ?_, by omega, Or.inr (by omega)⟩
    obtain ⟨d, hd⟩ := Nat.exists_eq_succ_of_ne_zero h
    rw [hd] at hk ⊢
    have : P * d.succ = d * P + P := by rw [Nat.succ_eq_add_one]; ring
    show k = d * P + _
    omega

theorem patUnits_succ (F : FloatFormat) (k : Nat) : patUnits F k < patUnits F (k + 1) := by
  obtain ⟨e, m, rfl, h1, h2⟩ := pattern_form F k
  rw [patUnits_of F e m h2 (by omega), Nat.add_assoc, patUnits_of F e (m + 1) (by omega) (by omega)]
  exact Nat.mul_lt_mul_of_pos_right (by omega) (Nat.two_pow_pos _)

theorem patUnits_strictMono (F : FloatFormat) {j k : Nat} (h : j < k) : patUnits F j < patUnits F k := by
  induction k with
  | zero => omega
  | succ k ih =>
    rcases Nat.lt_succ_iff_lt_or_eq.1 h with h | rfl
    · exact Nat.lt_trans (ih h) (patUnits_succ F k)
    · exact patUnits_succ F j

theorem patUnits_lt_iff (F : FloatFormat) (j k : Nat) : patUnits F j < patUnits F k ↔ j < k := by
  constructor
  · intro h
    rcases Nat.lt_trichotomy j k with h' | rfl | h'
    · exact h'
    · omega
    · have := patUnits_strictMono F h'; omega
  · exact patUnits_strictMono F

theorem patUnits_inj (F : FloatFormat) {j k : Nat} (h : patUnits F j = patUnits F k) : j = k := by
  rcases Nat.lt_trichotomy j k with h' | h' | h'
  · have := patUnits_strictMono F h'; omega
  · exact h'
  · have := patUnits_strictMono F h'; omega

/-! ### The nearest integer -/

/-- Division with rounding. -/
def divRound (n d : Nat) : Nat := if 2 * (n % d) < d ∨ (2 * (n % d) = d ∧ n / d % 2 = 0) then n / d else n / d + 1

theorem divRound_nearest (n d : Nat) (hd : 0 < d) (j : Int) :
    |(n : Int) - divRound n d * d| ≤ |(n : Int) - j * d| ∧
    (j ≠ divRound n d → |(n : Int) - divRound n d * d| = |(n : Int) - j * d| → divRound n d % 2 = 0) := by
  have hn : (n : Int) = d * (n / d : Nat) + (n % d : Nat) := by exact_mod_cast (Nat.div_add_mod n d).symm
  have hr : n % d < d := Nat.mod_lt _ hd
  unfold divRound
  generalize n / d = q at *
  generalize n % d = r at *
  obtain ⟨t, rfl⟩ : ∃ t : Int, j = q + t := ⟨j - q, by ring⟩
  have e1 : (n : Int) - (q + t) * d = r - t * d := by rw [hn]; ring
  have e2 : (n : Int) - q * d = r := by rw [hn]; ring
  have e3 : (n : Int) - (q + 1) * d = r - d := by rw [hn]; ring
  have key : (t ≤ 0 ∧ (r : Int) - t * d ≥ r ∧ (t ≤ -1 → (r : Int) - t * d ≥ r + d)) ∨
      (t ≥ 1 ∧ (r : Int) - t * d ≤ r - d ∧ (t ≥ 2 → (r : Int) - t * d ≤ r - d - d)) := by
    have hd' : (0 : Int) < d := by exact_mod_cast hd
    rcases lt_or_ge (0 : Int) t with ht | ht
    · right
      refine ⟨ht, by nlinarith, fun h => by nlinarith⟩
    · left
      refine ⟨ht, by nlinarith, fun h => by nlinarith⟩
  rw [e1]
  generalize (r : Int) - t * d = z at *
  split
  · rename_i hc
    rw [e2]
    constructor
    · rcases key with ⟨h1, h2, h3⟩ | ⟨h1, h2, h3⟩
      · rw [abs_of_nonneg (by omega), abs_of_nonneg (by omega)]; omega
      · rw [abs_of_nonneg (by omega), abs_of_nonpos (by omega)]; omega
    · intro hne heq
      rcases hc with hc | hc
      · exfalso
        rcases key with ⟨h1, h2, h3⟩ | ⟨h1, h2, h3⟩
        · rw [abs_of_nonneg (by omega), abs_of_nonneg (by omega)] at heq
          have : t ≠ 0 := by rintro rfl; exact hne (by simp)
          have := h3 (by omega)
          omega
        · rw [abs_of_nonneg (by omega), abs_of_nonpos (by omega)] at heq; omega
      · exact hc.2
  · rename_i hc
    push_cast
    rw [e3]
    constructor
    · rcases key with ⟨h1, h2, h3⟩ | ⟨h1, h2, h3⟩
      · rw [abs_of_nonpos (by omega), abs_of_nonneg (by omega)]; omega
      · rw [abs_of_nonpos (by omega), abs_of_nonpos (by omega)]; omega
    · intro hne heq
      rcases key with ⟨h1, h2, h3⟩ | ⟨h1, h2, h3⟩
      · rw [abs_of_nonpos (by omega), abs_of_nonneg (by omega)] at heq; omega
      · rw [abs_of_nonpos (by omega), abs_of_nonpos (by omega)] at heq
        have : t ≠ 1 := by rintro rfl; exact hne (by simp)
        have := h3 (by omega)
        omega

/-! ### The nearest pattern -/

theorem roundPattern_eq (F : FloatFormat) (a b : Nat) :
    roundPattern F a b = ((a * 2 ^ F.minExp / b).log2 - F.fraction) * 2 ^ F.fraction +
      divRound (a * 2 ^ F.minExp) (b * 2 ^ ((a * 2 ^ F.minExp / b).log2 - F.fraction)) := rfl

/-- Distance in units of the smallest number, multiplied by the denominator. -/
theorem roundPattern_units (F : FloatFormat) (hf : 1 ≤ F.fraction) (a b : Nat) (hb : 0 < b) (k : Nat) :
    |((a * 2 ^ F.minExp : Nat) : Int) - patUnits F (roundPattern F a b) * b| ≤ |((a * 2 ^ F.minExp : Nat) : Int) - patUnits F k * b| ∧
    (k ≠ roundPattern F a b →
      |((a * 2 ^ F.minExp : Nat) : Int) - patUnits F (roundPattern F a b) * b| = |((a * 2 ^ F.minExp : Nat) : Int) - patUnits F k * b| →
      roundPattern F a b % 2 = 0) := by
  rw [roundPattern_eq]
  generalize a * 2 ^ F.minExp = n
  have hP : 0 < 2 ^ F.fraction := Nat.two_pow_pos _
  have hPe : 2 ^ F.fraction % 2 = 0 := by
    obtain ⟨f, hf'⟩ := Nat.exists_eq_add_of_le hf
    rw [hf', Nat.pow_add]
    omega
  -- the significand
  have hsig : ∀ e, (n / b).log2 - F.fraction = e →
      divRound n (b * 2 ^ e) ≤ 2 * 2 ^ F.fraction ∧ (e = 0 ∨ 2 ^ F.fraction ≤ n / (b * 2 ^ e)) := by
    intro e he
    have hq : n / (b * 2 ^ e) < 2 * 2 ^ F.fraction := by
      rw [← Nat.div_div_eq_div_mul, Nat.div_lt_iff_lt_mul (Nat.two_pow_pos _)]
      have h1 : n / b < 2 ^ ((n / b).log2 + 1) := Nat.lt_log2_self
      have h2 : 2 ^ ((n / b).log2 + 1) ≤ 2 ^ (F.fraction + e + 1) := Nat.pow_le_pow_right (by omega) (by omega)
      have h3 : 2 ^ (F.fraction + e + 1) = 2 * 2 ^ F.fraction * 2 ^ e := by rw [Nat.pow_add, Nat.pow_add]; ring
      omega
    refine ⟨?_, ?_⟩
    · unfold divRound
      split <;> omega
    · by_cases h0 : e = 0
      · exact Or.inl h0
      · right
        rw [← Nat.div_div_eq_div_mul, Nat.le_div_iff_mul_le (Nat.two_pow_pos _), ← Nat.pow_add]
        have h4 : n / b ≠ 0 := by
          intro h
          rw [h] at he
          simp at he
          omega
        have : F.fraction + e = (n / b).log2 := by omega
        rw [this]
        exact Nat.log2_self_le h4
  generalize (n / b).log2 - F.fraction = e at *
  obtain ⟨h1, h2⟩ := hsig e rfl
  have hB : 0 < b * 2 ^ e := Nat.mul_pos hb (Nat.two_pow_pos _)
  have hge : n / (b * 2 ^ e) ≤ divRound n (b * 2 ^ e) := by
    unfold divRound
    split <;> omega
  rw [patUnits_of F e _ (by omega) h1]
  have hD : ((divRound n (b * 2 ^ e) * 2 ^ e : Nat) : Int) * b = divRound n (b * 2 ^ e) * (b * 2 ^ e : Nat) := by push_cast; ring
  rw [hD]
  have heven : divRound n (b * 2 ^ e) % 2 = 0 → (e * 2 ^ F.fraction + divRound n (b * 2 ^ e)) % 2 = 0 := by
    intro h
    rw [Nat.add_mod, Nat.mul_mod, hPe, h]
    simp
  obtain ⟨e', m, hk, h3, h4⟩ := pattern_form F k
  rw [hk, patUnits_of F e' m h4 (by omega)]
  by_cases hee : e ≤ e'
  · obtain ⟨d, rfl⟩ := Nat.exists_eq_add_of_le hee
    have e1 : ((m * 2 ^ (e + d) : Nat) : Int) * b = (m * 2 ^ d : Nat) * (b * 2 ^ e : Nat) := by push_cast; rw [pow_add]; ring
    rw [e1]
    obtain ⟨k1, k2⟩ := divRound_nearest n (b * 2 ^ e) hB (m * 2 ^ d : Nat)
    refine ⟨k1, fun hne heq => heven (k2 (fun h => hne ?_) heq)⟩
    have h' : m * 2 ^ d = divRound n (b * 2 ^ e) := by exact_mod_cast h
    refine patUnits_inj F ?_
    rw [patUnits_of F _ m h4 (by omega), patUnits_of F e _ (by omega) h1, ← h', pow_add]
    ring
  · have hlt : m * 2 ^ e' < 2 ^ F.fraction * 2 ^ e := by
      have h5 : 2 ^ (e' + 1) ≤ 2 ^ e := Nat.pow_le_pow_right (by omega) (by omega)
      have h6 : m * 2 ^ e' < 2 * 2 ^ F.fraction * 2 ^ e' := Nat.mul_lt_mul_of_pos_right h3 (Nat.two_pow_pos _)
      have h7 : 2 * 2 ^ F.fraction * 2 ^ e' = 2 ^ F.fraction * 2 ^ (e' + 1) := by rw [pow_succ]; ring
      have h8 : 2 ^ F.fraction * 2 ^ (e' + 1) ≤ 2 ^ F.fraction * 2 ^ e := Nat.mul_le_mul_left _ h5
      omega
    have hP' : 2 ^ F.fraction ≤ n / (b * 2 ^ e) := by
      rcases h2 with h2 | h2
      · omega
      · exact h2
    have hn : 2 ^ F.fraction * (b * 2 ^ e) ≤ n := (Nat.le_div_iff_mul_le hB).1 hP'
    have hlow : m * 2 ^ e' * b < 2 ^ F.fraction * (b * 2 ^ e) := by
      have : 2 ^ F.fraction * (b * 2 ^ e) = 2 ^ F.fraction * 2 ^ e * b := by ring
      rw [this]
      exact Nat.mul_lt_mul_of_pos_right hlt hb
    have hstrict : |(n : Int) - divRound n (b * 2 ^ e) * (b * 2 ^ e : Nat)| < |(n : Int) - (m * 2 ^ e' : Nat) * b| := by
      refine lt_of_le_of_lt (divRound_nearest n (b * 2 ^ e) hB (2 ^ F.fraction : Nat)).1 ?_
      have q1 : ((2 ^ F.fraction : Nat) : Int) * (b * 2 ^ e : Nat) ≤ n := by exact_mod_cast hn
      have q2 : ((m * 2 ^ e' : Nat) : Int) * b < ((2 ^ F.fraction : Nat) : Int) * (b * 2 ^ e : Nat) := by exact_mod_cast hlow
      rw [abs_of_nonneg (by linarith), abs_of_nonneg (by linarith)]
      linarith
    exact ⟨hstrict.le, fun _ h => absurd h hstrict.ne⟩

theorem distance_units (F : FloatFormat) (a b : Nat) (hb : 0 < b) (k : Nat) :
    |(a : ℚ) / b - patternValue F k| =
      ((|((a * 2 ^ F.minExp : Nat) : Int) - patUnits F k * b| : Int) : ℚ) / (b * 2 ^ F.minExp) := by
  have hb' : (0 : ℚ) < b := by exact_mod_cast hb
  have h2 : (0 : ℚ) < 2 ^ F.minExp := by positivity
  rw [patternValue_units, Int.cast_abs, eq_div_iff (by positivity), ← abs_of_pos (by positivity : (0 : ℚ) < b * 2 ^ F.minExp), ← abs_mul]
  congr 1
  push_cast
  field_simp

theorem roundPattern_nearest (F : FloatFormat) (hf : 1 ≤ F.fraction) (a b : Nat) (hb : 0 < b) :
    Nearest F ((a : ℚ) / b) (roundPattern F a b) := by
  intro k
  have hb' : (0 : ℚ) < b := by exact_mod_cast hb
  have hpos : (0 : ℚ) < b * 2 ^ F.minExp := by positivity
  obtain ⟨h1, h2⟩ := roundPattern_units F hf a b hb k
  rw [distance_units F a b hb, distance_units F a b hb]
  refine ⟨?_, fun hne heq => h2 hne ?_⟩
  · rw [div_le_div_iff_of_pos_right hpos]
    exact_mod_cast h1
  · have := (div_left_inj' hpos.ne').1 heq
    exact_mod_cast this

theorem patternValue_lt_iff (F : FloatFormat) (j k : Nat) : patternValue F j < patternValue F k ↔ j < k := by
  rw [patternValue_units, patternValue_units, div_lt_div_iff_of_pos_right (by positivity), Nat.cast_lt, patUnits_lt_iff]

theorem nearest_unique (F : FloatFormat) {x : ℚ} {n m : Nat} (hn : Nearest F x n) (hm : Nearest F x m) : n = m := by
  have key : ∀ {n m : Nat}, Nearest F x n → Nearest F x m → ¬ n < m := by
    intro n m hn hm h
    have heq : |x - patternValue F n| = |x - patternValue F m| := le_antisymm (hn m).1 (hm n).1
    have e1 := (hn m).2 (by omega) heq
    have e2 := (hm n).2 (by omega) heq.symm
    have l1 := (patternValue_lt_iff F n (n + 1)).2 (by omega)
    have l2 := (patternValue_lt_iff F (n + 1) m).2 (by omega)
    have l3 := (hn (n + 1)).1
    generalize patternValue F n = u at *
    generalize patternValue F m = v at *
    generalize patternValue F (n + 1) = w at *
    rcases abs_cases (x - u) with ⟨a1, a2⟩ | ⟨a1, a2⟩ <;> rcases abs_cases (x - v) with ⟨b1, b2⟩ | ⟨b1, b2⟩ <;>
      rcases abs_cases (x - w) with ⟨c1, c2⟩ | ⟨c1, c2⟩ <;> rw [a1] at heq l3 <;> rw [b1] at heq <;> rw [c1] at l3 <;> linarith
  rcases Nat.lt_trichotomy n m with h | h | h
  · exact absurd h (key hn hm)
  · exact h
  · exact absurd h (key hm hn)

theorem nearest_mono (F : FloatFormat) {x y : ℚ} {n m : Nat} (hxy : x ≤ y) (hn : Nearest F x n) (hm : Nearest F y m) : n ≤ m := by
  by_cases h : n ≤ m
  · exact h
  · exfalso
    have h : m < n := by omega
    have l := (patternValue_lt_iff F m n).2 h
    have d1 := (hn m).1
    have d2 := (hm n).1
    by_cases he : x = y
    · subst he
      exact absurd (nearest_unique F hn hm) (by omega)
    · have hlt : x < y := lt_of_le_of_ne hxy he
      generalize patternValue F n = u at *
      generalize patternValue F m = v at *
      rcases abs_cases (x - u) with ⟨a1, a2⟩ | ⟨a1, a2⟩ <;> rcases abs_cases (x - v) with ⟨b1, b2⟩ | ⟨b1, b2⟩ <;>
        rcases abs_cases (y - u) with ⟨c1, c2⟩ | ⟨c1, c2⟩ <;> rcases abs_cases (y - v) with ⟨f1, f2⟩ | ⟨f1, f2⟩ <;>
        rw [a1, b1] at d1 <;> rw [c1, f1] at d2 <;> linarith

theorem nearest_self (F : FloatFormat) (n : Nat) : Nearest F (patternValue F n) n := by
  intro k
  rw [sub_self, abs_zero]
  refine ⟨abs_nonneg _, fun hne h => ?_⟩
  have h' : patternValue F n - patternValue F k = 0 := abs_eq_zero.1 h.symm
  rcases Nat.lt_trichotomy k n with h1 | h1 | h1
  · have := (patternValue_lt_iff F k n).2 h1; linarith
  · exact absurd h1 hne
  · have := (patternValue_lt_iff F n k).2 h1; linarith

end Sharg
