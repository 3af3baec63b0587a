import Verif.Model.FloatShow
import Verif.Spec.FloatShow
import Verif.Lemmas.FloatText
import Verif.Lemmas.Explained
import Verif.Props.ToChars

/-!
# Lemmas about numbers written with six digits
-/

namespace Sharg

open Spec

/-! ### Digits with a point -/

theorem dropZeros_split (s : Str) : ∃ k, s = dropZeros s ++ List.replicate k '0' := by
  unfold dropZeros
  have h := List.takeWhile_append_dropWhile (p := fun c : Char => decide (c = '0')) (l := s.reverse)
  have hall : ∀ c ∈ s.reverse.takeWhile (fun c : Char => decide (c = '0')), c = '0' := by
    intro c hc
    have := List.all_takeWhile (p := fun c : Char => decide (c = '0')) (l := s.reverse)
    simpa using List.all_eq_true.1 this c hc
  refine ⟨(s.reverse.takeWhile (fun c : Char => decide (c = '0'))).length, ?_⟩
  have h2 := congrArg List.reverse h
  rw [List.reverse_append, List.reverse_reverse] at h2
  rw [List.eq_replicate_of_mem hall] at h2
  rw [List.reverse_replicate] at h2
  simpa using h2.symm

theorem decValue_trailing_zeros (s : Str) (k : Nat) : decValue (s ++ List.replicate k '0') = decValue s * 10 ^ k := by
  induction k with
  | zero => simp
  | succ k ih =>
    rw [List.replicate_succ', ← List.append_assoc]
    have : ∀ t : Str, decValue (t ++ ['0']) = decValue t * 10 := by
      intro t
      rw [decValue_concat]
      rfl
    rw [this, ih, pow_succ, Nat.mul_assoc]

/-- The number that is written. -/
def pointDecimal (neg : Bool) (int frac : Str) (exp : Option (Char × Option Char × Str)) : DecimalText :=
  ⟨neg, int, if dropZeros frac = [] then none else some (dropZeros frac), exp⟩

theorem pointDecimal_frac (neg : Bool) (int frac : Str) (exp : Option (Char × Option Char × Str)) :
    (pointDecimal neg int frac exp).fracDigits = dropZeros frac := by
  unfold DecimalText.fracDigits pointDecimal
  dsimp only
  split <;> simp_all

theorem pointDecimal_render (neg : Bool) (int frac : Str) (exp : Option (Char × Option Char × Str)) :
    (pointDecimal neg int frac exp).render = minusSign neg ++ (pointText int frac ++ expText exp) := by
  rw [render_body]
  unfold decBody pointText pointDecimal
  dsimp only
  by_cases h : dropZeros frac = []
  · rw [if_pos h, if_pos h]
    simp [expText]
  · rw [if_neg h, if_neg h]
    simp [expText]

theorem dropZeros_mem (s : Str) (c : Char) (h : c ∈ dropZeros s) : c ∈ s := by
  obtain ⟨k, hk⟩ := dropZeros_split s
  rw [hk]
  exact List.mem_append_left _ h

theorem pointDecimal_ok (neg : Bool) (int frac : Str) (exp : Option (Char × Option Char × Str)) (hi : IsDecimal int) (hf : ∀ c ∈ frac, c ∈ digits)
    (he : ∀ c sign ds, exp = some (c, sign, ds) → (c = 'e' ∨ c = 'E') ∧ (∀ s ∈ sign, s = '+' ∨ s = '-') ∧ IsDecimal ds) :
    (pointDecimal neg int frac exp).Ok where
  int := hi.2
  frac := by
    rw [pointDecimal_frac]
    exact fun c hc => hf c (dropZeros_mem frac c hc)
  notEmpty := Or.inl hi.1
  exp := he

theorem pointDecimal_abs (neg : Bool) (int frac : Str) (exp : Option (Char × Option Char × Str)) :
    (pointDecimal neg int frac exp).abs =
      decValue (int ++ frac) * (10 : ℚ) ^ ((pointDecimal neg int frac exp).exponent - frac.length) := by
  unfold DecimalText.abs
  rw [pointDecimal_frac]
  obtain ⟨k, hk⟩ := dropZeros_split frac
  have hl : frac.length = (dropZeros frac).length + k := by
    conv_lhs => rw [hk]
    simp
  have hv : decValue (int ++ frac) = (decValue int * 10 ^ (dropZeros frac).length + decValue (dropZeros frac)) * 10 ^ k := by
    conv_lhs => rw [hk]
    rw [← List.append_assoc, decValue_trailing_zeros, decValue_concat]
  rw [hv, hl, zpow_sub₀ (by norm_num : (10 : ℚ) ≠ 0), zpow_natCast]
  have e : (pointDecimal neg int frac exp).int = int := rfl
  rw [e]
  push_cast
  rw [pow_add]
  field_simp

/-! ### `%g` -/

theorem decValue_lt_pow (s : Str) (h : ∀ c ∈ s, c ∈ digits) : decValue s < 10 ^ s.length := by
  induction s with
  | nil => decide
  | cons c s ih =>
    have h1 : digits.idxOf c < 10 := List.idxOf_lt_length_iff.2 (h c List.mem_cons_self)
    have h2 := ih fun a ha => h a (List.mem_cons_of_mem _ ha)
    show digits.idxOf c * 10 ^ s.length + decValue s < 10 ^ (s.length + 1)
    have h3 : digits.idxOf c * 10 ^ s.length ≤ 9 * 10 ^ s.length := Nat.mul_le_mul_right _ (by omega)
    rw [Nat.pow_succ]
    omega

theorem showNat_length_six (m : Nat) (h1 : 10 ^ 5 ≤ m) (h2 : m < 10 ^ 6) : (showNat m).length = 6 := by
  obtain ⟨hd, hv⟩ := numberText_showNat m
  have hle : (showNat m).length ≤ 6 := Nat.toDigits_length 10 m 6 (by omega) h2
  have hlt := decValue_lt_pow (showNat m) hd.2
  rw [hv] at hlt
  by_cases h : (showNat m).length = 6
  · exact h
  · exfalso
    have : 10 ^ (showNat m).length ≤ 10 ^ 5 := Nat.pow_le_pow_right (by omega) (by omega)
    omega

/-- Zeros at the end are dropped. -/
theorem dropZeros_last (s : Str) : (dropZeros s).getLast? ≠ some '0' := by
  unfold dropZeros
  rw [List.getLast?_reverse]
  intro h
  have := List.head?_dropWhile_not (fun c : Char => decide (c = '0')) s.reverse
  rw [h] at this
  simp at this

theorem pointDecimal_fraction (neg : Bool) (int frac : Str) (exp : Option (Char × Option Char × Str)) (f : Str)
    (h : (pointDecimal neg int frac exp).frac = some f) : f ≠ [] ∧ f.getLast? ≠ some '0' := by
  unfold pointDecimal at h
  dsimp only at h
  split at h
  · cases h
  · rename_i h0
    cases h
    exact ⟨h0, dropZeros_last frac⟩

/-- Exponents have two digits, or more if they need more. -/
theorem exponentDigits (n : Nat) : 2 ≤ ((if n < 10 then ['0'] else []) ++ showNat n).length ∧
    (2 < ((if n < 10 then ['0'] else []) ++ showNat n).length → ((if n < 10 then ['0'] else []) ++ showNat n).head? ≠ some '0') := by
  obtain ⟨hd, hv⟩ := numberText_showNat n
  have hpos := List.length_pos_iff.2 hd.1
  have hlt := decValue_lt_pow _ hd.2
  rw [hv] at hlt
  by_cases h : n < 10
  · rw [if_pos h]
    have : (showNat n).length ≤ 1 := Nat.toDigits_length 10 n 1 (by omega) (by omega)
    refine ⟨by simp; omega, fun h2 => ?_⟩
    simp at h2
    omega
  · rw [if_neg h, List.nil_append]
    constructor
    · by_cases h2 : 2 ≤ (showNat n).length
      · exact h2
      · have : (showNat n).length = 1 := by omega
        rw [this] at hlt
        omega
    · intro h2 h0
      cases hs : showNat n with
      | nil => exact hd.1 hs
      | cons a t =>
        rw [hs] at h0
        obtain rfl : a = '0' := by simpa using h0
        have ht := decValue_lt_pow t fun c hc => hd.2 c (by rw [hs]; exact List.mem_cons_of_mem _ hc)
        have e : decValue ('0' :: t) = decValue t := by
          have := decValue_concat ['0'] t
          have e0 : decValue ['0'] = 0 := by decide
          rw [e0] at this
          simpa using this
        rw [hs, e] at hv
        rw [hv] at ht
        have hl : (showNat n).length = t.length + 1 := by rw [hs]; rfl
        have := Nat.toDigits_length 10 n t.length (by omega) ht
        have : (showNat n).length ≤ t.length := this
        omega

/-- What `generalText` writes. -/
theorem generalText_decimal (neg : Bool) (m : Nat) (x : Int) (h1 : 10 ^ 5 ≤ m) (h2 : m < 10 ^ 6) :
    ∃ d : DecimalText, d.Ok ∧ d.neg = neg ∧ d.render = minusSign neg ++ generalText m x ∧ d.abs = m * (10 : ℚ) ^ (x - 5) ∧
      GeneralForm d x := by
  obtain ⟨hd, hv⟩ := numberText_showNat m
  have hl := showNat_length_six m h1 h2
  have htake : ∀ k, 0 < k → IsDecimal ((showNat m).take k) := by
    intro k hk
    refine ⟨?_, fun c hc => hd.2 c (List.mem_of_mem_take hc)⟩
    intro h0
    have := congrArg List.length h0
    rw [List.length_take, hl] at this
    simp at this
    omega
  have hdrop : ∀ k, ∀ c ∈ (showNat m).drop k, c ∈ digits := fun k c hc => hd.2 c (List.mem_of_mem_drop hc)
  unfold generalText
  dsimp only
  split
  · rename_i hx
    split
    · rename_i h0
      refine ⟨pointDecimal neg ((showNat m).take (x.toNat + 1)) ((showNat m).drop (x.toNat + 1)) none,
        pointDecimal_ok _ _ _ _ (htake _ (by omega)) (hdrop _) (by simp), rfl, ?_, ?_,
        ⟨pointDecimal_fraction _ _ _ _, fun _ _ => ⟨rfl, ?_⟩, fun _ _ => by omega, fun _ => by omega⟩⟩
      · rw [pointDecimal_render]
        simp [expText]
      · rw [pointDecimal_abs, List.take_append_drop, hv, List.length_drop, hl]
        congr 2
        show (0 : Int) - _ = _
        omega
      · show ((showNat m).take (x.toNat + 1)).length = _
        rw [List.length_take, hl]
        omega
    · rename_i h0
      refine ⟨pointDecimal neg ['0'] (List.replicate (x.natAbs - 1) '0' ++ showNat m) none,
        pointDecimal_ok _ _ _ _ ⟨by simp, by simp [digits]⟩ ?_ (by simp), rfl, ?_, ?_,
        ⟨pointDecimal_fraction _ _ _ _, fun _ _ => ⟨rfl, ?_⟩, fun _ _ => rfl, fun _ => by omega⟩⟩
      · intro c hc
        rcases List.mem_append.1 hc with h | h
        · rw [(List.mem_replicate.1 h).2]; decide
        · exact hd.2 c h
      · rw [pointDecimal_render]
        simp [expText]
      · have hz : decValue (['0'] ++ (List.replicate (x.natAbs - 1) '0' ++ showNat m)) = m := by
          rw [decValue_concat, decValue_concat, hv]
          have := decValue_trailing_zeros [] (x.natAbs - 1)
          simp only [List.nil_append] at this
          rw [this]
          have e0 : decValue ['0'] = 0 := by decide
          have e1 : decValue [] = 0 := by decide
          rw [e0, e1]
          simp
        rw [pointDecimal_abs, hz, List.length_append, List.length_replicate, hl]
        congr 2
        show (0 : Int) - _ = _
        omega
      · show 1 = _
        omega
  · rename_i hx
    obtain ⟨hd', hv'⟩ := numberText_showNat x.natAbs
    have hzero : decValue ((if x.natAbs < 10 then ['0'] else []) ++ showNat x.natAbs) = x.natAbs := by
      rw [decValue_concat, hv']
      split
      · have e0 : decValue ['0'] = 0 := by decide
        rw [e0]; simp
      · have e1 : decValue [] = 0 := by decide
        rw [e1]; simp
    refine ⟨pointDecimal neg ((showNat m).take 1) ((showNat m).drop 1)
        (some ('e', some (if x < 0 then '-' else '+'), (if x.natAbs < 10 then ['0'] else []) ++ showNat x.natAbs)),
      pointDecimal_ok _ _ _ _ (htake _ (by omega)) (hdrop _) ?_, rfl, ?_, ?_,
      ⟨pointDecimal_fraction _ _ _ _, fun h h' => absurd ⟨h, h'⟩ hx, fun h h' => absurd ⟨h, by omega⟩ hx, fun _ => ⟨?_, _, rfl, ?_⟩⟩⟩
    · intro c sign ds h
      obtain ⟨h1, h⟩ := Prod.mk.inj (Option.some.inj h)
      obtain ⟨h2, h3⟩ := Prod.mk.inj h
      rw [← h1, ← h2, ← h3]
      refine ⟨Or.inl rfl, ?_, ?_, ?_⟩
      · intro s hs
        have : s = if x < 0 then '-' else '+' := by simpa using hs.symm
        rw [this]
        split <;> simp
      · intro h0
        exact hd'.1 (List.append_eq_nil_iff.1 h0).2
      · intro c hc
        rcases List.mem_append.1 hc with h | h
        · split at h
          · have : c = '0' := by simpa using h
            subst this; decide
          · simp at h
        · exact hd'.2 c h
    · rw [pointDecimal_render]
      simp [expText]
    · rw [pointDecimal_abs, List.take_append_drop, hv, List.length_drop, hl]
      congr 2
      have : (pointDecimal neg ((showNat m).take 1) ((showNat m).drop 1)
        (some ('e', some (if x < 0 then '-' else '+'), (if x.natAbs < 10 then ['0'] else []) ++ showNat x.natAbs))).exponent = x := by
        unfold DecimalText.exponent pointDecimal
        dsimp only
        rw [hzero]
        by_cases hx0 : x < 0
        · rw [if_pos hx0, if_pos rfl]; omega
        · rw [if_neg hx0, if_neg (by decide)]; omega
      rw [this]
      omega
    · show ((showNat m).take 1).length = 1
      rw [List.length_take, hl]
      rfl
    · exact exponentDigits x.natAbs

/-! ### Six digits -/

theorem divRound_half (n d : Nat) (hd : 0 < d) : 2 * n ≤ 2 * (divRound n d * d) + d ∧ 2 * (divRound n d * d) ≤ 2 * n + d := by
  have hn := Nat.div_add_mod n d
  have hr := Nat.mod_lt n hd
  unfold divRound
  split
  · rw [Nat.mul_comm (n / d)]
    omega
  · rw [Nat.add_mul, Nat.mul_comm (n / d)]
    omega

/-- Ties go to the even number. -/
theorem divRound_tie (n d : Nat) (h : 2 * n = 2 * (divRound n d * d) + d ∨ 2 * (divRound n d * d) = 2 * n + d) (hd : 0 < d) :
    divRound n d % 2 = 0 := by
  have hm := Nat.div_add_mod n d
  have hlt := Nat.mod_lt n hd
  unfold divRound at h ⊢
  generalize n / d = q at *
  generalize n % d = r at *
  split at h <;> rename_i hc
  · rw [if_pos hc]
    rw [Nat.mul_comm d q] at hm
    omega
  · rw [if_neg hc]
    rw [Nat.mul_comm d q] at hm
    rw [Nat.add_mul] at h
    omega

theorem divRound_six (n : Nat) (hn : 0 < n) :
    10 ^ 5 ≤ divRound (n * 10 ^ 5) (10 ^ decExp n) ∧ divRound (n * 10 ^ 5) (10 ^ decExp n) ≤ 10 ^ 6 := by
  obtain ⟨h1, h2⟩ := decExp_bounds n hn
  have hp : 0 < 10 ^ decExp n := Nat.pow_pos (by omega)
  obtain ⟨h3, h4⟩ := divRound_half (n * 10 ^ 5) (10 ^ decExp n) hp
  rw [Nat.pow_succ] at h2
  generalize 10 ^ decExp n = u at *
  generalize divRound (n * 10 ^ 5) u = m at *
  constructor
  · by_cases h : 10 ^ 5 ≤ m
    · exact h
    · exfalso
      have : m * u ≤ (10 ^ 5 - 1) * u := Nat.mul_le_mul_right _ (by omega)
      omega
  · by_cases h : m ≤ 10 ^ 6
    · exact h
    · exfalso
      have : (10 ^ 6 + 1) * u ≤ m * u := Nat.mul_le_mul_right _ (by omega)
      omega

/-- The digits and the exponent: as for the first rounding, and six digits. -/
theorem sixDigits_spec (n : Nat) (hn : 0 < n) :
    10 ^ 5 ≤ (sixDigits n).1 ∧ (sixDigits n).1 < 10 ^ 6 ∧
    (sixDigits n).1 * 10 ^ (sixDigits n).2 = divRound (n * 10 ^ 5) (10 ^ decExp n) * 10 ^ decExp n := by
  obtain ⟨h1, h2⟩ := divRound_six n hn
  have hs : sixDigits n = if divRound (n * 10 ^ 5) (10 ^ decExp n) = 10 ^ 6 then (10 ^ 5, decExp n + 1)
    else (divRound (n * 10 ^ 5) (10 ^ decExp n), decExp n) := rfl
  rw [hs]
  split
  · rename_i h
    refine ⟨le_refl _, by norm_num, ?_⟩
    rw [h]
    show 10 ^ 5 * 10 ^ (decExp n + 1) = _
    rw [Nat.pow_succ]
    omega
  · rename_i h
    exact ⟨h1, by dsimp only; omega, rfl⟩

/-- A number near a decimal with six digits is rounded to it. -/
theorem nearest_six (M m : Nat) (u : ℚ) (s : Int) (hM : 10 ^ 5 ≤ M) (hM' : M < 10 ^ 6) (h1 : (10 : ℚ) ^ (s + 5) ≤ u)
    (h2 : u < (10 : ℚ) ^ (s + 6)) (h3 : |u - m * (10 : ℚ) ^ s| ≤ (10 : ℚ) ^ s / 2) (h4 : |M - u| ≤ u / 2 ^ 21) :
    (m : ℚ) * (10 : ℚ) ^ s = M := by
  have a1 : (10 ^ 5 : ℚ) ≤ M := by exact_mod_cast hM
  have a2 : (M : ℚ) ≤ 10 ^ 6 - 1 := by
    have : (M : ℚ) + 1 ≤ 10 ^ 6 := by exact_mod_cast hM'
    linarith
  obtain ⟨b1, b2⟩ := abs_le.1 h4
  rcases lt_trichotomy s 0 with hs | hs | hs
  · by_cases hs1 : s = -1
    · subst hs1
      norm_num at h1 h2 h3 ⊢
      obtain ⟨c1, c2⟩ := abs_le.1 h3
      have hMe : M = 10 ^ 5 := by
        have : (M : ℚ) < 10 ^ 5 + 1 := by linarith
        have : M < 10 ^ 5 + 1 := by exact_mod_cast this
        omega
      have : m = 10 ^ 6 := by
        have l1 : (m : ℚ) < 10 ^ 6 + 1 := by rw [hMe] at b1 b2; linarith
        have l2 : (10 ^ 6 - 1 : ℚ) < m := by rw [hMe] at b1 b2; linarith
        have l1' : m < 10 ^ 6 + 1 := by exact_mod_cast l1
        have l2' : 10 ^ 6 - 1 < m := by
          have : (10 ^ 6 : ℚ) < m + 1 := by linarith
          have : 10 ^ 6 < m + 1 := by exact_mod_cast this
          omega
        omega
      rw [this, hMe]
      norm_num
    · exfalso
      have : (10 : ℚ) ^ (s + 6) ≤ (10 : ℚ) ^ (4 : Int) := zpow_le_zpow_right₀ (by norm_num) (by omega)
      norm_num at this
      linarith
  · subst hs
    norm_num at h1 h2 h3 ⊢
    obtain ⟨c1, c2⟩ := abs_le.1 h3
    have l1 : (m : ℚ) < M + 1 := by linarith
    have l2 : (M : ℚ) < m + 1 := by linarith
    have l1' : m < M + 1 := by exact_mod_cast l1
    have l2' : M < m + 1 := by exact_mod_cast l2
    omega
  · exfalso
    have : (10 : ℚ) ^ (6 : Int) ≤ (10 : ℚ) ^ (s + 5) := zpow_le_zpow_right₀ (by norm_num) (by omega)
    norm_num at this
    linarith

/-- The number `n / 10^K`, rounded to six digits. -/
theorem sixDigits_value (n K : Nat) (hn : 0 < n) :
    ((sixDigits n).1 : ℚ) * (10 : ℚ) ^ ((((sixDigits n).2 : Int) - K) - 5) =
      divRound (n * 10 ^ 5) (10 ^ decExp n) * (10 : ℚ) ^ (((decExp n : Int) - K) - 5) := by
  have h := (sixDigits_spec n hn).2.2
  have h' : ((sixDigits n).1 : ℚ) * 10 ^ (sixDigits n).2 = divRound (n * 10 ^ 5) (10 ^ decExp n) * 10 ^ decExp n := by exact_mod_cast h
  have e : ∀ a : Nat, (10 : ℚ) ^ (((a : Int) - K) - 5) = 10 ^ a * (10 : ℚ) ^ (-(K : Int) - 5) := by
    intro a
    rw [← zpow_natCast, ← zpow_add₀ (by norm_num)]
    congr 1
    ring
  rw [e, e, ← mul_assoc, ← mul_assoc, h']

/-- Bounds of the first rounding. -/
theorem sixDigits_bounds (n K : Nat) (hn : 0 < n) (V : ℚ) (hV : V = n / (10 : ℚ) ^ K) :
    (10 : ℚ) ^ ((decExp n : Int) - K) ≤ V ∧ V < (10 : ℚ) ^ ((decExp n : Int) - K + 1) ∧
    |V - divRound (n * 10 ^ 5) (10 ^ decExp n) * (10 : ℚ) ^ (((decExp n : Int) - K) - 5)| ≤ (10 : ℚ) ^ (((decExp n : Int) - K) - 5) / 2 := by
  obtain ⟨h1, h2⟩ := decExp_bounds n hn
  have hp : 0 < 10 ^ decExp n := Nat.pow_pos (by omega)
  obtain ⟨h3, h4⟩ := divRound_half (n * 10 ^ 5) (10 ^ decExp n) hp
  have hK : (0 : ℚ) < 10 ^ K := by positivity
  have g1 : (10 : ℚ) ^ decExp n ≤ n := by exact_mod_cast h1
  have g2 : (n : ℚ) < 10 ^ (decExp n + 1) := by exact_mod_cast h2
  have g3 : 2 * ((n : ℚ) * 10 ^ 5) ≤ 2 * (divRound (n * 10 ^ 5) (10 ^ decExp n) * 10 ^ decExp n) + 10 ^ decExp n := by exact_mod_cast h3
  have g4 : 2 * (divRound (n * 10 ^ 5) (10 ^ decExp n) * (10 : ℚ) ^ decExp n) ≤ 2 * (n * 10 ^ 5) + 10 ^ decExp n := by exact_mod_cast h4
  have e1 : (10 : ℚ) ^ ((decExp n : Int) - K) = 10 ^ decExp n / 10 ^ K := by
    rw [zpow_sub₀ (by norm_num), zpow_natCast, zpow_natCast]
  have e2 : (10 : ℚ) ^ ((decExp n : Int) - K + 1) = 10 ^ (decExp n + 1) / 10 ^ K := by
    rw [zpow_add₀ (by norm_num), e1, pow_succ]
    norm_num
    ring
  have e3 : (10 : ℚ) ^ (((decExp n : Int) - K) - 5) = 10 ^ decExp n / 10 ^ K / 10 ^ 5 := by
    rw [zpow_sub₀ (by norm_num), e1]
    norm_num
  rw [e1, e2, e3, hV]
  refine ⟨by gcongr, by gcongr, ?_⟩
  generalize divRound (n * 10 ^ 5) (10 ^ decExp n) = m at *
  generalize (10 : ℚ) ^ decExp n = u at *
  have : (n : ℚ) / 10 ^ K - m * (u / 10 ^ K / 10 ^ 5) = (n * 10 ^ 5 - m * u) / 10 ^ K / 10 ^ 5 := by
    field_simp
  rw [this, abs_div, abs_div, abs_of_pos hK, abs_of_pos (by norm_num : (0 : ℚ) < 10 ^ 5)]
  have hm : |(n : ℚ) * 10 ^ 5 - m * u| ≤ u / 2 := by
    rw [abs_le]
    constructor <;> linarith
  calc |(n : ℚ) * 10 ^ 5 - m * u| / 10 ^ K / 10 ^ 5 ≤ (u / 2) / 10 ^ K / 10 ^ 5 := by gcongr
    _ = u / 10 ^ K / 10 ^ 5 / 2 := by ring

/-- The number `n / 10^K` and its six digits: the exponent is the one of the first digit, and ties go to the even number. -/
theorem sixDigits_tie (n K : Nat) (V : ℚ) (hV : V = n / (10 : ℚ) ^ K)
    (h : |V - (sixDigits n).1 * (10 : ℚ) ^ ((((sixDigits n).2 : Int) - K) - 5)| = (10 : ℚ) ^ ((((sixDigits n).2 : Int) - K) - 5) / 2) :
    (sixDigits n).1 % 2 = 0 := by
  have hp : 0 < 10 ^ decExp n := Nat.pow_pos (by omega)
  have hs : sixDigits n = if divRound (n * 10 ^ 5) (10 ^ decExp n) = 10 ^ 6 then (10 ^ 5, decExp n + 1)
    else (divRound (n * 10 ^ 5) (10 ^ decExp n), decExp n) := rfl
  rw [hs] at h ⊢
  by_cases hc : divRound (n * 10 ^ 5) (10 ^ decExp n) = 10 ^ 6
  · rw [if_pos hc]
    show 10 ^ 5 % 2 = 0
    norm_num
  · rw [if_neg hc] at h ⊢
    refine divRound_tie _ _ ?_ hp
    dsimp only at h
    have hK : (0 : ℚ) < 10 ^ K := by positivity
    have e3 : (10 : ℚ) ^ (((decExp n : Int) - K) - 5) = 10 ^ decExp n / 10 ^ K / 10 ^ 5 := by
      rw [zpow_sub₀ (by norm_num), zpow_sub₀ (by norm_num), zpow_natCast, zpow_natCast]
      norm_num
    rw [e3, hV] at h
    have back : ∀ a b : Nat, (a : ℚ) = b → a = b := fun a b h => by exact_mod_cast h
    generalize divRound (n * 10 ^ 5) (10 ^ decExp n) = m at *
    rcases (_root_.abs_eq (by positivity)).1 h with h | h
    · left
      apply back
      push_cast
      generalize (10 : ℚ) ^ decExp n = u at *
      field_simp at h
      linarith
    · right
      apply back
      push_cast
      generalize (10 : ℚ) ^ decExp n = u at *
      field_simp at h
      linarith

/-! ### Numbers of the type -/

theorem decimal_value (F : FloatFormat) (n : Nat) : patternValue F n = (F.decimal n : ℚ) / (10 : ℚ) ^ F.minExp := by
  have h : F.decimal n = patUnits F n * 5 ^ F.minExp := rfl
  rw [patternValue_units, h]
  push_cast
  rw [show (10 : ℚ) = 2 * 5 by norm_num, mul_pow]
  field_simp

theorem decimal_pos (F : FloatFormat) (n : Nat) (hn : 0 < n) : 0 < F.decimal n := by
  have h1 := (patternValue_lt_iff F 0 n).2 hn
  rw [decimal_value F n] at h1
  have h0 : patternValue F 0 = 0 := by unfold patternValue; simp
  rw [h0] at h1
  apply Nat.pos_of_ne_zero
  intro h
  rw [h] at h1
  simp at h1

/-- The distance to the next number. -/
theorem gap_above (F : FloatFormat) (n : Nat) (hn : 2 ^ F.fraction ≤ n) :
    (patternValue F (n + 1) - patternValue F n) * 2 ^ F.fraction ≤ patternValue F n := by
  obtain ⟨e, m, rfl, h1, h2⟩ := pattern_form F n
  have hm : 2 ^ F.fraction ≤ m := by
    rcases h2 with rfl | h2
    · simpa using hn
    · exact h2
  rw [patternValue_units, patternValue_units, Nat.add_assoc, patUnits_of F e m h2 (by omega), patUnits_of F e (m + 1) (by omega) (by omega),
    ← sub_div, div_mul_eq_mul_div, div_le_div_iff_of_pos_right (by positivity)]
  have hm' : (2 : ℚ) ^ F.fraction ≤ m := by exact_mod_cast hm
  have he : (0 : ℚ) < 2 ^ e := by positivity
  push_cast
  nlinarith

/-- The distance to the number in front. -/
theorem gap_below (F : FloatFormat) (n : Nat) (hn : 2 ^ F.fraction ≤ n + 1) :
    (patternValue F (n + 1) - patternValue F n) * 2 ^ F.fraction ≤ patternValue F (n + 1) := by
  obtain ⟨e, m, rfl, h1, h2⟩ := pattern_form F n
  have hm : 2 ^ F.fraction ≤ m + 1 := by
    rcases h2 with rfl | h2
    · simpa using hn
    · omega
  rw [patternValue_units, patternValue_units, Nat.add_assoc, patUnits_of F e m h2 (by omega), patUnits_of F e (m + 1) (by omega) (by omega),
    ← sub_div, div_mul_eq_mul_div, div_le_div_iff_of_pos_right (by positivity)]
  have hm' : (2 : ℚ) ^ F.fraction ≤ m + 1 := by exact_mod_cast hm
  have he : (0 : ℚ) < 2 ^ e := by positivity
  push_cast
  nlinarith

/-- The relative error of rounding. -/
theorem nearest_relative (F : FloatFormat) {y : ℚ} {n : Nat} (h : Nearest F y n) (hn : 2 ^ F.fraction ≤ n) :
    |y - patternValue F n| ≤ patternValue F n / 2 ^ (F.fraction + 1) := by
  have hP : (0 : ℚ) < 2 ^ F.fraction := by positivity
  rw [le_div_iff₀ (by positivity), pow_succ]
  rcases le_or_gt (patternValue F n) y with hy | hy
  · have hl := (patternValue_lt_iff F n (n + 1)).2 (by omega)
    have h1 := (h (n + 1)).1
    have hg := gap_above F n hn
    have h2 : 2 * |y - patternValue F n| ≤ patternValue F (n + 1) - patternValue F n := by
      rw [abs_of_nonneg (by linarith)] at h1 ⊢
      rcases abs_cases (y - patternValue F (n + 1)) with ⟨a1, a2⟩ | ⟨a1, a2⟩ <;> rw [a1] at h1 <;> linarith
    nlinarith
  · have hn0 : 0 < 2 ^ F.fraction := Nat.two_pow_pos _
    obtain ⟨k, rfl⟩ : ∃ k, n = k + 1 := ⟨n - 1, by omega⟩
    have hl := (patternValue_lt_iff F k (k + 1)).2 (by omega)
    have h1 := (h k).1
    have hg := gap_below F k hn
    have h2 : 2 * |y - patternValue F (k + 1)| ≤ patternValue F (k + 1) - patternValue F k := by
      rw [abs_of_neg (by linarith)] at h1 ⊢
      rcases abs_cases (y - patternValue F k) with ⟨a1, a2⟩ | ⟨a1, a2⟩ <;> rw [a1] at h1 <;> linarith
    nlinarith

/-- A number with at most six digits has exactly six if zeros are added. -/
theorem sixDigits_normal (y : ℚ) (h : SixDigits y) (hy : y ≠ 0) : ∃ (m : Nat) (j : Int), 10 ^ 5 ≤ m ∧ m < 10 ^ 6 ∧ y = m * (10 : ℚ) ^ j := by
  obtain ⟨m, j, hm, rfl⟩ := h
  have hm0 : 0 < m := by
    apply Nat.pos_of_ne_zero
    rintro rfl
    exact hy (by simp)
  obtain ⟨h1, h2⟩ := decExp_bounds m hm0
  have h5 : decExp m ≤ 5 := by
    by_cases h : decExp m ≤ 5
    · exact h
    · exfalso
      have : 10 ^ 6 ≤ 10 ^ decExp m := Nat.pow_le_pow_right (by omega) (by omega)
      omega
  refine ⟨m * 10 ^ (5 - decExp m), j - ((5 - decExp m : Nat) : Int), ?_, ?_, ?_⟩
  · calc 10 ^ 5 = 10 ^ decExp m * 10 ^ (5 - decExp m) := by rw [← Nat.pow_add]; congr 1; omega
      _ ≤ _ := Nat.mul_le_mul_right _ h1
  · calc m * 10 ^ (5 - decExp m) < 10 ^ (decExp m + 1) * 10 ^ (5 - decExp m) := Nat.mul_lt_mul_of_pos_right h2 (Nat.pow_pos (by omega))
      _ = 10 ^ 6 := by rw [← Nat.pow_add]; congr 1; omega
  · rw [zpow_sub₀ (by norm_num), zpow_natCast]
    push_cast
    field_simp

/-! ### Subnormal numbers -/

theorem patternValue_subnormal (F : FloatFormat) (n : Nat) (h : n ≤ 2 ^ F.fraction) : patternValue F n = n * patternValue F 1 := by
  have hu : ∀ k, k ≤ 2 ^ F.fraction → patUnits F k = k := by
    intro k hk
    have := patUnits_of F 0 k (Or.inl rfl) (by omega)
    simpa using this
  have h1 : 1 ≤ 2 ^ F.fraction := Nat.two_pow_pos _
  rw [patternValue_units, patternValue_units, hu n h, hu 1 h1]
  push_cast
  ring

theorem patternValue_far (F : FloatFormat) (n k : Nat) (h : n < 2 ^ F.fraction) (hk : k ≠ n) :
    patternValue F 1 ≤ |patternValue F k - patternValue F n| := by
  have h0 : patternValue F 0 = 0 := by unfold patternValue; simp
  have hu : 0 < patternValue F 1 := by
    have := (patternValue_lt_iff F 0 1).2 (by omega)
    rwa [h0] at this
  have vn := patternValue_subnormal F n (by omega)
  rcases Nat.lt_or_ge n k with h1 | h1
  · have hle : patternValue F (n + 1) ≤ patternValue F k := by
      rcases Nat.lt_or_ge (n + 1) k with h2 | h2
      · exact ((patternValue_lt_iff F _ _).2 h2).le
      · rw [show k = n + 1 by omega]
    have v1 := patternValue_subnormal F (n + 1) (by omega)
    push_cast at v1
    rw [abs_of_nonneg (by nlinarith)]
    nlinarith
  · have hkn : k + 1 ≤ n := by omega
    have vk := patternValue_subnormal F k (by omega)
    have hq : (k : ℚ) + 1 ≤ n := by exact_mod_cast hkn
    rw [vn, vk, abs_of_nonpos (by nlinarith)]
    nlinarith

/-- What is at most as far from a subnormal number as a number that is rounded to it is rounded to it, too. -/
theorem nearest_subnormal (F : FloatFormat) {y d : ℚ} {n : Nat} (h : n < 2 ^ F.fraction) (hn : 0 < n) (hy : Nearest F y n)
    (hd : |d - patternValue F n| ≤ |y - patternValue F n|) : Nearest F d n := by
  have vn := patternValue_subnormal F n (by omega)
  have v1 := patternValue_subnormal F (n + 1) (by omega)
  obtain ⟨j, rfl⟩ : ∃ j, n = j + 1 := ⟨n - 1, by omega⟩
  have v2 := patternValue_subnormal F j (by omega)
  push_cast at vn v1 v2
  have hu : 0 < patternValue F 1 := by
    have := (patternValue_lt_iff F 0 1).2 (by omega)
    have h0 : patternValue F 0 = 0 := by unfold patternValue; simp
    rwa [h0] at this
  have half : |y - patternValue F (j + 1)| ≤ patternValue F 1 / 2 ∧
      (|y - patternValue F (j + 1)| = patternValue F 1 / 2 → (j + 1) % 2 = 0) := by
    rcases le_or_gt (patternValue F (j + 1)) y with hc | hc
    · obtain ⟨h1, h2⟩ := hy (j + 1 + 1)
      have h2 := h2 (by omega)
      rw [abs_of_nonneg (by linarith)] at h1 h2 ⊢
      rcases abs_cases (y - patternValue F (j + 1 + 1)) with ⟨a1, a2⟩ | ⟨a1, a2⟩ <;> rw [a1] at h1 h2
      · exact absurd h1 (by linarith)
      · exact ⟨by linarith, fun he => h2 (by linarith)⟩
    · obtain ⟨h1, h2⟩ := hy j
      have h2 := h2 (by omega)
      rw [abs_of_neg (by linarith)] at h1 h2 ⊢
      rcases abs_cases (y - patternValue F j) with ⟨a1, a2⟩ | ⟨a1, a2⟩ <;> rw [a1] at h1 h2
      · exact ⟨by linarith, fun he => h2 (by linarith)⟩
      · exact absurd h1 (by linarith)
  intro k
  by_cases hk : k = j + 1
  · subst hk
    exact ⟨le_refl _, fun hne => absurd rfl hne⟩
  · have far := patternValue_far F (j + 1) k h hk
    have tri : |patternValue F k - patternValue F (j + 1)| ≤ |d - patternValue F k| + |d - patternValue F (j + 1)| := by
      have := abs_sub_le (patternValue F k) d (patternValue F (j + 1))
      rwa [abs_sub_comm (patternValue F k) d] at this
    refine ⟨by linarith [half.1], fun _ he => half.2 ?_⟩
    apply le_antisymm half.1
    linarith

/-- The six digits shown are at most as far from the value as any other six digits. -/
theorem shown_closest (V : ℚ) (m : Nat) (x : Int) (b1 : (10 : ℚ) ^ x ≤ V) (b3 : |V - m * (10 : ℚ) ^ (x - 5)| ≤ (10 : ℚ) ^ (x - 5) / 2)
    (y : ℚ) (hy : SixDigits y) : |m * (10 : ℚ) ^ (x - 5) - V| ≤ |y - V| := by
  have hp : (0 : ℚ) < (10 : ℚ) ^ (x - 5) := zpow_pos (by norm_num) _
  have multiples : ∀ K : Int, |m * (10 : ℚ) ^ (x - 5) - V| ≤ |K * (10 : ℚ) ^ (x - 5) - V| := by
    intro K
    rw [abs_sub_comm]
    by_cases hK : K = m
    · rw [hK]
      rw [abs_sub_comm]
      push_cast
      exact le_refl _
    · have h1 : (1 : ℚ) ≤ |(K : ℚ) - m| := by
        have : 1 ≤ |K - (m : Int)| := Int.one_le_abs (by omega)
        exact_mod_cast this
      have h2 : (10 : ℚ) ^ (x - 5) ≤ |K * (10 : ℚ) ^ (x - 5) - m * (10 : ℚ) ^ (x - 5)| := by
        rw [← sub_mul, abs_mul, abs_of_pos hp]
        nlinarith
      have := abs_sub_le (K * (10 : ℚ) ^ (x - 5)) V (m * (10 : ℚ) ^ (x - 5))
      linarith
  obtain ⟨M, j, hM, rfl⟩ := hy
  rcases le_or_gt (x - 5) j with hj | hj
  · obtain ⟨t, rfl⟩ : ∃ t : Nat, j = (x - 5) + t := ⟨(j - (x - 5)).toNat, by omega⟩
    have := multiples (M * 10 ^ t : Nat)
    rw [zpow_add₀ (by norm_num), zpow_natCast]
    push_cast at this
    rwa [mul_assoc, mul_comm ((10 : ℚ) ^ t)] at this
  · have h10 := multiples (10 ^ 5 : Nat)
    have e : ((10 ^ 5 : Nat) : Int) * (10 : ℚ) ^ (x - 5) = (10 : ℚ) ^ x := by
      rw [zpow_sub₀ (by norm_num)]
      norm_num
      ring
    rw [e] at h10
    refine h10.trans ?_
    have hlt : (M : ℚ) * (10 : ℚ) ^ j ≤ (10 : ℚ) ^ x := by
      have hM' : (M : ℚ) ≤ 10 ^ 6 := by exact_mod_cast hM.le
      have hj0 : (0 : ℚ) < (10 : ℚ) ^ j := zpow_pos (by norm_num) _
      have h6 : (10 : ℚ) ^ 6 * (10 : ℚ) ^ j ≤ (10 : ℚ) ^ x := by
        rw [← zpow_natCast (10 : ℚ) 6, ← zpow_add₀ (by norm_num)]
        exact zpow_le_zpow_right₀ (by norm_num) (by push_cast; omega)
      nlinarith
    rw [abs_of_nonpos (by linarith), abs_of_nonpos (by linarith)]
    linarith

end Sharg
