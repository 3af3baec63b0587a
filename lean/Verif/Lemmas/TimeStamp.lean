import Verif.Lemmas.FloatPrefix
import Verif.Model.VersionCheck

/-!
# Lemmas: how old a time stamp is
-/

namespace Sharg

open Spec

theorem longestNumber_render {line : Str} {d₁ d₂ : DecimalText} (h₁ : LongestNumber line d₁) (h₂ : LongestNumber line d₂) : d₁.render = d₂.render := by
  have hl : d₁.render.length = d₂.render.length := le_antisymm (h₂.2.2 d₁ h₁.1 h₁.2.1) (h₁.2.2 d₂ h₂.1 h₂.2.1)
  obtain ⟨r₁, e₁⟩ := h₁.2.1
  obtain ⟨r₂, e₂⟩ := h₂.2.1
  exact (List.append_inj (e₁.trans e₂.symm) hl).1

/-- The value of a number depends on its text only. -/
theorem scaled_render (F : FloatFormat) {d₁ d₂ : DecimalText} (h₁ : d₁.Ok) (h₂ : d₂.Ok) (h : d₁.render = d₂.render) :
    scaled F d₁.neg (d₁.int ++ d₁.fracDigits) (d₁.exponent - d₁.fracDigits.length) [] =
      scaled F d₂.neg (d₂.int ++ d₂.fracDigits) (d₂.exponent - d₂.fracDigits.length) [] := by
  have key : ∀ d : DecimalText, d.Ok → fromCharsFloat F d.render = scaled F d.neg (d.int ++ d.fracDigits) (d.exponent - d.fracDigits.length) [] := by
    intro d hd
    refine (fromCharsFloat_iff F _ _ ?_).2 ⟨d.neg, decBody d, render_body d, unsignedChars_decimal F d.neg d hd⟩
    unfold scaled
    dsimp only
    split <;> simp
  rw [← key d₁ h₁, ← key d₂ h₂, h]

theorem longestNumber_value (F : FloatFormat) (hf : 1 ≤ F.fraction) {line : Str} {d₁ d₂ : DecimalText} (h₁ : LongestNumber line d₁)
    (h₂ : LongestNumber line d₂) {n : Nat} (hn : Rounded F d₁.abs n) : ∃ m, Rounded F d₂.abs m ∧ F.signBit d₁.neg + n = F.signBit d₂.neg + m := by
  have e := scaled_render F h₁.1 h₂.1 (longestNumber_render h₁ h₂)
  have a := ((scaled_iff F hf d₁.neg d₁ h₁.1 []).1 (F.signBit d₁.neg + n)).2 ⟨n, hn, rfl⟩
  rw [e] at a
  exact ((scaled_iff F hf d₂.neg d₂ h₂.1 []).1 _).1 a

theorem rounded_finite (F : FloatFormat) (neg : Bool) (n : Nat) (h : n < F.infinity) :
    IsPattern F (F.signBit neg + n) ∧ FiniteFloat F (F.signBit neg + n) := by
  have hi := infinity_lt F
  unfold IsPattern FiniteFloat
  cases neg with
  | true =>
    rw [signBit_half, Nat.add_mod_left, Nat.mod_eq_of_lt (by omega)]
    omega
  | false =>
    have : F.signBit false = 0 := rfl
    rw [this, Nat.zero_add, Nat.mod_eq_of_lt (by omega)]
    omega

/-- 0 seconds. -/
theorem lessThanDay_zero (now : Nat) (hnow : now ≤ 2 ^ 53) :
    floatLt binary64 (floatMinus binary64 (roundPattern binary64 now 1) 0) (roundPattern binary64 86400 1) = true ↔ now < 86400 := by
  rw [lessThanDay_finite now 0 hnow (show (0 : Nat) < _ by decide +kernel) (show (0 : Nat) % _ < _ by decide +kernel)]
  have h0 : floatValue binary64 0 = 0 := by
    unfold floatValue
    rw [if_pos (by decide), patternValue_zero]
  rw [h0, sub_zero]
  constructor
  · intro h
    have : (now : ℚ) < 86400 := lt_trans h (by norm_num)
    exact_mod_cast this
  · intro h
    have : (now : ℚ) ≤ 86399 := by exact_mod_cast (show now ≤ 86399 by omega)
    exact lt_of_le_of_lt this (by norm_num)

/-- Which time stamps are less than a day old. -/
theorem youngerThanDay_iff (line : Str) (now : Nat) (hnow : now ≤ lastSecond) : youngerThanDay line now = true ↔ Young now line := by
  have hf : 1 ≤ binary64.fraction := by decide
  unfold youngerThanDay timeDiff Young
  have hnow' : now ≤ 2 ^ 53 := hnow
  by_cases hl : ∃ d : DecimalText, d.Ok ∧ d.render <+: line
  · obtain ⟨d, hd, hp⟩ := hl
    obtain ⟨d₀, rest, h₀, he⟩ := fromChars_number binary64 line d hd hp
    have hno : ¬ BeginsWith "inf".toList false line := fun hb => beginsWith_no_number _ 'i' _ rfl (by decide) false line hb d hd hp
    rw [he]
    by_cases hr : ∃ n, Rounded binary64 d₀.abs n
    · obtain ⟨n, hn⟩ := hr
      rw [((scaled_iff binary64 hf d₀.neg d₀ h₀.1 rest).1 _).2 ⟨n, hn, rfl⟩]
      dsimp only
      rw [lessThanDay_finite now _ hnow' (rounded_finite _ _ _ hn.2.1).1 (rounded_finite _ _ _ hn.2.1).2]
      constructor
      · intro h
        exact Or.inl ⟨d₀, n, h₀, hn, h⟩
      · rintro (⟨d', n', h', hn', h⟩ | h | ⟨h, -⟩)
        · obtain ⟨m, hm, e⟩ := longestNumber_value binary64 hf h' h₀ hn'
          rw [e] at h
          rwa [nearest_unique binary64 hn.1 hm.1]
        · exact absurd h hno
        · exfalso
          rcases h with h | ⟨d', h', hn'⟩
          · exact h.1 d hd hp
          · obtain ⟨m, hm, -⟩ := longestNumber_value binary64 hf h₀ h' hn
            exact hn' ⟨m, hm⟩
    · rw [(scaled_iff binary64 hf d₀.neg d₀ h₀.1 rest).2.2 hr]
      dsimp only
      rw [lessThanDay_zero now hnow']
      constructor
      · intro h
        exact Or.inr (Or.inr ⟨Or.inr ⟨d₀, h₀, hr⟩, h⟩)
      · rintro (⟨d', n', h', hn', h⟩ | h | ⟨-, h⟩)
        · obtain ⟨m, hm, -⟩ := longestNumber_value binary64 hf h' h₀ hn'
          exact absurd ⟨m, hm⟩ hr
        · exact absurd h hno
        · exact h
  · have hl' : ∀ d : DecimalText, d.Ok → ¬ d.render <+: line := fun d hd hp => hl ⟨d, hd, hp⟩
    have hnum : ¬ ∃ d n, LongestNumber line d ∧ Rounded binary64 d.abs n ∧
        (now : ℚ) - floatValue binary64 (binary64.signBit d.neg + n) < 86400 - 1 / 2 ^ 37 := by
      rintro ⟨d, n, h, -⟩
      exact hl' d h.1 h.2.1
    have hi := infinity_lt binary64
    rcases fromChars_other binary64 line hl' with ⟨neg, hb, rest, he⟩ | ⟨neg, hb, rest, he⟩ | ⟨hb, he⟩
    · rw [he]
      dsimp only
      rw [lessThanDay_other now _ hnow' (by unfold FiniteFloat; cases neg <;> decide +kernel)]
      have hun : ¬ NoTime line := by
        rintro (h | ⟨d, h, -⟩)
        · exact (h.2 neg).1 hb
        · exact hl' d h.1 h.2.1
      cases neg with
      | false => exact iff_of_true (by decide +kernel) (Or.inr (Or.inl hb))
      | true =>
        refine iff_of_false (by decide +kernel) ?_
        rintro (h | h | h)
        · exact hnum h
        · obtain ⟨w, r, e1, e2⟩ := hb
          obtain ⟨w', r', e1', e2'⟩ := h
          have e3 : '-' :: (w ++ r) = w' ++ r' := by
            have : minusSign true ++ (w ++ r) = minusSign false ++ (w' ++ r') := by rw [← e1, e1']
            exact this
          cases w' with
          | nil => cases e2'
          | cons c t =>
            have h1 : '-' = c := (List.cons.inj e3).1
            subst h1
            exact absurd (List.cons.inj (show Char.toLower '-' :: t.map Char.toLower = 'i' :: ['n', 'f'] from e2')).1 (by decide)
        · exact hun h.1
    · rw [he]
      dsimp only
      rw [lessThanDay_other now _ hnow' (by unfold FiniteFloat; cases neg <;> decide +kernel)]
      refine iff_of_false (by cases neg <;> decide +kernel) ?_
      rintro (h | h | ⟨h | ⟨d, h, -⟩, -⟩)
      · exact hnum h
      · obtain ⟨w, r, e1, e2⟩ := hb
        obtain ⟨w', r', e1', e2'⟩ := h
        cases w with
        | nil => cases e2
        | cons c t =>
          have hc := (List.cons.inj (show c.toLower :: t.map Char.toLower = 'n' :: ['a', 'n'] from e2)).1
          cases w' with
          | nil => cases e2'
          | cons c' t' =>
            have hc' := (List.cons.inj (show c'.toLower :: t'.map Char.toLower = 'i' :: ['n', 'f'] from e2')).1
            have e3 : minusSign neg ++ (c :: t ++ r) = c' :: t' ++ r' := by rw [← e1, e1']; rfl
            cases neg with
            | false =>
              have : c = c' := (List.cons.inj e3).1
              subst this
              rw [hc] at hc'
              exact absurd hc' (by decide)
            | true =>
              have : '-' = c' := (List.cons.inj e3).1
              subst this
              exact absurd hc' (by decide)
      · exact (h.2 neg).2 hb
      · exact hl' d h.1 h.2.1
    · rw [he]
      dsimp only
      rw [lessThanDay_zero now hnow']
      constructor
      · intro h
        exact Or.inr (Or.inr ⟨Or.inl ⟨hl', hb⟩, h⟩)
      · rintro (h | h | ⟨-, h⟩)
        · exact absurd h hnum
        · exact absurd h (hb false).1
        · exact h

theorem isDecimal_number {line : Str} (h : IsDecimal line) : DecimalText.Ok ⟨false, line, none, none⟩ ∧
    DecimalText.render ⟨false, line, none, none⟩ = line ∧ DecimalText.abs ⟨false, line, none, none⟩ = decValue line := by
  refine ⟨⟨h.2, by simp [DecimalText.fracDigits], Or.inl h.1, by simp⟩, ?_, ?_⟩
  · rw [render_body]
    simp [decBody, minusSign]
  · unfold DecimalText.abs DecimalText.fracDigits DecimalText.exponent
    simp [decValue]

/-- A time stamp of the version check. -/
theorem young_decimal (now : Nat) (line : Str) (h : IsDecimal line) (hl : decValue line ≤ lastSecond) :
    Young now line ↔ now < decValue line + 86400 := by
  obtain ⟨h1, h2, h3⟩ := isDecimal_number h
  have hf : 1 ≤ binary64.fraction := by decide
  have hlong : LongestNumber line ⟨false, line, none, none⟩ := by
    refine ⟨h1, ⟨[], by rw [h2, List.append_nil]⟩, fun d' _ hp => ?_⟩
    rw [h2]
    exact hp.length_le
  obtain ⟨k, hk, hv⟩ := integer_pattern binary64 ieee_binary64 (by decide) _ hl
  have hround : Rounded binary64 (DecimalText.abs ⟨false, line, none, none⟩) k := by
    rw [h3, ← hv]
    refine ⟨nearest_self _ _, hk, ?_⟩
    rintro rfl
    exact patternValue_zero _
  have hval : floatValue binary64 (binary64.signBit false + k) = decValue line := by
    rw [floatValue_rounded _ _ _ hk, ← hv]
    rfl
  have hnum : (now : ℚ) - decValue line < 86400 - 1 / 2 ^ 37 ↔ now < decValue line + 86400 := by
    constructor
    · intro h
      have h4 : (now : ℚ) < decValue line + 86400 := by
        have : (0 : ℚ) < 1 / 2 ^ 37 := by norm_num
        linarith
      exact_mod_cast h4
    · intro h
      have h4 : (now : ℚ) + 1 ≤ decValue line + 86400 := by exact_mod_cast h
      have : (1 : ℚ) / 2 ^ 37 < 1 := by norm_num
      linarith
  constructor
  · rintro (⟨d, n, hd, hn, hlt⟩ | hb | ⟨hb | ⟨d, hd, hn⟩, -⟩)
    · obtain ⟨m, hm, e⟩ := longestNumber_value binary64 hf hd hlong hn
      rw [e, nearest_unique binary64 hm.1 hround.1, hval] at hlt
      exact hnum.1 hlt
    · exact absurd ⟨[], by rw [h2, List.append_nil]⟩ (beginsWith_no_number _ 'i' _ rfl (by decide) false line hb _ h1)
    · exact absurd ⟨[], by rw [h2, List.append_nil]⟩ (hb.1 _ h1)
    · obtain ⟨m, hm, -⟩ := longestNumber_value binary64 hf hlong hd hround
      exact absurd ⟨m, hm⟩ hn
  · intro hlt
    refine Or.inl ⟨_, k, hlong, hround, ?_⟩
    show (now : ℚ) - floatValue binary64 (binary64.signBit false + k) < _
    rw [hval]
    exact hnum.2 hlt

end Sharg
