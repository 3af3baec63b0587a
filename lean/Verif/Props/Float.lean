import Verif.Lemmas.FloatText
import Verif.Lemmas.FloatNumbers
import Verif.Props.Values
import Verif.Props.Validators

/-!
# Property C83: floating point options hold the number nearest to the given one
-/

namespace Sharg

open Spec

variable {W : Type}

/-! ### Which texts are accepted -/

theorem floatConv_ok (F : FloatFormat) (text : Str) (e : Elem) :
    floatConv F text = .ok e ↔ ∃ v, e = .other v ∧ fromCharsFloat F text = .ok v [] := by
  unfold floatConv
  cases h : fromCharsFloat F text with
  | invalid => simp
  | outOfRange => simp
  | ok v rest =>
    by_cases hr : rest = []
    · subst hr
      simp only [if_true, Conv.ok.injEq, FloatChars.ok.injEq, and_true]
      constructor
      · rintro rfl; exact ⟨v, rfl, rfl⟩
      · rintro ⟨w, rfl, rfl⟩; rfl
    · simp [hr]

/-- C83: the texts that denote a value of a floating point type are the decimal numbers in range (digits with a point, with or without exponent),
which are rounded to the nearest number of the type, and the words for infinity and NaN; a minus sign may be in front, but no plus sign. -/
theorem C83_accepted_exactly (F : FloatFormat) (hf : 1 ≤ F.fraction) (text : Str) (e : Elem) :
    Denotes F.elemTy text e ↔ ∃ v, e = .other v ∧ DenotesFloat F text v := by
  show floatConv F text = .ok e ↔ _
  rw [floatConv_ok]
  apply exists_congr
  intro v
  apply and_congr_right
  intro _
  rw [fromCharsFloat_iff F text _ (by simp)]
  constructor
  · rintro ⟨neg, body, rfl, h⟩
    rcases (unsignedChars_ok F neg body v).1 h with ⟨d, hd, hn, hs, h⟩ | h
    · subst hn
      obtain ⟨n, h1, h2⟩ := ((scaled_iff F hf d.neg d hd []).1 v).1 h
      exact Or.inl ⟨d, hd, by rw [render_body, hs], n, h1, h2⟩
    · exact Or.inr ⟨neg, body, rfl, h⟩
  · rintro (⟨d, hd, rfl, n, h1, h2⟩ | ⟨neg, s, rfl, h⟩)
    · exact ⟨d.neg, decBody d, render_body d, (unsignedChars_ok F d.neg _ v).2 (Or.inl ⟨d, hd, rfl, rfl,
        ((scaled_iff F hf d.neg d hd []).1 v).2 ⟨n, h1, h2⟩⟩)⟩
    · exact ⟨neg, s, rfl, (unsignedChars_ok F neg s v).2 (Or.inr h)⟩

/-- C83: a decimal number that is rounded to infinity, or to 0 without being 0, is out of range, and no other one. -/
theorem C83_out_of_range (F : FloatFormat) (hf : 1 ≤ F.fraction) (d : DecimalText) (hd : d.Ok) :
    OutOfRange F.elemTy d.render ↔ ¬ ∃ n, Rounded F d.abs n := by
  rw [← (scaled_iff F hf d.neg d hd []).2]
  have h1 : fromCharsFloat F d.render = scaled F d.neg (d.int ++ d.fracDigits) (d.exponent - d.fracDigits.length) [] := by
    refine (fromCharsFloat_iff F _ _ ?_).2 ⟨d.neg, decBody d, render_body d, unsignedChars_decimal F d.neg d hd⟩
    unfold scaled
    dsimp only
    split <;> simp
  show (true = true ∧ floatConv F d.render = .overflow) ↔ _
  unfold floatConv
  rw [h1]
  cases scaled F d.neg (d.int ++ d.fracDigits) (d.exponent - d.fracDigits.length) [] with
  | invalid => simp
  | outOfRange => simp
  | ok v rest => by_cases hr : rest = [] <;> simp [hr]

/-- C83, as C29 for integers: the text given for a floating point option is accepted exactly if it denotes a number, which the variable then holds;
otherwise `user_input_error` is thrown. -/
theorem C83_floats_exact (F : FloatFormat) (hf : 1 ≤ F.fraction) (ndebug : Bool) (x : VarId) (text : Str) (s : FState W) :
    (∀ v, DenotesFloat F text v →
      assignScalar ndebug F.elemTy x text s = .ok () { s with store := s.store.set x (.one (.other v)) }) ∧
    ((¬ ∃ v, DenotesFloat F text v) → ∃ s', assignScalar ndebug F.elemTy x text s = .err .userInputError s') := by
  have key := C83_accepted_exactly F hf text
  have hd : ∀ e, Denotes F.elemTy text e ↔ floatConv F text = .ok e := fun e => Iff.rfl
  unfold assignScalar
  simp only [FloatFormat.elemTy, parseElem, parseForeign]
  constructor
  · intro v hv
    rw [(hd _).1 ((key (.other v)).2 ⟨v, rfl, hv⟩)]
    rfl
  · intro hv
    cases hc : floatConv F text with
    | ok e =>
      obtain ⟨v, _, h⟩ := (key e).1 hc
      exact absurd ⟨v, h⟩ hv
    | fail w => cases w <;> exact ⟨_, rfl⟩
    | overflow => exact ⟨_, rfl⟩

/-- C83, for `parse()`: if it returns, a floating point option that has been given, in whatever spelling, holds what its text denotes. -/
theorem C83_option_holds_nearest (env : Env W) (g g' : Prog W) (hg : Reachable env g) (items : List Item)
    (tail : Option (List Str)) (hl : LineGiven g items tail) (hok : LineOk (decls g) items tail)
    (hnd : env.ndebug = false ∨ ListsRepresentable (decls g) items tail) (hvars : VarsDistinct (decls g))
    (h : parse env g = (.returned, g')) (d : OptDecl W) (hd : d ∈ (decls g).options) (F : FloatFormat) (hf : 1 ≤ F.fraction)
    (hty : d.ty = F.elemTy) (hs : d.isList = false) (it : Item) (hit : it ∈ items) (text : Str) (hv : it.valueFor d = some text) :
    ∃ v, DenotesFloat F text v ∧ g'.store d.var = .one (.other v) := by
  obtain ⟨w₁, _, hm⟩ := C17_only_meaningful_lines_partial env g g' hg items tail hl hok hnd h
  have hdel := (line_delivered hvars hm).1
  have hmem : text ∈ given d items := List.mem_filterMap.2 ⟨it, hit, hv⟩
  have := hdel.value d hd (List.ne_nil_of_mem hmem)
  rw [hs] at this
  obtain ⟨t, e, ht, he, hde⟩ := this
  rw [ht, List.mem_singleton] at hmem
  subst hmem
  rw [hty] at hde
  obtain ⟨v, rfl, h2⟩ := (C83_accepted_exactly F hf text e).1 hde
  exact ⟨v, h2, he⟩

theorem denoteAll_floats (F : FloatFormat) (hf : 1 ≤ F.fraction) (ts : List Str) (es : List Elem) (h : DenoteAll F.elemTy ts es) :
    ∃ vs : List Nat, es = vs.map .other ∧ List.Forall₂ (DenotesFloat F) ts vs := by
  induction ts generalizing es with
  | nil =>
    cases es with
    | nil => exact ⟨[], rfl, .nil⟩
    | cons e es => exact absurd h id
  | cons t ts ih =>
    cases es with
    | nil => exact absurd h id
    | cons e es =>
      obtain ⟨v, rfl, h1⟩ := (C83_accepted_exactly F hf t e).1 h.1
      obtain ⟨vs, rfl, h2⟩ := ih es h.2
      exact ⟨v :: vs, rfl, .cons h1 h2⟩

/-- C83, for lists: the list holds what the texts denote, one number for each text, in the order of the line. -/
theorem C83_list_holds_nearest (env : Env W) (g g' : Prog W) (hg : Reachable env g) (items : List Item)
    (tail : Option (List Str)) (hl : LineGiven g items tail) (hok : LineOk (decls g) items tail)
    (hnd : env.ndebug = false ∨ ListsRepresentable (decls g) items tail) (hvars : VarsDistinct (decls g))
    (h : parse env g = (.returned, g')) (d : OptDecl W) (hd : d ∈ (decls g).options) (F : FloatFormat) (hf : 1 ≤ F.fraction)
    (hty : d.ty = F.elemTy) (hs : d.isList = true) (hgiven : given d items ≠ []) :
    ∃ vs : List Nat, g'.store d.var = .many (vs.map .other) ∧ List.Forall₂ (DenotesFloat F) (given d items) vs := by
  obtain ⟨w₁, _, hm⟩ := C17_only_meaningful_lines_partial env g g' hg items tail hl hok hnd h
  have := (line_delivered hvars hm).1.value d hd hgiven
  rw [hs] at this
  obtain ⟨es, he, hall⟩ := this
  rw [hty] at hall
  obtain ⟨vs, rfl, h2⟩ := denoteAll_floats F hf _ _ hall
  exact ⟨vs, he, h2⟩

/-! ### The numbers -/

/-- What a decimal number is read as. -/
theorem denotes_decimal (F : FloatFormat) (hf : 1 ≤ F.fraction) (d : DecimalText) (hd : d.Ok) (v : Nat) (h : DenotesFloat F d.render v) :
    ∃ n, Rounded F d.abs n ∧ v = F.signBit d.neg + n := by
  have h1 := (C83_accepted_exactly F hf d.render (.other v)).2 ⟨v, rfl, h⟩
  have h2 : floatConv F d.render = .ok (.other v) := h1
  obtain ⟨v', h3, h4⟩ := (floatConv_ok F _ _).1 h2
  injection h3 with h3
  subst h3
  have h5 : fromCharsFloat F d.render = scaled F d.neg (d.int ++ d.fracDigits) (d.exponent - d.fracDigits.length) [] := by
    refine (fromCharsFloat_iff F _ _ ?_).2 ⟨d.neg, decBody d, render_body d, unsignedChars_decimal F d.neg d hd⟩
    unfold scaled
    dsimp only
    split <;> simp
  rw [h5] at h4
  exact ((scaled_iff F hf d.neg d hd []).1 v).1 h4

theorem decimal_abs_nonneg (d : DecimalText) : 0 ≤ d.abs := by
  unfold DecimalText.abs
  exact mul_nonneg (by positivity) (zpow_nonneg (by norm_num) _)

/-- C83: no number of the type is nearer to the given one. -/
theorem C83_nearest (F : FloatFormat) (hf : 1 ≤ F.fraction) (d : DecimalText) (hd : d.Ok) (v : Nat) (h : DenotesFloat F d.render v)
    (neg : Bool) (k : Nat) (hk : k < F.infinity) :
    |d.value - floatValue F v| ≤ |d.value - floatValue F (F.signBit neg + k)| := by
  obtain ⟨n, hn, rfl⟩ := denotes_decimal F hf d hd v h
  rw [floatValue_rounded F _ _ hn.2.1, floatValue_rounded F _ _ hk]
  unfold DecimalText.value
  have h0 := decimal_abs_nonneg d
  have h1 := (hn.1 k).1
  have h2 := patternValue_nonneg F k
  have hp : |d.abs - patternValue F n| ≤ |d.abs - -patternValue F k| := by
    refine h1.trans ?_
    rw [abs_of_nonneg (show 0 ≤ d.abs - -patternValue F k by linarith)]
    exact abs_sub_le_iff.2 ⟨by linarith, by linarith⟩
  have e1 : ∀ a b : ℚ, |-a - -b| = |a - b| := fun a b => by rw [← abs_neg]; congr 1; ring
  have e2 : ∀ a b : ℚ, |-a - b| = |a - -b| := fun a b => by rw [← abs_neg]; congr 1; ring
  cases d.neg <;> cases neg <;> simp only [if_true, if_false, Bool.false_eq_true]
  · exact h1
  · exact hp
  · rw [e1, e2]; exact hp
  · rw [e1, e1]; exact h1

/-- C83: larger numbers are not read as smaller ones. -/
theorem C83_order_kept (F : FloatFormat) (hf : 1 ≤ F.fraction) (d₁ d₂ : DecimalText) (h₁ : d₁.Ok) (h₂ : d₂.Ok) (v₁ v₂ : Nat)
    (hv₁ : DenotesFloat F d₁.render v₁) (hv₂ : DenotesFloat F d₂.render v₂) (h : d₁.value ≤ d₂.value) :
    floatValue F v₁ ≤ floatValue F v₂ := by
  obtain ⟨n₁, hn₁, rfl⟩ := denotes_decimal F hf d₁ h₁ v₁ hv₁
  obtain ⟨n₂, hn₂, rfl⟩ := denotes_decimal F hf d₂ h₂ v₂ hv₂
  rw [floatValue_rounded F _ _ hn₁.2.1, floatValue_rounded F _ _ hn₂.2.1]
  unfold DecimalText.value at h
  have p1 := patternValue_nonneg F n₁
  have p2 := patternValue_nonneg F n₂
  have a1 := decimal_abs_nonneg d₁
  have a2 := decimal_abs_nonneg d₂
  have mono : ∀ {x y : ℚ} {n m : Nat}, Nearest F x n → Nearest F y m → x ≤ y → patternValue F n ≤ patternValue F m :=
    fun hn hm hxy => (patternValue_le_iff F _ _).2 (nearest_mono F hxy hn hm)
  cases hb₁ : d₁.neg <;> cases hb₂ : d₂.neg <;> rw [hb₁, hb₂] at h <;> simp only [if_true, if_false, Bool.false_eq_true] at h ⊢
  · exact mono hn₁.1 hn₂.1 h
  · have e1 : d₁.abs = 0 := by linarith
    have e2 : d₂.abs = 0 := by linarith
    have hz := nearest_self F 0
    rw [patternValue_zero] at hz
    rw [e1] at hn₁
    rw [e2] at hn₂
    rw [nearest_unique F hn₁.1 hz, nearest_unique F hn₂.1 hz, patternValue_zero]
    simp
  · linarith
  · have := mono hn₂.1 hn₁.1 (by linarith)
    linarith

/-- C83: how a number is written does not matter. -/
theorem C83_same_number_same_value (F : FloatFormat) (hf : 1 ≤ F.fraction) (d₁ d₂ : DecimalText) (h₁ : d₁.Ok) (h₂ : d₂.Ok)
    (hn : d₁.neg = d₂.neg) (ha : d₁.abs = d₂.abs) (v : Nat) : DenotesFloat F d₁.render v ↔ DenotesFloat F d₂.render v := by
  constructor
  · intro h
    obtain ⟨n, k, rfl⟩ := denotes_decimal F hf d₁ h₁ v h
    exact Or.inl ⟨d₂, h₂, rfl, n, ha ▸ k, by rw [hn]⟩
  · intro h
    obtain ⟨n, k, rfl⟩ := denotes_decimal F hf d₂ h₂ v h
    exact Or.inl ⟨d₁, h₁, rfl, n, ha ▸ k, by rw [hn]⟩

/-- C83: a text denotes at most one number. -/
theorem C83_one_value (F : FloatFormat) (hf : 1 ≤ F.fraction) (text : Str) (v₁ v₂ : Nat) (h₁ : DenotesFloat F text v₁) (h₂ : DenotesFloat F text v₂) :
    v₁ = v₂ := by
  have h1 : floatConv F text = _ := (C83_accepted_exactly F hf text (.other v₁)).2 ⟨v₁, rfl, h₁⟩
  have h2 : floatConv F text = _ := (C83_accepted_exactly F hf text (.other v₂)).2 ⟨v₂, rfl, h₂⟩
  rw [h1] at h2
  injection h2 with h2
  injection h2

/-- C83: numbers of the type are read as they are. -/
theorem C83_exact_numbers (F : FloatFormat) (d : DecimalText) (hd : d.Ok) (k : Nat) (hk : k < F.infinity)
    (h : d.abs = patternValue F k) : DenotesFloat F d.render (F.signBit d.neg + k) ∧ floatValue F (F.signBit d.neg + k) = d.value := by
  refine ⟨Or.inl ⟨d, hd, rfl, k, ⟨h ▸ nearest_self F k, hk, fun h0 => ?_⟩, rfl⟩, ?_⟩
  · rw [h, h0, patternValue_zero]
  · rw [floatValue_rounded F _ _ hk, ← h]
    rfl

/-! ### The limits -/

/-- C83: the decimal numbers that are accepted. The upper limit lies in the middle between the largest number and the power of two behind it, the lower
one at half of the smallest number. -/
theorem C83_accepted_numbers (F : FloatFormat) (hF : Ieee F) (d : DecimalText) (hd : d.Ok) :
    (∃ v, DenotesFloat F d.render v) ↔ d.abs = 0 ∨
      (patternValue F 1 / 2 < d.abs ∧ d.abs < (patternValue F (F.infinity - 1) + patternValue F F.infinity) / 2) := by
  have hf := hF.fraction
  have hpos : 1 < F.infinity ∧ F.infinity % 2 = 0 := by
    unfold FloatFormat.infinity
    have h1 : 2 ^ 2 ≤ 2 ^ F.expBits := Nat.pow_le_pow_right (by omega) hF.expBits
    obtain ⟨f, hf'⟩ : ∃ f, F.fraction = f + 1 := ⟨F.fraction - 1, by omega⟩
    rw [hf', pow_succ]
    have h2 : 0 < 2 ^ f := by positivity
    constructor
    · calc 1 < 3 * (1 * 2) := by norm_num
        _ ≤ (2 ^ F.expBits - 1) * (2 ^ f * 2) := Nat.mul_le_mul (by omega) (by omega)
    · rw [← Nat.mul_assoc, Nat.mul_mod_left]
  have hn : ∃ n, Nearest F d.abs n := by
    rw [abs_eq d hd]
    exact ⟨_, roundPattern_nearest F hf _ _ (by positivity)⟩
  obtain ⟨n, hn⟩ := hn
  have k1 : (∃ v, DenotesFloat F d.render v) ↔ n < F.infinity ∧ (n = 0 → d.abs = 0) := by
    constructor
    · rintro ⟨v, hv⟩
      obtain ⟨m, hm, _⟩ := denotes_decimal F hf d hd v hv
      rw [nearest_unique F hn hm.1]
      exact hm.2
    · intro h
      exact ⟨_, Or.inl ⟨d, hd, rfl, n, ⟨hn, h.1, h.2⟩, rfl⟩⟩
  have k2 := nearest_above_iff F hn (F.infinity - 1)
  have k3 := nearest_above_iff F hn 0
  rw [show F.infinity - 1 + 1 = F.infinity by omega] at k2
  rw [patternValue_zero, show 0 + 1 = 1 from rfl, zero_add] at k3
  have p1 : 0 < patternValue F 1 := by
    have := (patternValue_lt_iff F 0 1).2 (by omega); rwa [patternValue_zero] at this
  have p2 : patternValue F 1 ≤ patternValue F (F.infinity - 1) := (patternValue_le_iff F _ _).2 (by omega)
  have p3 : patternValue F (F.infinity - 1) < patternValue F F.infinity := (patternValue_lt_iff F _ _).2 (by omega)
  rw [k1]
  constructor
  · rintro ⟨h1, h2⟩
    by_cases h0 : n = 0
    · exact Or.inl (h2 h0)
    · right
      constructor
      · rcases k3.1 (by omega) with h | ⟨_, h⟩
        · exact h
        · exact absurd h (by decide)
      · by_cases hlt : d.abs < (patternValue F (F.infinity - 1) + patternValue F F.infinity) / 2
        · exact hlt
        · exfalso
          have : F.infinity - 1 < n := k2.2 (by
            rcases lt_or_eq_of_le (not_lt.1 hlt) with h | h
            · exact Or.inl h
            · exact Or.inr ⟨h.symm, by omega⟩)
          omega
  · rintro (h | ⟨h1, h2⟩)
    · rw [h]
      have hz := nearest_self F 0
      rw [patternValue_zero] at hz
      rw [h] at hn
      rw [nearest_unique F hn hz]
      exact ⟨by omega, fun _ => rfl⟩
    · constructor
      · by_cases hc : n < F.infinity
        · exact hc
        · exfalso
          rcases k2.1 (by omega) with h | ⟨h, _⟩ <;> linarith
      · intro h0
        have := k3.2 (Or.inl h1)
        omega

/-! ### Integers -/

/-- C83: integers up to 2^24 (`float`) or 2^53 (`double`) are held without error. -/
theorem C83_integers_exact (F : FloatFormat) (hF : Ieee F) (hb : F.fraction + 1 < 2 ^ (F.expBits - 1)) (neg : Bool) (ds : Str) (hd : IsDecimal ds)
    (hm : decValue ds ≤ 2 ^ (F.fraction + 1)) :
    ∃ v, DenotesFloat F (minusSign neg ++ ds) v ∧ floatValue F v = if neg then -(decValue ds : ℚ) else decValue ds := by
  obtain ⟨k, hk, hv⟩ := integer_pattern F hF hb _ hm
  have hok : DecimalText.Ok ⟨neg, ds, none, none⟩ := ⟨hd.2, by simp [DecimalText.fracDigits], Or.inl hd.1, by simp⟩
  have habs : DecimalText.abs ⟨neg, ds, none, none⟩ = decValue ds := by
    unfold DecimalText.abs DecimalText.fracDigits DecimalText.exponent
    simp [decValue]
  obtain ⟨h1, h2⟩ := C83_exact_numbers F ⟨neg, ds, none, none⟩ hok k hk (by rw [habs, hv])
  refine ⟨_, ?_, h2.trans ?_⟩
  · have : DecimalText.render ⟨neg, ds, none, none⟩ = minusSign neg ++ ds := by
      rw [render_body]
      simp [decBody]
    rw [this] at h1
    exact h1
  · unfold DecimalText.value
    rw [habs]

/-! ### Range validators -/

theorem denotes_isPattern (F : FloatFormat) (hf : 1 ≤ F.fraction) (text : Str) (v : Nat) (h : DenotesFloat F text v) : IsPattern F v := by
  have hi := infinity_lt F
  have hn : F.nan < 2 ^ (F.expBits + F.fraction) := by
    unfold FloatFormat.nan FloatFormat.infinity
    have h1 : 2 ^ F.fraction = 2 ^ (F.fraction - 1) + 2 ^ (F.fraction - 1) := by
      obtain ⟨f, hf'⟩ : ∃ f, F.fraction = f + 1 := ⟨F.fraction - 1, by omega⟩
      rw [hf', pow_succ, Nat.add_sub_cancel]; omega
    have h2 : 0 < 2 ^ (F.fraction - 1) := by positivity
    have h3 : 0 < 2 ^ F.expBits := by positivity
    rw [pow_add]
    calc (2 ^ F.expBits - 1) * 2 ^ F.fraction + 2 ^ (F.fraction - 1) < (2 ^ F.expBits - 1) * 2 ^ F.fraction + 1 * 2 ^ F.fraction := by omega
      _ = (2 ^ F.expBits - 1 + 1) * 2 ^ F.fraction := by ring
      _ = _ := by rw [Nat.sub_add_cancel h3]
  have hs : ∀ neg, F.signBit neg ≤ 2 ^ (F.expBits + F.fraction) := by
    intro neg; cases neg
    · exact Nat.zero_le _
    · exact le_rfl
  unfold IsPattern
  rcases h with ⟨d, _, _, n, hn', rfl⟩ | ⟨neg, s, _, ⟨_, rfl⟩ | ⟨_, rfl⟩⟩
  · have := hs d.neg; have := hn'.2.1; omega
  · have := hs neg; omega
  · have := hs neg; omega

/-- Comparing patterns is comparing the numbers. -/
theorem floatLe_finite (F : FloatFormat) (a b : Nat) (ha : IsPattern F a) (hb : IsPattern F b) (fa : FiniteFloat F a) (fb : FiniteFloat F b) :
    floatLe F a b = true ↔ floatValue F a ≤ floatValue F b := by
  unfold FiniteFloat at fa fb
  unfold IsPattern at ha hb
  have hm : ∀ v, v < 2 * 2 ^ (F.expBits + F.fraction) → F.magnitude v = if v < 2 ^ (F.expBits + F.fraction) then v else v - 2 ^ (F.expBits + F.fraction) := by
    intro v hv
    unfold FloatFormat.magnitude
    split
    · rename_i h; exact Nat.mod_eq_of_lt h
    · rename_i h
      rw [Nat.mod_eq_sub_mod (by omega), Nat.mod_eq_of_lt (by omega)]
  have hma := hm a ha
  have hmb := hm b hb
  have key : floatLe F a b = true ↔ F.place a ≤ F.place b := by
    unfold floatLe
    have h1 : F.magnitude a ≤ F.infinity := Nat.le_of_lt fa
    have h2 : F.magnitude b ≤ F.infinity := Nat.le_of_lt fb
    simp [h1, h2]
  rw [key]
  unfold FloatFormat.place floatValue
  generalize 2 ^ (F.expBits + F.fraction) = H at *
  by_cases h1 : a < H <;> by_cases h2 : b < H <;> simp only [h1, h2, if_true, if_false] at hma hmb ⊢ <;> rw [hma, hmb]
  · rw [patternValue_le_iff, Nat.cast_le]
  · constructor
    · intro h
      have e1 : a = 0 := by omega
      have e2 : b - H = 0 := by omega
      rw [e1, e2, patternValue_zero]; simp
    · intro h
      have p1 := patternValue_nonneg F a
      have p2 := patternValue_nonneg F (b - H)
      have e1 : ¬ 0 < a := fun hh => by
        have := (patternValue_lt_iff F 0 a).2 hh; rw [patternValue_zero] at this; linarith
      have e2 : ¬ 0 < b - H := fun hh => by
        have := (patternValue_lt_iff F 0 (b - H)).2 hh; rw [patternValue_zero] at this; linarith
      omega
  · constructor
    · intro _
      have p1 := patternValue_nonneg F b
      have p2 := patternValue_nonneg F (a - H)
      linarith
    · intro _; omega
  · rw [neg_le_neg_iff, neg_le_neg_iff, patternValue_le_iff, Nat.cast_le]

theorem float_inside (F : FloatFormat) (min max v : Nat) (hmin : IsPattern F min ∧ FiniteFloat F min) (hmax : IsPattern F max ∧ FiniteFloat F max)
    (hpat : IsPattern F v) (hin : (!(!(floatLe F v max && floatLe F min v))) = true) :
    FiniteFloat F v ∧ floatValue F min ≤ floatValue F v ∧ floatValue F v ≤ floatValue F max := by
  rw [Bool.not_not, Bool.and_eq_true] at hin
  have hfin : FiniteFloat F v := by
    have h6 := hin.1
    unfold floatLe at h6
    simp only [Bool.and_eq_true, decide_eq_true_eq] at h6
    have h7 := hin.2
    unfold floatLe at h7
    simp only [Bool.and_eq_true, decide_eq_true_eq] at h7
    have f1 : F.magnitude max < F.infinity := hmax.2
    have f2 : F.magnitude min < F.infinity := hmin.2
    show F.magnitude v < F.infinity
    have g1 := h6.2
    have g2 := h7.2
    unfold FloatFormat.place at g1 g2
    split at g1 <;> split at g1 <;> split at g2 <;> omega
  exact ⟨hfin, (floatLe_finite F min v hmin.1 hpat hmin.2 hfin).1 hin.2, (floatLe_finite F v max hpat hmax.1 hfin hmax.2).1 hin.1⟩

/-- C83 and C36: if `parse()` returns and a floating point option with a range validator of the same type has been given, its variable holds a number
within the bounds, which is not NaN. -/
theorem C83_C36_value_in_interval (env : Env W) (g g' : Prog W) (hg : Reachable env g) (h : parse env g = (.returned, g'))
    (hv : VarsDistinct (decls g)) (d : OptDecl W) (hd : d ∈ (decls g).options) (F : FloatFormat) (hf : 1 ≤ F.fraction) (min max : Nat)
    (hmin : IsPattern F min ∧ FiniteFloat F min) (hmax : IsPattern F max ∧ FiniteFloat F max)
    (hty : d.ty = F.elemTy) (hl : d.isList = false) (hval : d.validator = floatRange F min max)
    (hn : ∃ a ∈ free (decls g) false (before g'.parser.formatArguments), Names d a) :
    ∃ v, g'.store d.var = .one (.other v) ∧ IsPattern F v ∧ FiniteFloat F v ∧ floatValue F min ≤ floatValue F v ∧ floatValue F v ≤ floatValue F max := by
  obtain ⟨hi, hD, w1, s, hr, hs, _⟩ := reachable_returned hg h
  have hfa : g'.parser.formatArguments = g'.parser.formatArguments := rfl
  obtain ⟨u, u', hvalid⟩ := C33_given_option_validated env g g' hg h hv d hd hn
  obtain ⟨ph⟩ := phases env.ndebug hD _ g.store w1 s () hr
  rw [hs] at hvalid ⊢
  rcases option_final hD hv hd env.ndebug ph with ⟨_, _, h3⟩ | ⟨_, vs, vl, _, h2⟩
  · obtain ⟨a, ha, hna⟩ := hn
    exact absurd hna (h3 a ha)
  · unfold optValue at h2
    rw [hl] at h2
    simp only [Bool.false_eq_true, if_false] at h2
    cases ht : vs ++ vl with
    | nil => simp [ht] at h2
    | cons t ts =>
      cases ts with
      | cons t' ts => simp [ht] at h2
      | nil =>
        simp only [ht, Option.map_eq_some_iff] at h2
        obtain ⟨e, h3, h4⟩ := h2
        rw [readElem_iff, hty] at h3
        obtain ⟨v, rfl, h5⟩ := (C83_accepted_exactly F hf t e).1 h3
        rw [hval, ← h4] at hvalid
        have hpat := denotes_isPattern F hf t v h5
        exact ⟨v, h4.symm, hpat, float_inside F min max v hmin hmax hpat (Prod.mk.inj hvalid).1⟩

theorem readListElems_mem (nd : Bool) (ty : ElemTy) (ts : List Str) (es : List Elem) (h : readListElems nd ty ts = .ok es) :
    ∀ e ∈ es, ∃ t ∈ ts, Denotes ty t e := by
  induction ts generalizing es with
  | nil => simp [readListElems] at h; simp [h]
  | cons t ts ih =>
    simp only [readListElems] at h
    cases h1 : readListElem nd ty t with
    | error e => simp [h1] at h
    | ok es1 =>
      cases h2 : readListElems nd ty ts with
      | error e => simp [h1, h2] at h
      | ok es2 =>
        simp [h1, h2] at h
        subst h
        intro e he
        rcases List.mem_append.1 he with he | he
        · refine ⟨t, .head _, ?_⟩
          unfold readListElem at h1
          cases hp : parseElem ty t with
          | error e => simp [hp] at h1
          | ok p =>
            obtain ⟨res, written⟩ := p
            simp only [hp] at h1
            split at h1
            · exact absurd h1 (by simp)
            · injection h1 with h1
              split at h1
              · rename_i hres
                subst hres
                obtain ⟨e', rfl, he'⟩ := parseElem_success ty t written hp
                rw [← h1] at he
                simp only [Option.getD_some, List.mem_singleton] at he
                subst he
                exact (readElem_iff ty t e).1 he'
              · rw [← h1] at he
                exact absurd he (by simp)
        · obtain ⟨t', ht', hd⟩ := ih es2 h2 e he
          exact ⟨t', .tail _ ht', hd⟩

/-- C83 and C36, for lists: all numbers that the list then holds lie within the bounds. -/
theorem C83_C36_values_in_interval (env : Env W) (g g' : Prog W) (hg : Reachable env g) (h : parse env g = (.returned, g'))
    (hv : VarsDistinct (decls g)) (d : OptDecl W) (hd : d ∈ (decls g).options) (F : FloatFormat) (hf : 1 ≤ F.fraction) (min max : Nat)
    (hmin : IsPattern F min ∧ FiniteFloat F min) (hmax : IsPattern F max ∧ FiniteFloat F max)
    (hty : d.ty = F.elemTy) (hl : d.isList = true) (hval : d.validator = floatRange F min max)
    (hn : ∃ a ∈ free (decls g) false (before g'.parser.formatArguments), Names d a) :
    ∃ vs : List Nat, g'.store d.var = .many (vs.map .other) ∧ ∀ v ∈ vs, IsPattern F v ∧ FiniteFloat F v ∧
      floatValue F min ≤ floatValue F v ∧ floatValue F v ≤ floatValue F max := by
  obtain ⟨hi, hD, w1, s, hr, hs, _⟩ := reachable_returned hg h
  obtain ⟨u, u', hvalid⟩ := C33_given_option_validated env g g' hg h hv d hd hn
  obtain ⟨ph⟩ := phases env.ndebug hD _ g.store w1 s () hr
  rw [hs] at hvalid ⊢
  rcases option_final hD hv hd env.ndebug ph with ⟨_, _, h3⟩ | ⟨_, ws, wl, _, h2⟩
  · obtain ⟨a, ha, hna⟩ := hn
    exact absurd hna (h3 a ha)
  · unfold optValue at h2
    rw [if_pos hl] at h2
    cases h1 : readListElems env.ndebug d.ty ws with
    | error e => simp [h1] at h2
    | ok es1 =>
      cases h4 : readListElems env.ndebug d.ty wl with
      | error e => simp [h1, h4] at h2
      | ok es2 =>
        simp only [h1, h4] at h2
        have hall : ∀ e ∈ (if wl = [] then es1 else es2), ∃ v, e = .other v ∧ IsPattern F v := by
          intro e he
          have : ∃ t, Denotes F.elemTy t e := by
            rw [← hty]
            split at he
            · obtain ⟨t, _, ht⟩ := readListElems_mem _ _ _ _ h1 e he
              exact ⟨t, ht⟩
            · obtain ⟨t, _, ht⟩ := readListElems_mem _ _ _ _ h4 e he
              exact ⟨t, ht⟩
          obtain ⟨t, ht⟩ := this
          obtain ⟨v, h5, h6⟩ := (C83_accepted_exactly F hf t e).1 ht
          exact ⟨v, h5, denotes_isPattern F hf t v h6⟩
        generalize (if wl = [] then es1 else es2) = es at h2 hall
        have hst : .many es = s.store d.var := Option.some.inj h2
        obtain ⟨vs, rfl⟩ : ∃ vs : List Nat, es = vs.map .other := by
          clear h2 hst
          induction es with
          | nil => exact ⟨[], rfl⟩
          | cons e es ih =>
            obtain ⟨v, rfl, _⟩ := hall e (.head _)
            obtain ⟨vs, rfl⟩ := ih fun e he => hall e (.tail _ he)
            exact ⟨v :: vs, rfl⟩
        refine ⟨vs, hst.symm, fun v hvm => ?_⟩
        obtain ⟨v', h5, hpat⟩ := hall (.other v) (List.mem_map.2 ⟨v, hvm, rfl⟩)
        injection h5 with h5
        subst h5
        rw [hval, ← hst] at hvalid
        have hin := (Prod.mk.inj hvalid).1
        have hin' := List.all_eq_true.1 hin (.other v) (List.mem_map.2 ⟨v, hvm, rfl⟩)
        exact ⟨hpat, float_inside F min max v hmin hmax hpat hin'⟩

/-! ### Examples -/

/-- `0.1` as a `double` and as a `float`, spelled in several ways. -/
example : floatConv binary64 "0.1".toList = .ok (.other 0x3FB999999999999A) ∧ floatConv binary64 "1e-1".toList = .ok (.other 0x3FB999999999999A) ∧
    floatConv binary64 "-.10E+0".toList = .ok (.other 0xBFB999999999999A) ∧ floatConv binary32 "0.1".toList = .ok (.other 0x3DCCCCCD) := by
  decide +kernel

/-- The largest `double`, the first number that is out of range, the smallest `double`, and half of it. -/
example : floatConv binary64 "1.7976931348623157e308".toList = .ok (.other 0x7FEFFFFFFFFFFFFF) ∧ floatConv binary64 "1.7976931348623159e308".toList = .overflow ∧
    floatConv binary64 "5e-324".toList = .ok (.other 1) ∧ floatConv binary64 "2e-324".toList = .overflow ∧
    floatConv binary64 "INF".toList = .ok (.other 0x7FF0000000000000) ∧ floatConv binary64 "-nan(ind)".toList = .ok (.other 0xFFF8000000000000) := by
  decide +kernel

/-- Texts that are no numbers. -/
example : ∀ t ∈ ["", "+1", ".", "1e", "1e+", "0x10", " 1", "1 ", "1,5", "e5", "--1", "infinit", "nan("].map String.toList,
    ¬ ∃ v, DenotesFloat binary64 t v := by
  intro t ht
  rintro ⟨v, hv⟩
  have h1 : floatConv binary64 t = .ok (.other v) := (C83_accepted_exactly binary64 (by decide) t _).2 ⟨v, rfl, hv⟩
  have h2 : ∀ t ∈ ["", "+1", ".", "1e", "1e+", "0x10", " 1", "1 ", "1,5", "e5", "--1", "infinit", "nan("].map String.toList,
      (match floatConv binary64 t with | .ok _ => false | _ => true) = true := by decide +kernel
  have h3 := h2 t ht
  rw [h1] at h3
  cases h3

/-- A decimal number and what the theorems say about it. -/
def exDecimal : DecimalText := ⟨true, "12".toList, some "50".toList, some ('e', some '-', "1".toList)⟩

theorem exDecimal_ok : exDecimal.Ok :=
  ⟨by decide, by decide, Or.inl (by decide), by
    rintro c sign ds h
    simp only [exDecimal, Option.some.injEq, Prod.mk.injEq] at h
    obtain ⟨rfl, rfl, rfl⟩ := h
    exact ⟨Or.inl rfl, by simp, by decide⟩⟩

example : exDecimal.render = "-12.50e-1".toList ∧ DenotesFloat binary64 exDecimal.render 0xBFF4000000000000 ∧
    floatValue binary64 0xBFF4000000000000 = -(5 / 4) := by
  have h : floatConv binary64 exDecimal.render = .ok (.other 0xBFF4000000000000) := by decide +kernel
  refine ⟨by decide +kernel, ?_, ?_⟩
  · obtain ⟨v, h1, h2⟩ := (C83_accepted_exactly binary64 (by decide) _ _).1 h
    injection h1 with h1
    rw [h1]
    exact h2
  · decide +kernel

example : ∃ v, DenotesFloat binary32 "-16777216".toList v ∧ floatValue binary32 v = -16777216 := by
  obtain ⟨v, h1, h2⟩ := C83_integers_exact binary32 ieee_binary32 (by decide) true "16777216".toList (by decide) (by decide)
  refine ⟨v, h1, h2.trans ?_⟩
  have : decValue "16777216".toList = 16777216 := by decide
  rw [this]
  norm_num

/-- A program with an option of type `double` that must lie in [0, 1]. -/
def exFloatCalls : List (Call Unit) :=
  [.addOption { short := 'x' } 0 false binary64.elemTy (floatRange binary64 0 0x3FF0000000000000)]

def exFloatRun : Prog Unit := exRun exFloatCalls (["-x", "0.25"].map String.toList)

def exFloatDecl : OptDecl Unit := ⟨'x', [], 0, false, binary64.elemTy, false, floatRange binary64 0 0x3FF0000000000000⟩

theorem exFloat_decls : decls exFloatRun = declsOf (exFloatCalls.filterMap Call.entry?) := exRun_decls _ _ (by decide +kernel)

theorem exFloat_mem : exFloatDecl ∈ (decls exFloatRun).options := by
  rw [exFloat_decls]
  exact .head _

theorem exFloat_returned : parse exEnv exFloatRun = (.returned, (parse exEnv exFloatRun).2) := returned_pair (by decide +kernel)

example : ∃ v, DenotesFloat binary64 "0.25".toList v ∧ (parse exEnv exFloatRun).2.store exFloatDecl.var = .one (.other v) :=
  C83_option_holds_nearest exEnv exFloatRun (parse exEnv exFloatRun).2 (exRun_reachable _ _) [.short 'x' .separate "0.25".toList] none
    (by decide +kernel) (by decide +kernel) (Or.inl rfl) (by decide +kernel) exFloat_returned exFloatDecl exFloat_mem binary64 (by decide) rfl rfl
    (.short 'x' .separate "0.25".toList) (.head _) "0.25".toList (by decide)

example : ∃ v, (parse exEnv exFloatRun).2.store exFloatDecl.var = .one (.other v) ∧ IsPattern binary64 v ∧ FiniteFloat binary64 v ∧
    floatValue binary64 0 ≤ floatValue binary64 v ∧ floatValue binary64 v ≤ floatValue binary64 0x3FF0000000000000 :=
  C83_C36_value_in_interval exEnv exFloatRun (parse exEnv exFloatRun).2 (exRun_reachable _ _) exFloat_returned (by decide +kernel) exFloatDecl
    exFloat_mem binary64 (by decide) 0 0x3FF0000000000000 ⟨by unfold IsPattern; decide +kernel, by unfold FiniteFloat; decide +kernel⟩
    ⟨by unfold IsPattern; decide +kernel, by unfold FiniteFloat; decide +kernel⟩ rfl rfl rfl
    ⟨"-x".toList, by decide +kernel, by decide +kernel⟩

/-- Values outside of the interval and NaN are rejected. -/
example : ∀ t ∈ ["1.5", "-0.25", "nan", "inf"].map String.toList,
    (parse exEnv (exRun exFloatCalls ["-x".toList, t])).1 = .threw .validationError := by decide +kernel

/-- A list option with the same bounds. -/
def exFloatListCalls : List (Call Unit) :=
  [.addOption { short := 'x' } 0 true binary64.elemTy (floatRange binary64 0 0x3FF0000000000000)]

def exFloatListRun : Prog Unit := exRun exFloatListCalls (["-x", "0.25", "-x", "1"].map String.toList)

def exFloatListDecl : OptDecl Unit := ⟨'x', [], 0, true, binary64.elemTy, false, floatRange binary64 0 0x3FF0000000000000⟩

theorem exFloatList_mem : exFloatListDecl ∈ (decls exFloatListRun).options := by
  rw [show decls exFloatListRun = declsOf (exFloatListCalls.filterMap Call.entry?) from exRun_decls _ _ (by decide +kernel)]
  exact .head _

theorem exFloatList_returned : parse exEnv exFloatListRun = (.returned, (parse exEnv exFloatListRun).2) := returned_pair (by decide +kernel)

example : ∃ vs : List Nat, (parse exEnv exFloatListRun).2.store exFloatListDecl.var = .many (vs.map .other) ∧ ∀ v ∈ vs, IsPattern binary64 v ∧
    FiniteFloat binary64 v ∧ floatValue binary64 0 ≤ floatValue binary64 v ∧ floatValue binary64 v ≤ floatValue binary64 0x3FF0000000000000 :=
  C83_C36_values_in_interval exEnv exFloatListRun (parse exEnv exFloatListRun).2 (exRun_reachable _ _) exFloatList_returned (by decide +kernel)
    exFloatListDecl exFloatList_mem binary64 (by decide) 0 0x3FF0000000000000 ⟨by unfold IsPattern; decide +kernel, by unfold FiniteFloat; decide +kernel⟩
    ⟨by unfold IsPattern; decide +kernel, by unfold FiniteFloat; decide +kernel⟩ rfl rfl rfl ⟨"-x".toList, by decide +kernel, by decide +kernel⟩

example : (parse exEnv (exRun exFloatListCalls (["-x", "0.25", "-x", "2"].map String.toList))).1 = .threw .validationError := by decide +kernel

example : ∃ vs : List Nat, (parse exEnv exFloatListRun).2.store exFloatListDecl.var = .many (vs.map .other) ∧
    List.Forall₂ (DenotesFloat binary64) ["0.25".toList, "1".toList] vs :=
  C83_list_holds_nearest exEnv exFloatListRun (parse exEnv exFloatListRun).2 (exRun_reachable _ _)
    [.short 'x' .separate "0.25".toList, .short 'x' .separate "1".toList] none
    (by decide +kernel) (by decide +kernel) (Or.inl rfl) (by decide +kernel) exFloatList_returned exFloatListDecl exFloatList_mem binary64 (by decide)
    rfl rfl (by decide)

end Sharg
