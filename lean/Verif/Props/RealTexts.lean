import Verif.Props.HelpTexts
import Verif.Props.Version
import Mathlib.Tactic.Linarith
import Mathlib.Tactic.FieldSimp
import Mathlib.Tactic.NormNum
import Mathlib.Tactic.Ring
import Mathlib.Algebra.Order.Field.Rat

/-!
# Property C65: texts of ranges of floating point numbers
-/

namespace Sharg

open Spec

variable {W : Type}

namespace Spec

/-- `t` is a decimal number with six digits behind the point, namely `z` millionths. -/
def Millionths (t : Str) (z : Int) : Prop :=
  ∃ a b, IsDecimal a ∧ IsDecimal b ∧ b.length = 6 ∧
    (t = a ++ '.' :: b ∧ z = decValue a * 1000000 + decValue b ∨ t = '-' :: (a ++ '.' :: b) ∧ z = -(decValue a * 1000000 + decValue b : Int))

end Spec

theorem toDigits_length (k : Nat) : ∀ n, n < 10 ^ (k + 1) → (Nat.toDigits 10 n).length ≤ k + 1 := by
  induction k with
  | zero =>
    intro n h
    rw [Nat.toDigits_eq_if (by decide), if_pos (by simpa using h)]
    simp
  | succ k ih =>
    intro n h
    rw [Nat.toDigits_eq_if (by decide)]
    split
    · simp
    · rw [List.length_append]
      have := ih (n / 10) (by rw [Nat.pow_succ] at h; omega)
      simp only [List.length_cons, List.length_nil]
      omega

theorem decValue_zeros (k : Nat) (s : Str) : decValue (List.replicate k '0' ++ s) = decValue s := by
  induction k with
  | zero => rfl
  | succ k ih =>
    show digits.idxOf '0' * _ + decValue (List.replicate k '0' ++ s) = _
    rw [ih, show digits.idxOf '0' = 0 by decide]
    omega

theorem split_first {c : Char} : ∀ {a b a' b' : Str}, c ∉ a → c ∉ a' → a ++ c :: b = a' ++ c :: b' → a = a' ∧ b = b'
  | [], _, [], _, _, _, h => ⟨rfl, (List.cons.inj h).2⟩
  | [], _, y :: a', _, _, h', h => absurd ((List.cons.inj h).1 ▸ List.mem_cons_self : c ∈ y :: a') h'
  | x :: a, _, [], _, h', _, h => absurd ((List.cons.inj h).1 ▸ List.mem_cons_self : c ∈ x :: a) h'
  | x :: a, b, y :: a', b', h1, h2, h => by
    obtain ⟨e1, e2⟩ := split_first (a := a) (a' := a') (fun m => h1 (List.mem_cons_of_mem _ m)) (fun m => h2 (List.mem_cons_of_mem _ m))
      (List.cons.inj h).2
    exact ⟨by rw [(List.cons.inj h).1, e1], e2⟩

theorem millionths_unique {t : Str} {y z : Int} (h1 : Millionths t y) (h2 : Millionths t z) : y = z := by
  have no : ∀ {a : Str}, IsDecimal a → '.' ∉ a := fun h hm => absurd (h.2 _ hm) (by decide)
  have key : ∀ {a b c d : Str}, IsDecimal a → IsDecimal c → a ++ '.' :: b = c ++ '.' :: d → a = c ∧ b = d :=
    fun ha hc h => split_first (no ha) (no hc) h
  have nm : ∀ {a b c d : Str}, IsDecimal a → a ++ '.' :: b = '-' :: (c ++ '.' :: d) → False := by
    intro a b c d ha h
    cases a with
    | nil => exact ha.1 rfl
    | cons x a => exact absurd (ha.2 x List.mem_cons_self) (by rw [(List.cons.inj h).1]; decide)
  obtain ⟨a, b, ha, hb, -, h1⟩ := h1
  obtain ⟨c, d, hc, hd, -, h2⟩ := h2
  rcases h1 with ⟨rfl, rfl⟩ | ⟨rfl, rfl⟩ <;> rcases h2 with ⟨h, rfl⟩ | ⟨h, rfl⟩
  · obtain ⟨rfl, rfl⟩ := key ha hc h; rfl
  · exact (nm ha h).elim
  · exact (nm hc h.symm).elim
  · obtain ⟨rfl, rfl⟩ := key ha hc (List.cons.inj h).2; rfl

/-- C65: the text of a floating point number is the number, rounded to the nearest millionth. -/
theorem C65_real_text (q : Rat) : ∃ z, Millionths (toStringNum (.real q)) z ∧ |q - z / 1000000| ≤ 1 / 2000000 := by
  have hden : 0 < q.den := q.den_pos
  obtain ⟨n, hn⟩ : ∃ n, n = (2 * q.num.natAbs * 1000000 + q.den) / (2 * q.den) := ⟨_, rfl⟩
  have hlo : n * (2 * q.den) ≤ 2 * q.num.natAbs * 1000000 + q.den := by rw [hn]; exact Nat.div_mul_le_self _ _
  have hhi : 2 * q.num.natAbs * 1000000 + q.den < (n + 1) * (2 * q.den) := by
    rw [hn]; exact Nat.lt_mul_of_div_lt (Nat.lt_succ_self _) (by omega)
  have hf := showNat_value (n % 1000000)
  have hlen : (showNat (n % 1000000)).length ≤ 6 := toDigits_length 5 _ (Nat.mod_lt _ (by decide))
  have hfrac : IsDecimal (List.replicate (6 - (showNat (n % 1000000)).length) '0' ++ showNat (n % 1000000)) := by
    refine ⟨fun h => hf.1.1 (List.append_eq_nil_iff.1 h).2, fun c hc => ?_⟩
    rcases List.mem_append.1 hc with hc | hc
    · rw [List.eq_of_mem_replicate hc]; decide
    · exact hf.1.2 c hc
  have hval : (decValue (showNat (n / 1000000)) : Int) * 1000000 +
      decValue (List.replicate (6 - (showNat (n % 1000000)).length) '0' ++ showNat (n % 1000000)) = n := by
    rw [decValue_zeros, hf.2, (showNat_value _).2]
    omega
  have habs : |(q.num.natAbs : Rat) / q.den - n / 1000000| ≤ 1 / 2000000 := by
    have hd : (0 : Rat) < q.den := by exact_mod_cast hden
    have hlo' : (n : Rat) * (2 * q.den) ≤ 2 * q.num.natAbs * 1000000 + q.den := by exact_mod_cast hlo
    have hhi' : 2 * (q.num.natAbs : Rat) * 1000000 + q.den < (n + 1) * (2 * q.den) := by exact_mod_cast hhi
    rw [abs_le]
    constructor
    · rw [div_sub_div _ _ hd.ne' (by norm_num), le_div_iff₀ (by positivity)]
      linarith
    · rw [div_sub_div _ _ hd.ne' (by norm_num), div_le_iff₀ (by positivity)]
      linarith
  have htext : toStringNum (.real q) = (if q < 0 then "-".toList else []) ++ showNat (n / 1000000) ++ ".".toList ++
      List.replicate (6 - (showNat (n % 1000000)).length) '0' ++ showNat (n % 1000000) := by rw [hn]; rfl
  by_cases hq : q < 0
  · refine ⟨-n, ⟨_, _, (showNat_value (n / 1000000)).1, hfrac, by simp; omega, Or.inr ⟨?_, by rw [hval]⟩⟩, ?_⟩
    · rw [htext, if_pos hq]
      simp only [List.append_assoc]
      rfl
    · have : q = -((q.num.natAbs : Rat) / q.den) := by
        conv_lhs => rw [← Rat.num_div_den q]
        have h1 : q.num < 0 := Rat.num_neg.2 hq
        have h2 : (q.num : Rat) = -(q.num.natAbs : Rat) := by
          have : (q.num : Int) = -(q.num.natAbs : Int) := by omega
          exact_mod_cast congrArg (Int.cast : Int → Rat) this
        rw [h2, neg_div]
      rw [this, show -((q.num.natAbs : Rat) / q.den) - ((-n : Int) : Rat) / 1000000 = -((q.num.natAbs : Rat) / q.den - n / 1000000) by
        push_cast; ring, abs_neg]
      exact habs
  · refine ⟨n, ⟨_, _, (showNat_value (n / 1000000)).1, hfrac, by simp; omega, Or.inl ⟨?_, by rw [hval]⟩⟩, ?_⟩
    · rw [htext, if_neg hq]
      simp only [List.append_assoc, List.nil_append]
      rfl
    · have : q = (q.num.natAbs : Rat) / q.den := by
        conv_lhs => rw [← Rat.num_div_den q]
        have h1 : 0 ≤ q.num := Rat.num_nonneg.2 (not_lt.1 hq)
        have h2 : (q.num : Rat) = (q.num.natAbs : Rat) := by
          have : (q.num : Int) = ((q.num.natAbs : Nat) : Int) := by omega
          exact (congrArg (Int.cast : Int → Rat) this).trans (Int.cast_natCast _)
        rw [h2]
      rw [this, Int.cast_natCast]
      exact habs

theorem millionths_no_comma {t : Str} {z : Int} (h : Millionths t z) : ',' ∉ t ∧ ']' ∉ t := by
  obtain ⟨a, b, ha, hb, -, h⟩ := h
  have no : ∀ {a : Str} {c : Char}, c ∉ digits → IsDecimal a → c ∉ a := fun hc h hm => absurd (h.2 _ hm) hc
  have h1 := no (c := ',') (by decide) ha
  have h2 := no (c := ',') (by decide) hb
  have h3 := no (c := ']') (by decide) ha
  have h4 := no (c := ']') (by decide) hb
  rcases h with ⟨rfl, -⟩ | ⟨rfl, -⟩ <;> simp [h1, h2, h3, h4]

/-- C65, floating point numbers (partial): the text determines the bounds up to a millionth. Missing: the rest, see `C65_real_range_not_told`. -/
theorem C65_real_range_partial (a b c d : Rat)
    (h : (arithmeticRange (W := W) .real toStringNum (.real a) (.real b)).help =
      (arithmeticRange (W := W) .real toStringNum (.real c) (.real d)).help) : |a - c| ≤ 1 / 1000000 ∧ |b - d| ≤ 1 / 1000000 := by
  simp only [arithmeticRange, List.append_assoc] at h
  have h := List.append_cancel_left (List.append_cancel_left h)
  obtain ⟨za, ha, ha'⟩ := C65_real_text a
  obtain ⟨zb, hb, hb'⟩ := C65_real_text b
  obtain ⟨zc, hc, hc'⟩ := C65_real_text c
  obtain ⟨zd, hd, hd'⟩ := C65_real_text d
  obtain ⟨e1, h⟩ := split_first (millionths_no_comma ha).1 (millionths_no_comma hc).1 h
  obtain ⟨e2, -⟩ := split_first (millionths_no_comma hb).2 (millionths_no_comma hd).2 h
  rw [← e1] at hc
  rw [← e2] at hd
  have near : ∀ {x y : Rat} {z : Int}, |x - z / 1000000| ≤ 1 / 2000000 → |y - z / 1000000| ≤ 1 / 2000000 → |x - y| ≤ 1 / 1000000 := by
    intro x y z hx hy
    rw [abs_le] at *
    constructor <;> linarith [hx.1, hx.2, hy.1, hy.2]
  rw [← millionths_unique ha hc] at hc'
  rw [← millionths_unique hb hd] at hd'
  exact ⟨near ha' hc', near hb' hd'⟩

/-- C65: the wording. The text of a list is the values between brackets, with a comma and a blank in between. -/
theorem C65_wording (a b : Int) (l : List Str) (p : Str) (f : Str → Bool) (ndebug : Bool) :
    let listed := "[".toList ++ List.intercalate ", ".toList l ++ "]".toList
    let extensions := if l = [] then [] else " Valid file extensions are: ".toList ++ listed ++ ".".toList
    (∀ lo hi, (arithmeticRange (W := W) (.integer lo hi) toStringNum (.int a) (.int b)).help =
      "Value must be in range [".toList ++ showInt a ++ ",".toList ++ showInt b ++ "].".toList) ∧
    valueListMessage l = "Value must be one of ".toList ++ listed ++ ".".toList ∧
    (regexValidator (W := W) p f).help = "Value must match the pattern '".toList ++ p ++ "'.".toList ∧
    inputFileMessage l = "The input file must exist and read permissions must be granted.".toList ++ extensions ∧
    outputFileMessage .createNew l =
      "The output file must not exist already and write permissions must be granted.".toList ++ extensions ∧
    outputFileMessage .openOrCreate l = "Write permissions must be granted.".toList ++ extensions ∧
    inputDirectory.help = "An existing, readable path for the input directory.".toList ∧
    (outputDirectory ndebug).help = "A valid path for the output directory.".toList := by
  intro listed extensions
  have hl : showList l = listed := by
    have key : ∀ (l : List Str) (x : Str), List.intercalate ", ".toList (x :: l) = x ++ l.flatMap fun y => [',', ' '] ++ y := by
      intro l
      induction l with
      | nil => intro x; simp [List.intercalate]
      | cons y l ih =>
        intro x
        rw [List.flatMap_cons, List.append_assoc, ← ih y]
        simp [List.intercalate, List.intersperse]
    cases l with
    | nil => rfl
    | cons x l =>
      show ['['] ++ x ++ (l.flatMap fun y => [',', ' '] ++ y) ++ [']'] = "[".toList ++ List.intercalate ", ".toList (x :: l) ++ "]".toList
      rw [key l x]
      simp only [List.append_assoc]
      rfl
  have he : ∀ t, withExtensions t l = t ++ extensions := by
    intro t
    unfold withExtensions extensionsMessage
    rw [hl]
    cases l with
    | nil => simp [extensions]
    | cons x l =>
      simp only [extensions, List.isEmpty_cons, Bool.false_eq_true, if_false, List.append_assoc]
      rfl
  refine ⟨fun lo hi => ?_, ?_, rfl, he _, he _, he _, rfl, rfl⟩
  · simp only [arithmeticRange, List.append_assoc]
    rfl
  · unfold valueListMessage
    rw [hl]

example : toStringNum (.real (-3 / 8)) = "-0.375000".toList ∧ toStringNum (.real (22 / 7)) = "3.142857".toList ∧
    Millionths "-0.375000".toList (-375000) := by
  refine ⟨by decide +kernel, by decide +kernel, "0".toList, "375000".toList, by decide, by decide, by decide, Or.inr ⟨by decide, by decide⟩⟩

example : outputFileMessage .createNew ["fa".toList, "sam".toList] =
    ("The output file must not exist already and write permissions must be granted. " ++ "Valid file extensions are: [fa, sam].").toList := by
  decide +kernel

end Sharg
