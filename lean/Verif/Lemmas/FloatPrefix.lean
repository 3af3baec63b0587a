import Verif.Lemmas.FloatText
import Verif.Lemmas.FloatNumbers
import Verif.Spec.TimeStamp

/-!
# Lemmas: the number in front of a text
-/

namespace Sharg

open Spec

/-! ### The scan goes as far as possible -/

/-- What an exponent has to look like. -/
def ExpOk (e : Option (Char × Option Char × Str)) : Prop :=
  ∀ c sign ds, e = some (c, sign, ds) → (c = 'e' ∨ c = 'E') ∧ (∀ x ∈ sign, x = '+' ∨ x = '-') ∧ IsDecimal ds

def expVal : Option (Char × Option Char × Str) → Int
  | none => 0
  | some (_, sign, ds) => if sign = some '-' then -(decValue ds : Int) else decValue ds

theorem exponent_expVal (d : DecimalText) : d.exponent = expVal d.exp := by
  unfold DecimalText.exponent expVal
  rfl

theorem takeWhile_ne_nil (ds r : Str) (h : IsDecimal ds) : (ds ++ r).takeWhile isDigit ≠ [] := by
  cases ds with
  | nil => exact absurd rfl h.1
  | cons c l =>
    rw [List.cons_append, List.takeWhile_cons_of_pos ((mem_digits_iff c).1 (h.2 c (by simp)))]
    simp

theorem dropWhile_digits_append (a r : Str) (h : ∀ c ∈ a, c ∈ digits) : (a ++ r).dropWhile isDigit = r.dropWhile isDigit := by
  induction a with
  | nil => rfl
  | cons c a ih =>
    rw [List.cons_append, List.dropWhile_cons_of_pos ((mem_digits_iff c).1 (h c (by simp)))]
    exact ih fun d hd => h d (by simp [hd])

theorem dropWhile_le (r : Str) : (r.dropWhile isDigit).length ≤ r.length := (List.dropWhile_sublist _).length_le

theorem scanExponent_le (s : Str) : (scanExponent s).2.length ≤ s.length := by
  obtain ⟨e, h, -⟩ := scanExponent_inv s
  have := congrArg List.length h
  rw [List.length_append] at this
  omega

theorem digit_no_sign {ds r : Str} (h : IsDecimal ds) : (ds ++ r).head? ≠ some '-' ∧ (ds ++ r).head? ≠ some '+' := by
  cases ds with
  | nil => exact absurd rfl h.1
  | cons c l =>
    have hc := h.2 c (by simp)
    constructor
    · intro he
      simp only [List.cons_append, List.head?_cons, Option.some.injEq] at he
      subst he
      exact absurd hc (by decide)
    · intro he
      simp only [List.cons_append, List.head?_cons, Option.some.injEq] at he
      subst he
      exact absurd hc (by decide)

/-- An exponent in front is read. -/
theorem scanExponent_far (e : Option (Char × Option Char × Str)) (he : ExpOk e) (r : Str) : (scanExponent (expText e ++ r)).2.length ≤ r.length := by
  cases e with
  | none => exact scanExponent_le r
  | some x =>
    obtain ⟨c, sign, ds⟩ := x
    obtain ⟨hc, hs, hd⟩ := he c sign ds rfl
    cases sign with
    | none =>
      show (scanExponent (c :: (ds ++ r))).2.length ≤ _
      rw [scanExponent_plain c _ hc (digit_no_sign hd).1 (digit_no_sign hd).2, if_neg (takeWhile_ne_nil ds r hd)]
      dsimp only
      rw [dropWhile_digits_append ds r hd.2]
      exact dropWhile_le r
    | some x =>
      rcases hs x rfl with rfl | rfl
      · show (scanExponent (c :: '+' :: (ds ++ r))).2.length ≤ _
        rw [scanExponent_plus c _ hc, if_neg (takeWhile_ne_nil ds r hd)]
        dsimp only
        rw [dropWhile_digits_append ds r hd.2]
        exact dropWhile_le r
      · show (scanExponent (c :: '-' :: (ds ++ r))).2.length ≤ _
        rw [scanExponent_minus c _ hc, if_neg (takeWhile_ne_nil ds r hd)]
        dsimp only
        rw [dropWhile_digits_append ds r hd.2]
        exact dropWhile_le r

/-- The exponent that is read, and its value. -/
theorem scanExponent_split (s : Str) : ∃ e, ExpOk e ∧ s = expText e ++ (scanExponent s).2 ∧ (scanExponent s).1 = expVal e := by
  have triv : ∀ s : Str, ∃ e, ExpOk e ∧ s = expText e ++ s ∧ (0 : Int) = expVal e := fun s => ⟨none, (fun _ _ _ h => by cases h), rfl, rfl⟩
  have some' : ∀ (c : Char) (sign : Option Char) (body : Str) (k : Int), (c = 'e' ∨ c = 'E') → (∀ x ∈ sign, x = '+' ∨ x = '-') →
      body.takeWhile isDigit ≠ [] → k = (if sign = some '-' then -(digitsVal (body.takeWhile isDigit) : Int) else digitsVal (body.takeWhile isDigit)) →
      ∃ e, ExpOk e ∧ c :: (sign.elim [] fun c => [c]) ++ body = expText e ++ body.dropWhile isDigit ∧ k = expVal e := by
    intro c sign body k hc hs hb hk
    refine ⟨some (c, sign, body.takeWhile isDigit), ?_, ?_, ?_⟩
    · rintro c' sign' ds hh
      simp only [Option.some.injEq, Prod.mk.injEq] at hh
      obtain ⟨rfl, rfl, rfl⟩ := hh
      exact ⟨hc, hs, hb, takeWhile_digits_mem body⟩
    · show _ = (c :: (sign.elim [] fun c => [c]) ++ body.takeWhile isDigit) ++ body.dropWhile isDigit
      rw [List.append_assoc, List.takeWhile_append_dropWhile]
    · rw [hk, digitsVal_eq _ (takeWhile_digits_mem body)]
      rfl
  cases s with
  | nil => exact triv []
  | cons c s =>
    by_cases hc : c = 'e' ∨ c = 'E'
    · by_cases h1 : s.head? = some '-'
      · obtain ⟨l, rfl⟩ : ∃ l, s = '-' :: l := by
          cases s with
          | nil => cases h1
          | cons a l => simp only [List.head?_cons, Option.some.injEq] at h1; subst h1; exact ⟨l, rfl⟩
        rw [scanExponent_minus c l hc]
        by_cases h3 : l.takeWhile isDigit = []
        · rw [if_pos h3]; exact triv _
        · rw [if_neg h3]; exact some' c (some '-') l _ hc (by simp) h3 (if_pos rfl).symm
      · by_cases h2 : s.head? = some '+'
        · obtain ⟨l, rfl⟩ : ∃ l, s = '+' :: l := by
            cases s with
            | nil => cases h2
            | cons a l => simp only [List.head?_cons, Option.some.injEq] at h2; subst h2; exact ⟨l, rfl⟩
          rw [scanExponent_plus c l hc]
          by_cases h3 : l.takeWhile isDigit = []
          · rw [if_pos h3]; exact triv _
          · rw [if_neg h3]; exact some' c (some '+') l _ hc (by simp) h3 (if_neg (by decide)).symm
        · rw [scanExponent_plain c s hc h1 h2]
          by_cases h3 : s.takeWhile isDigit = []
          · rw [if_pos h3]; exact triv _
          · rw [if_neg h3]; exact some' c none s _ hc (by simp) h3 (if_neg (by decide)).symm
    · have h : scanExponent (c :: s) = (0, c :: s) := if_neg hc
      rw [h]
      exact triv _

/-- What is left behind the number. -/
def scanRest (s : Str) : Str := (scanExponent (scanFraction (s.dropWhile isDigit)).2).2

theorem scanFraction_le (s : Str) : (scanFraction s).2.length ≤ s.length := by
  obtain ⟨f, h, -, -⟩ := scanFraction_inv s
  have := congrArg List.length h
  rw [List.length_append] at this
  omega

theorem scanFraction_noDot (s : Str) (h : s.head? ≠ some '.') : scanFraction s = ([], s) := by
  unfold scanFraction
  split
  · exact absurd rfl h
  · rfl

theorem expText_head (c : Char) (sign : Option Char) (ds r : Str) : (expText (some (c, sign, ds)) ++ r).head? = some c := rfl

/-- A number in front is read, and nothing shorter. -/
theorem scan_far (d : DecimalText) (h : d.Ok) (r : Str) :
    ¬ ((decBody d ++ r).takeWhile isDigit = [] ∧ (scanFraction ((decBody d ++ r).dropWhile isDigit)).1 = []) ∧
    (scanRest (decBody d ++ r)).length ≤ r.length := by
  have hb : decBody d ++ r = d.int ++ ((d.frac.elim [] fun f => '.' :: f) ++ (expText d.exp ++ r)) := by
    show (d.int ++ (d.frac.elim [] fun f => '.' :: f) ++ expText d.exp) ++ r = _
    simp only [List.append_assoc]
  have hexp : ExpOk d.exp := h.exp
  rw [hb]
  cases hf : d.frac with
  | some f =>
    have hff : ∀ c ∈ f, c ∈ digits := by
      have := h.frac
      unfold DecimalText.fracDigits at this
      rw [hf] at this
      exact this
    have e1 : (d.int ++ ((some f).elim [] (fun f => '.' :: f) ++ (expText d.exp ++ r))).dropWhile isDigit = '.' :: (f ++ (expText d.exp ++ r)) :=
      (split_digits d.int _ h.int (by rintro c ⟨⟩; decide)).2
    have e2 : (d.int ++ ((some f).elim [] (fun f => '.' :: f) ++ (expText d.exp ++ r))).takeWhile isDigit = d.int :=
      (split_digits d.int _ h.int (by rintro c ⟨⟩; decide)).1
    have e3 : scanFraction ('.' :: (f ++ (expText d.exp ++ r))) =
      ((f ++ (expText d.exp ++ r)).takeWhile isDigit, (f ++ (expText d.exp ++ r)).dropWhile isDigit) := rfl
    constructor
    · rw [e1, e2, e3]
      rintro ⟨k1, k2⟩
      rcases h.notEmpty with k | k
      · exact k k1
      · have k' : f ≠ [] := by
          intro hn
          apply k
          unfold DecimalText.fracDigits
          rw [hf, hn]
          rfl
        exact takeWhile_ne_nil f _ ⟨k', hff⟩ k2
    · unfold scanRest
      rw [e1, e3]
      dsimp only
      rw [dropWhile_digits_append f _ hff]
      cases he : d.exp with
      | none =>
        show (scanExponent (r.dropWhile isDigit)).2.length ≤ _
        exact (scanExponent_le _).trans (dropWhile_le r)
      | some x =>
        obtain ⟨c, sign, ds⟩ := x
        rw [he] at hexp
        have hc := (hexp c sign ds rfl).1
        have : (expText (some (c, sign, ds)) ++ r).dropWhile isDigit = expText (some (c, sign, ds)) ++ r := by
          refine List.dropWhile_cons_of_neg ?_
          rw [← mem_digits_iff]
          exact notDigit_of c (by tauto)
        rw [this]
        exact scanExponent_far _ hexp r
  | none =>
    have hint : d.int ≠ [] := by
      rcases h.notEmpty with k | k
      · exact k
      · exact absurd (show d.fracDigits = [] by unfold DecimalText.fracDigits; rw [hf]; rfl) k
    show ¬ ((d.int ++ (expText d.exp ++ r)).takeWhile isDigit = [] ∧ _) ∧ (scanRest (d.int ++ (expText d.exp ++ r))).length ≤ _
    refine ⟨fun k => takeWhile_ne_nil d.int _ ⟨hint, h.int⟩ k.1, ?_⟩
    unfold scanRest
    rw [dropWhile_digits_append d.int _ h.int]
    cases he : d.exp with
    | none =>
      show (scanExponent (scanFraction (r.dropWhile isDigit)).2).2.length ≤ _
      exact (scanExponent_le _).trans ((scanFraction_le _).trans (dropWhile_le r))
    | some x =>
      obtain ⟨c, sign, ds⟩ := x
      rw [he] at hexp
      have hc := (hexp c sign ds rfl).1
      have : (expText (some (c, sign, ds)) ++ r).dropWhile isDigit = expText (some (c, sign, ds)) ++ r := by
        refine List.dropWhile_cons_of_neg ?_
        rw [← mem_digits_iff]
        exact notDigit_of c (by tauto)
      rw [this, scanFraction_noDot _ (by
        rw [expText_head]
        rintro ⟨⟩
        rcases hc with hc | hc <;> exact absurd hc (by decide))]
      exact scanExponent_far _ hexp r

/-- The number that is scanned. -/
theorem scan_split (s : Str) (hne : ¬ (s.takeWhile isDigit = [] ∧ (scanFraction (s.dropWhile isDigit)).1 = [])) (neg : Bool) :
    ∃ d : DecimalText, d.Ok ∧ d.neg = neg ∧ s = decBody d ++ scanRest s ∧ d.int = s.takeWhile isDigit ∧
      d.fracDigits = (scanFraction (s.dropWhile isDigit)).1 ∧ d.exponent = (scanExponent (scanFraction (s.dropWhile isDigit)).2).1 := by
  obtain ⟨f, hf, hf1, hf2⟩ := scanFraction_inv (s.dropWhile isDigit)
  obtain ⟨e, he1, he, he2⟩ := scanExponent_split (scanFraction (s.dropWhile isDigit)).2
  refine ⟨⟨neg, s.takeWhile isDigit, f, e⟩, ⟨takeWhile_digits_mem s, hf2, ?_, he1⟩, rfl, ?_, rfl, hf1.symm, ?_⟩
  · rw [hf1] at hne
    rcases List.eq_nil_or_concat (s.takeWhile isDigit) with h | ⟨a, b, h⟩
    · exact Or.inr fun k => hne ⟨h, k⟩
    · refine Or.inl ?_
      show s.takeWhile isDigit ≠ []
      rw [h]; simp
  · show s = s.takeWhile isDigit ++ (f.elim [] fun f => '.' :: f) ++ expText e ++ _
    unfold scanRest
    rw [List.append_assoc, ← he, List.append_assoc, ← hf, List.takeWhile_append_dropWhile]
  · rw [exponent_expVal, he2]

/-! ### The whole line -/

theorem render_head (d : DecimalText) (h : d.Ok) (r : Str) : (d.render ++ r).head? = some '-' ↔ d.neg = true := by
  rw [render_body]
  cases hn : d.neg with
  | true => exact ⟨fun _ => rfl, fun _ => rfl⟩
  | false =>
    obtain ⟨c, t, h1, h2⟩ := decBody_head d h
    refine iff_of_false ?_ (by simp)
    show (decBody d ++ r).head? ≠ some '-'
    rw [h1]
    rintro ⟨⟩
    rcases h2 with h2 | h2
    · exact absurd h2 (by decide)
    · exact absurd h2 (by decide)

/-- A line with a number in front. -/
theorem fromChars_number (F : FloatFormat) (line : Str) (d : DecimalText) (hd : d.Ok) (hl : d.render <+: line) :
    ∃ d₀ rest, LongestNumber line d₀ ∧
      fromCharsFloat F line = scaled F d₀.neg (d₀.int ++ d₀.fracDigits) (d₀.exponent - d₀.fracDigits.length) rest := by
  obtain ⟨r, rfl⟩ := hl
  have hb : d.render ++ r = minusSign d.neg ++ (decBody d ++ r) := by rw [render_body, List.append_assoc]
  obtain ⟨hne, -⟩ := scan_far d hd r
  obtain ⟨d₀, h1, h2, h3, h4, h5, h6⟩ := scan_split (decBody d ++ r) hne d.neg
  have hr0 : d₀.render ++ scanRest (decBody d ++ r) = d.render ++ r := by
    rw [render_body, h2, List.append_assoc, ← h3, hb]
  refine ⟨d₀, scanRest (decBody d ++ r), ⟨h1, ⟨_, hr0⟩, ?_⟩, ?_⟩
  · rintro d' hd' ⟨r', hr'⟩
    have hneg : d'.neg = d.neg := by
      have a1 := render_head d' hd' r'
      have a2 := render_head d hd r
      rw [hr', a2] at a1
      cases h7 : d'.neg <;> cases h8 : d.neg <;> rw [h7, h8] at a1 <;> simp at a1
    have hbb : decBody d' ++ r' = decBody d ++ r := by
      have : minusSign d.neg ++ (decBody d' ++ r') = minusSign d.neg ++ (decBody d ++ r) := by
        rw [← hb, ← hr', render_body, hneg, List.append_assoc]
      exact List.append_cancel_left this
    have h7 := (scan_far d' hd' r').2
    rw [hbb] at h7
    have l1 := congrArg List.length hr0
    have l2 := congrArg List.length hr'
    rw [List.length_append] at l1 l2
    omega
  · have hh : ∃ c t, decBody d ++ r = c :: t ∧ (c ∈ digits ∨ c = '.') := by
      obtain ⟨c, t, k1, k2⟩ := decBody_head d hd
      exact ⟨c, t ++ r, by rw [k1]; rfl, k2⟩
    obtain ⟨-, -, -, u4⟩ := unsignedChars_of F d.neg (decBody d ++ r)
    have e : unsignedChars F d.neg (decBody d ++ r) =
        scaled F d₀.neg (d₀.int ++ d₀.fracDigits) (d₀.exponent - d₀.fracDigits.length) (scanRest (decBody d ++ r)) := by
      rw [u4 (stripWord_none "infinity".toList _ 'i' _ rfl (by decide) hh) (stripWord_none "inf".toList _ 'i' _ rfl (by decide) hh)
        (stripWord_none "nan".toList _ 'n' _ rfl (by decide) hh), if_neg hne, h2, h4, h5, h6]
      rfl
    refine (fromCharsFloat_iff F _ _ ?_).2 ⟨d.neg, decBody d ++ r, hb, e⟩
    unfold scaled
    dsimp only
    split <;> simp

/-- All other lines. -/
theorem fromChars_other (F : FloatFormat) (line : Str) (hl : ∀ d : DecimalText, d.Ok → ¬ d.render <+: line) :
    (∃ neg, BeginsWith "inf".toList neg line ∧ ∃ rest, fromCharsFloat F line = .ok (F.signBit neg + F.infinity) rest) ∨
    (∃ neg, BeginsWith "nan".toList neg line ∧ ∃ rest, fromCharsFloat F line = .ok (F.signBit neg + F.nan) rest) ∨
    ((∀ neg, ¬ BeginsWith "inf".toList neg line ∧ ¬ BeginsWith "nan".toList neg line) ∧ fromCharsFloat F line = .invalid) := by
  obtain ⟨neg, body, hb, hfc⟩ : ∃ neg body, line = minusSign neg ++ body ∧ fromCharsFloat F line = unsignedChars F neg body ∧
      (neg = false → body.head? ≠ some '-') := by
    unfold fromCharsFloat
    by_cases hs : line.head? = some '-'
    · rw [if_pos hs]
      cases line with
      | nil => cases hs
      | cons c t =>
        simp only [List.head?_cons, Option.some.injEq] at hs
        subst hs
        exact ⟨true, t, rfl, rfl, fun h => by cases h⟩
    · rw [if_neg hs]
      exact ⟨false, line, rfl, rfl, fun _ => hs⟩
  obtain ⟨hfc, hminus⟩ := hfc
  obtain ⟨u1, u2, u3, u4⟩ := unsignedChars_of F neg body
  rw [hfc]
  cases h1 : stripWord "infinity".toList body with
  | some rest =>
    obtain ⟨w, hw, hw'⟩ := (stripWord_iff _ _ _).1 h1
    refine Or.inl ⟨neg, ⟨w.take 3, w.drop 3 ++ rest, ?_, ?_⟩, rest, u1 rest h1⟩
    · rw [hb, hw, ← List.append_assoc (w.take 3), List.take_append_drop]
    · rw [List.map_take, hw']; rfl
  | none =>
    cases h2 : stripWord "inf".toList body with
    | some rest =>
      obtain ⟨w, hw, hw'⟩ := (stripWord_iff _ _ _).1 h2
      exact Or.inl ⟨neg, ⟨w, rest, by rw [hb, hw], hw'⟩, rest, u2 rest h1 h2⟩
    | none =>
      cases h3 : stripWord "nan".toList body with
      | some rest =>
        obtain ⟨w, hw, hw'⟩ := (stripWord_iff _ _ _).1 h3
        exact Or.inr (Or.inl ⟨neg, ⟨w, rest, by rw [hb, hw], hw'⟩, _, u3 rest h1 h2 h3⟩)
      | none =>
        have hne : body.takeWhile isDigit = [] ∧ (scanFraction (body.dropWhile isDigit)).1 = [] := by
          by_cases hne : body.takeWhile isDigit = [] ∧ (scanFraction (body.dropWhile isDigit)).1 = []
          · exact hne
          · exfalso
            obtain ⟨d, k1, k2, k3, -⟩ := scan_split body hne neg
            refine hl d k1 ⟨scanRest body, ?_⟩
            rw [render_body, k2, List.append_assoc, ← k3, hb]
        refine Or.inr (Or.inr ⟨fun neg' => ?_, by rw [u4 h1 h2 h3, if_pos hne]⟩)
        have key : ∀ (word : Str) (a : Char) (l : Str), word = a :: l → a ≠ '-' → stripWord word body = none → ¬ BeginsWith word neg' line := by
          rintro word a l hwd ha hnone ⟨w, rest, hh, hw⟩
          have hw0 : ∃ c t, w = c :: t ∧ c.toLower = a := by
            cases w with
            | nil => rw [hwd] at hw; cases hw
            | cons c t =>
              rw [hwd] at hw
              exact ⟨c, t, rfl, (List.cons.inj hw).1⟩
          obtain ⟨c, t, hct, hca⟩ := hw0
          have hc : c ≠ '-' := by
            rintro rfl
            exact ha (by rw [← hca]; decide)
          have hsame : neg' = neg := by
            cases neg' with
            | true =>
              cases neg with
              | true => rfl
              | false =>
                exfalso
                refine hminus rfl ?_
                have : body = '-' :: (w ++ rest) := by
                  have h5 : minusSign false ++ body = minusSign true ++ (w ++ rest) := by rw [← hb, hh]
                  exact h5
                rw [this]; rfl
            | false =>
              cases neg with
              | false => rfl
              | true =>
                exfalso
                have h5 : '-' :: body = w ++ rest := by
                  have h5 : minusSign true ++ body = minusSign false ++ (w ++ rest) := by rw [← hb, hh]
                  exact h5
                rw [hct] at h5
                exact hc (List.cons.inj h5).1.symm
          subst hsame
          have hbody : body = w ++ rest := List.append_cancel_left (hb.symm.trans hh)
          have := (stripWord_iff word body rest).2 ⟨w, hbody, hw⟩
          rw [hnone] at this
          cases this
        exact ⟨key _ 'i' _ rfl (by decide) h2, key _ 'n' _ rfl (by decide) h3⟩

theorem beginsWith_no_number (word : Str) (a : Char) (l : Str) (hw : word = a :: l) (ha : a ∉ digits ∧ a ≠ '.' ∧ a ≠ '-') (neg : Bool) (line : Str)
    (h : BeginsWith word neg line) (d : DecimalText) (hd : d.Ok) : ¬ d.render <+: line := by
  rintro ⟨r, hr⟩
  obtain ⟨w, rest, hh, hww⟩ := h
  obtain ⟨c, t, hct, hca⟩ : ∃ c t, w = c :: t ∧ c.toLower = a := by
    cases w with
    | nil => rw [hw] at hww; cases hww
    | cons c t => rw [hw] at hww; exact ⟨c, t, rfl, (List.cons.inj hww).1⟩
  obtain ⟨c', t', k1, k2⟩ := decBody_head d hd
  have e : minusSign d.neg ++ (c' :: t' ++ r) = minusSign neg ++ (c :: t ++ rest) := by
    rw [← k1, ← List.append_assoc, ← render_body, hr, hh, hct]
  have hcm : c ≠ '-' := by rintro rfl; exact ha.2.2 (by rw [← hca]; decide)
  have hcm' : c' ≠ '-' := by rintro rfl; rcases k2 with k2 | k2 <;> exact absurd k2 (by decide)
  have hcc : c' = c := by
    cases hn : d.neg <;> cases neg <;> rw [hn] at e
    · exact (List.cons.inj e).1
    · exact absurd (List.cons.inj e).1 hcm'
    · exact absurd (List.cons.inj e).1.symm hcm
    · exact (List.cons.inj (List.cons.inj e).2).1
  subst hcc
  rw [toLower_of_start c' k2] at hca
  subst hca
  rcases k2 with k2 | k2
  · exact ha.1 k2
  · exact ha.2.1 k2

end Sharg
