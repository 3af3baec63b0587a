import Verif.Lemmas.Regex

/-!
# Lemmas on reading patterns
-/

namespace Sharg

open Spec

/-! ### Brackets -/

theorem listed_eq {p : Str} {P Q : Char → Prop} (h : Listed p P) (hq : ∀ c, Q c ↔ P c) : Listed p Q := by
  have : Q = P := funext fun c => propext (hq c)
  rw [this]
  exact h

/-- What was read between brackets may stand there. -/
theorem readItems_sound {n : Nat} {s rest : Str} {rs : List (Char × Char)} (h : readItems n s = .ok (rs, rest)) :
    ∃ p, s = p ++ ']' :: rest ∧ Listed p (fun c => CharSet.has ⟨false, rs⟩ c = true) ∧ (p = [] → rs = []) := by
  induction n generalizing s rs with
  | zero => cases h
  | succ n ih =>
    cases s with
    | nil => cases h
    | cons c s =>
      unfold readItems at h
      by_cases h1 : c = ']'
      · rw [if_pos h1] at h
        cases h
        subst h1
        exact ⟨[], rfl, listed_eq .none fun c => by simp [has_false], fun _ => rfl⟩
      rw [if_neg h1] at h
      by_cases h2 : c = '-'
      · rw [if_pos h2] at h
        subst h2
        cases s with
        | nil => cases h
        | cons d s =>
          by_cases h3 : d = ']'
          · subst h3
            cases h
            exact ⟨['-'], rfl, listed_eq .dash fun c => by rw [has_false]; simp [between_same], fun h => by cases h⟩
          · have h : (if d = ']' then Except.ok ([('-', '-')], s) else Except.error PatternFault.uncovered) = Except.ok (rs, rest) := h
            rw [if_neg h3] at h
            cases h
      rw [if_neg h2] at h
      by_cases h3 : c = '['
      · rw [if_pos h3] at h
        subst h3
        cases hc : classNameOf s classNames with
        | none => rw [hc] at h; cases h
        | some x =>
          obtain ⟨ks, s'⟩ := x
          rw [hc] at h
          cases hr : readItems n s' with
          | error e =>
            have h : (match readItems n s' with | .error e => _ | .ok (l, r) => _) = Except.ok (rs, rest) := h
            rw [hr] at h; cases h
          | ok x =>
            obtain ⟨l, r⟩ := x
            have h : (match readItems n s' with | .error e => Except.error e | .ok (l, r) => Except.ok (ks ++ l, r)) = Except.ok (rs, rest) := h
            rw [hr] at h
            cases h
            obtain ⟨p, rfl, hp, -⟩ := ih hr
            obtain ⟨m, hm, rfl⟩ := classNameOf_some hc
            refine ⟨"[:".toList ++ m ++ ":]".toList ++ p, ?_, listed_eq (.named (mem_named hm) hp) (has_append _ _), fun h => ?_⟩
            · simp only [List.append_assoc]
              rfl
            · exact absurd h (by simp)
      rw [if_neg h3] at h
      by_cases h4 : c = '\\'
      · rw [if_pos h4] at h
        subst h4
        cases s with
        | nil => cases h
        | cons d s =>
          dsimp only at h
          cases he : escapeSet d with
          | none => rw [he] at h; cases h
          | some k =>
            obtain ⟨kn, ks⟩ := k
            rw [he] at h
            dsimp only at h
            cases kn with
            | true => cases h
            | false =>
              rw [if_neg (by decide)] at h
              cases hr : readItems n s with
              | error e => rw [hr] at h; cases h
              | ok x =>
                obtain ⟨l, r⟩ := x
                rw [hr] at h
                cases h
                obtain ⟨p, rfl, hp, -⟩ := ih hr
                rcases escape_of_escapeSet he with ⟨-, hE⟩ | ⟨hn, -⟩
                · exact ⟨'\\' :: d :: p, rfl, listed_eq (.escape hE hp) (has_append _ _), fun h => by cases h⟩
                · cases hn
      rw [if_neg h4] at h
      have ho : Ordinary c := ⟨h1, h2, h3, h4⟩
      by_cases h5 : s.head? = some '-' ∧ s.tail.head? ≠ some ']'
      · rw [if_pos h5] at h
        cases s with
        | nil => exact absurd h5.1 (by simp)
        | cons d s =>
          have hd : d = '-' := by simpa using h5.1
          subst hd
          cases s with
          | nil => cases h
          | cons b s =>
            have h : (if b ∈ bracketSpecial then Except.error PatternFault.uncovered else if c.toNat ≤ b.toNat then
              match readItems n s with | .error e => Except.error e | .ok (l, r) => Except.ok ((c, b) :: l, r)
              else Except.error PatternFault.malformed) = Except.ok (rs, rest) := h
            by_cases h6 : b ∈ bracketSpecial
            · rw [if_pos h6] at h; cases h
            rw [if_neg h6] at h
            by_cases h7 : c.toNat ≤ b.toNat
            · rw [if_pos h7] at h
              cases hr : readItems n s with
              | error e => rw [hr] at h; cases h
              | ok x =>
                obtain ⟨l, r⟩ := x
                rw [hr] at h
                cases h
                obtain ⟨p, rfl, hp, -⟩ := ih hr
                simp only [bracketSpecial, List.mem_cons, List.not_mem_nil, or_false, not_or] at h6
                exact ⟨c :: '-' :: b :: p, rfl, listed_eq (.range ho ⟨h6.1, h6.2.1, h6.2.2.1, h6.2.2.2⟩ h7 hp) (has_cons _ _),
                  fun h => by cases h⟩
            · rw [if_neg h7] at h; cases h
      rw [if_neg h5] at h
      cases hr : readItems n s with
      | error e => rw [hr] at h; cases h
      | ok x =>
        obtain ⟨l, r⟩ := x
        rw [hr] at h
        cases h
        obtain ⟨p, rfl, hp, -⟩ := ih hr
        exact ⟨c :: p, rfl, listed_eq (.one ho hp) (fun d => by rw [has_cons, between_same]), fun h => by cases h⟩

/-! ### Repetitions -/

theorem isDigit_iff (c : Char) : isDigit c = true ↔ IsDigitChar c := by
  unfold isDigit IsDigitChar Between
  exact decide_eq_true_iff

theorem digitsVal_number (ds : Str) : digitsVal ds = number ds := rfl

theorem takeWhile_numbers {ds r : Str} {x : Char} (h : ∀ d ∈ ds, IsDigitChar d) (hx : ¬ IsDigitChar x) :
    (ds ++ x :: r).takeWhile isDigit = ds ∧ (ds ++ x :: r).dropWhile isDigit = x :: r := by
  have h' : ∀ d ∈ ds, isDigit d = true := fun d hd => (isDigit_iff d).2 (h d hd)
  have hx' : ¬ isDigit x = true := fun hh => hx ((isDigit_iff x).1 hh)
  rw [List.takeWhile_append_of_pos h', List.dropWhile_append_of_pos h', List.takeWhile_cons_of_neg hx',
    List.dropWhile_cons_of_neg hx', List.append_nil]
  exact ⟨rfl, rfl⟩

theorem not_digit {x : Char} (h : isDigit x = false) : ¬ IsDigitChar x := fun hh => by
  rw [(isDigit_iff x).2 hh] at h
  cases h

theorem often_limits {q : Str} {n : Nat} {m : Option Nat} (h : Often q n m) : ∀ l, m = some l → n ≤ l := by
  cases h with
  | star => intro l h; cases h
  | plus => intro l h; cases h
  | question => intro l h; cases h; omega
  | exactly _ => intro l h; cases h; exact Nat.le_refl _
  | atLeast _ => intro l h; cases h
  | fromTo _ _ hle => intro l h; cases h; exact hle

theorem readTimes_often {q : Str} {n : Nat} {m : Option Nat} (h : Often q n m) (rest : Str) :
    readTimes (q ++ rest) = .ok (some (n, m), skipLazy rest) := by
  cases h with
  | star => rfl
  | plus => rfl
  | question => rfl
  | @exactly ds hds =>
    have : '{' :: (ds ++ ['}']) ++ rest = '{' :: (ds ++ '}' :: rest) := by simp
    rw [this]
    obtain ⟨t1, t2⟩ := takeWhile_numbers (r := rest) hds.2 (not_digit (x := '}') (by decide))
    have hb : readBraces (ds ++ '}' :: rest) = .ok ((number ds, some (number ds)), rest) := by
      unfold readBraces
      simp only [t1, t2]
      rw [if_neg hds.1]
      rfl
    show (match readBraces (ds ++ '}' :: rest) with | .error e => _ | .ok (t, r') => _) = _
    rw [hb]
  | @atLeast ds hds =>
    have : '{' :: (ds ++ [',', '}']) ++ rest = '{' :: (ds ++ ',' :: '}' :: rest) := by simp
    rw [this]
    obtain ⟨t1, t2⟩ := takeWhile_numbers (r := '}' :: rest) hds.2 (not_digit (x := ',') (by decide))
    have hb : readBraces (ds ++ ',' :: '}' :: rest) = .ok ((number ds, none), rest) := by
      unfold readBraces
      simp only [t1, t2]
      rw [if_neg hds.1]
      rfl
    show (match readBraces (ds ++ ',' :: '}' :: rest) with | .error e => _ | .ok (t, r') => _) = _
    rw [hb]
  | @fromTo ds es hds hes hle =>
    have : '{' :: (ds ++ ',' :: (es ++ ['}'])) ++ rest = '{' :: (ds ++ ',' :: (es ++ '}' :: rest)) := by simp
    rw [this]
    obtain ⟨t1, t2⟩ := takeWhile_numbers (r := es ++ '}' :: rest) hds.2 (not_digit (x := ',') (by decide))
    obtain ⟨t3, t4⟩ := takeWhile_numbers (r := rest) hes.2 (not_digit (x := '}') (by decide))
    have hb : readBraces (ds ++ ',' :: (es ++ '}' :: rest)) = .ok ((number ds, some (number es)), rest) := by
      unfold readBraces
      simp only [t1, t2]
      rw [if_neg hds.1, if_neg (by decide), if_pos trivial]
      simp only [t3, t4]
      rw [if_pos trivial, if_neg hes.1, if_pos (show digitsVal ds ≤ digitsVal es from hle)]
      rfl
    show (match readBraces (ds ++ ',' :: (es ++ '}' :: rest)) with | .error e => _ | .ok (t, r') => _) = _
    rw [hb]

/-- The characters that begin a repetition. -/
def repeaters : List Char := ['*', '+', '?', '{']

theorem readTimes_none {s : Str} (h : ∀ c, s.head? = some c → c ∉ repeaters) : readTimes s = .ok (none, s) := by
  cases s with
  | nil => rfl
  | cons c r =>
    have := h c rfl
    simp only [repeaters, List.mem_cons, List.not_mem_nil, or_false, not_or] at this
    unfold readTimes
    dsimp only
    rw [if_neg this.1, if_neg this.2.1, if_neg this.2.2.1, if_neg this.2.2.2]

theorem skipLazy_none {s : Str} (h : ∀ c, s.head? = some c → c ∉ repeaters) : skipLazy s = s := by
  unfold skipLazy
  rw [if_neg]
  intro hq
  exact h _ hq (by decide)

theorem skipLazy_cases (s : Str) : s = skipLazy s ∨ s = '?' :: skipLazy s := by
  unfold skipLazy
  by_cases h : s.head? = some '?'
  · rw [if_pos h]
    right
    cases s with
    | nil => cases h
    | cons c s => simp only [List.head?_cons, Option.some.injEq] at h; rw [h]; rfl
  · rw [if_neg h]
    exact Or.inl rfl

theorem digits_number {s : Str} (h : s.takeWhile isDigit ≠ []) : IsNumber (s.takeWhile isDigit) := by
  refine ⟨h, fun d hd => (isDigit_iff d).1 ?_⟩
  clear h
  induction s with
  | nil => cases hd
  | cons c s ih =>
    by_cases hc : isDigit c = true
    · rw [List.takeWhile_cons_of_pos hc] at hd
      rcases List.mem_cons.1 hd with rfl | hd
      · exact hc
      · exact ih hd
    · rw [List.takeWhile_cons_of_neg hc] at hd
      cases hd

theorem readBraces_sound {s rest : Str} {n : Nat} {m : Option Nat} (h : readBraces s = .ok ((n, m), rest)) :
    ∃ q, Often ('{' :: q) n m ∧ s = q ++ rest := by
  unfold readBraces at h
  have hs : s = s.takeWhile isDigit ++ s.dropWhile isDigit := (List.takeWhile_append_dropWhile).symm
  simp only at h
  by_cases h1 : s.takeWhile isDigit = []
  · rw [if_pos h1] at h; cases h
  rw [if_neg h1] at h
  have hnum := digits_number h1
  generalize s.takeWhile isDigit = ds at *
  generalize s.dropWhile isDigit = d1 at *
  subst hs
  cases d1 with
  | nil => cases h
  | cons c r =>
    simp only at h
    by_cases h2 : c = '}'
    · rw [if_pos h2] at h
      cases h
      subst h2
      exact ⟨ds ++ ['}'], .exactly hnum, by simp⟩
    rw [if_neg h2] at h
    by_cases h3 : c = ','
    · rw [if_pos h3] at h
      subst h3
      have hr : r = r.takeWhile isDigit ++ r.dropWhile isDigit := (List.takeWhile_append_dropWhile).symm
      by_cases h5 : r.takeWhile isDigit = []
      · rw [h5] at hr h
        rw [List.nil_append] at hr
        cases hd2 : r.dropWhile isDigit with
        | nil => rw [hd2] at h; cases h
        | cons d r' =>
          rw [hd2] at h hr
          simp only at h
          by_cases h4 : d = '}'
          · rw [if_pos h4, if_pos trivial] at h
            cases h
            subst h4
            exact ⟨ds ++ [',', '}'], .atLeast hnum, by rw [hr]; simp⟩
          · rw [if_neg h4] at h; cases h
      · have hnum2 := digits_number h5
        generalize r.takeWhile isDigit = es at *
        cases hd2 : r.dropWhile isDigit with
        | nil => rw [hd2] at h; cases h
        | cons d r' =>
          rw [hd2] at h hr
          simp only at h
          by_cases h4 : d = '}'
          · rw [if_pos h4, if_neg h5] at h
            subst h4
            by_cases h6 : digitsVal ds ≤ digitsVal es
            · rw [if_pos h6] at h
              cases h
              exact ⟨ds ++ ',' :: (es ++ ['}']), .fromTo hnum hnum2 h6, by rw [hr]; simp⟩
            · rw [if_neg h6] at h; cases h
          · rw [if_neg h4] at h; cases h
    · rw [if_neg h3] at h; cases h

theorem readTimes_sound {s rest : Str} {t : Option Times} (h : readTimes s = .ok (t, rest)) :
    (t = none ∧ s = rest) ∨ ∃ q n m, t = some (n, m) ∧ Often q n m ∧ (s = q ++ rest ∨ s = q ++ ['?'] ++ rest) := by
  have lazy : ∀ q r : Str, (q ++ r = q ++ skipLazy r ∨ q ++ r = q ++ ['?'] ++ skipLazy r) := by
    intro q r
    rcases skipLazy_cases r with hh | hh
    · left; rw [← hh]
    · right; rw [List.append_assoc]; congr 1
  cases s with
  | nil => cases h; exact Or.inl ⟨rfl, rfl⟩
  | cons c r =>
    unfold readTimes at h
    dsimp only at h
    by_cases h1 : c = '*'
    · rw [if_pos h1] at h; subst h1; cases h; exact Or.inr ⟨['*'], _, _, rfl, .star, lazy ['*'] r⟩
    rw [if_neg h1] at h
    by_cases h2 : c = '+'
    · rw [if_pos h2] at h; subst h2; cases h; exact Or.inr ⟨['+'], _, _, rfl, .plus, lazy ['+'] r⟩
    rw [if_neg h2] at h
    by_cases h3 : c = '?'
    · rw [if_pos h3] at h; subst h3; cases h; exact Or.inr ⟨['?'], _, _, rfl, .question, lazy ['?'] r⟩
    rw [if_neg h3] at h
    by_cases h4 : c = '{'
    · rw [if_pos h4] at h
      subst h4
      cases hb : readBraces r with
      | error e => rw [hb] at h; cases h
      | ok x =>
        obtain ⟨⟨n, m⟩, r'⟩ := x
        rw [hb] at h
        cases h
        obtain ⟨q, hq, rfl⟩ := readBraces_sound hb
        exact Or.inr ⟨'{' :: q, n, m, rfl, hq, lazy ('{' :: q) r'⟩
    · rw [if_neg h4] at h
      cases h
      exact Or.inl ⟨rfl, rfl⟩

/-! ### Patterns are read -/

theorem readBrackets_pos {p rest : Str} {P : Char → Prop} (h : Listed p P) (hne : p ≠ []) (hh : p.head? ≠ some '^') :
    ∃ k, readBrackets (p ++ ']' :: rest) = .ok (k, rest) ∧ k.Is P ∧ ∀ r, readBrackets (p ++ ']' :: r) = .ok (k, r) := by
  obtain ⟨rs, h1, h2, h3⟩ := readItems_listed h
  have key : ∀ r, readBrackets (p ++ ']' :: r) = .ok (⟨false, rs⟩, r) := by
    intro r
    have hhead : ¬ (p ++ ']' :: r).head? = some '^' := by
      cases p with
      | nil => exact absurd rfl hne
      | cons c p => exact hh
    unfold readBrackets
    simp only [hhead, decide_false, if_false]
    rw [h3 r _ (by simp)]
    simp only
    rw [if_neg (h2 hne)]
  exact ⟨_, key rest, h1, key⟩

theorem readBrackets_neg {p : Str} {P : Char → Prop} (h : Listed p P) (hne : p ≠ []) :
    ∃ k : CharSet, k.Is (fun c => ¬ P c) ∧ ∀ r, readBrackets ('^' :: (p ++ ']' :: r)) = .ok (k, r) := by
  obtain ⟨rs, h1, h2, h3⟩ := readItems_listed h
  have h1 : (fun c => CharSet.has ⟨false, rs⟩ c = true) = P := h1
  refine ⟨⟨true, rs⟩, CharSet.is_of fun c => ?_, fun r => ?_⟩
  · rw [has_neg, ← h1]
  · unfold readBrackets
    simp only [List.head?_cons, decide_true, if_true, List.tail_cons]
    rw [h3 r _ (by simp; omega)]
    simp only
    rw [if_neg (h2 hne)]

/-- What may follow a part of a pattern. -/
def mayFollow : Kind → Str → Prop
  | .disjunction, r => ∀ c, r.head? = some c → c = ')'
  | .alternative, r => ∀ c, r.head? = some c → c = ')' ∨ c = '|'
  | .term, r => ∀ c, r.head? = some c → c ∉ repeaters
  | .atom, _ => True

/-- How a part of a pattern may begin. -/
def beginsWell : Kind → Str → Prop
  | .disjunction, p => ∀ c, p.head? = some c → c ∉ repeaters ∧ c ≠ ')'
  | .alternative, p => ∀ c, p.head? = some c → c ∉ repeaters ∧ c ≠ ')' ∧ c ≠ '|'
  | .term, p => ∃ c s, p = c :: s ∧ c ∉ repeaters ∧ c ≠ ')' ∧ c ≠ '|'
  | .atom, p => ∃ c s, p = c :: s ∧ c ∉ repeaters ∧ c ≠ ')' ∧ c ≠ '|' ∧ c ≠ '^' ∧ c ≠ '$'

/-- The part is read. -/
def isRead : Kind → Str → Re → Prop
  | .disjunction, p, a => ∀ rest n, mayFollow .disjunction rest → 4 * p.length + 3 ≤ n → readDisjunction n (p ++ rest) = .ok (a, rest)
  | .alternative, p, a => ∀ rest n, mayFollow .alternative rest → 4 * p.length + 2 ≤ n → readAlternative n (p ++ rest) = .ok (a, rest)
  | .term, p, a => ∀ rest n, mayFollow .term rest → 4 * p.length + 1 ≤ n → readTerm n (p ++ rest) = .ok (a, rest)
  | .atom, p, a => ∀ rest n c s, p = c :: s → 4 * p.length ≤ n → readAtom n c (s ++ rest) = .ok (a, rest)

theorem fuel_pred {n m : Nat} (h : m + 1 ≤ n) : ∃ k, n = k + 1 ∧ m ≤ k := ⟨n - 1, by omega, by omega⟩

theorem readTerm_atom {p : Str} {a : Re} (hb : beginsWell .atom p) (hr : isRead .atom p a) {rest : Str} {n : Nat}
    (hn : 4 * p.length + 1 ≤ n) {t : Option Times} {r' : Str} (ht : readTimes rest = .ok (t, r')) :
    readTerm n (p ++ rest) = .ok (a.times t, r') := by
  obtain ⟨c, s, rfl, -, -, -, h1, h2⟩ := hb
  obtain ⟨k, rfl, hk⟩ := fuel_pred hn
  show readTerm (k + 1) (c :: (s ++ rest)) = _
  unfold readTerm
  rw [if_neg h1, if_neg h2, hr rest k c s rfl hk]
  simp only
  rw [ht]

theorem means_read {k : Kind} {p : Str} {L : Meaning} (h : Means k p L) : beginsWell k p ∧ ∃ a : Re, a.lang = L ∧ isRead k p a := by
  induction h with
  | @only p A h ih =>
    obtain ⟨hb, a, ha, hr⟩ := ih
    refine ⟨fun c hc => ⟨(hb c hc).1, (hb c hc).2.1⟩, a, ha, fun rest n hf hn => ?_⟩
    obtain ⟨m, rfl, hm⟩ := fuel_pred hn
    unfold readDisjunction
    rw [hr rest m (fun c hc => Or.inl (hf c hc)) hm]
    simp only
    rw [if_neg]
    intro hc
    have := hf _ hc
    exact absurd this (by decide)
  | @either p A q B h1 h2 ih1 ih2 =>
    obtain ⟨hb, a, ha, hr⟩ := ih1
    obtain ⟨hb', b, hb2, hr'⟩ := ih2
    refine ⟨fun c hc => ?_, .alt a b, by rw [← ha, ← hb2]; rfl, fun rest n hf hn => ?_⟩
    · cases p with
      | nil =>
        simp only [List.nil_append, List.head?_cons, Option.some.injEq] at hc
        subst hc
        exact ⟨by decide, by decide⟩
      | cons d p => exact ⟨(hb c hc).1, (hb c hc).2.1⟩
    · simp only [List.length_append, List.length_cons] at hn
      obtain ⟨m, rfl, hm⟩ := fuel_pred hn
      have e : p ++ '|' :: q ++ rest = p ++ '|' :: (q ++ rest) := by simp
      rw [e]
      unfold readDisjunction
      rw [hr ('|' :: (q ++ rest)) m (fun c hc => Or.inr (by simpa using hc.symm)) (by omega)]
      simp only [List.head?_cons, if_true, List.tail_cons]
      rw [hr' rest m hf (by omega)]
  | empty =>
    refine ⟨fun c hc => (by cases hc), .eps, rfl, fun rest n hf hn => ?_⟩
    obtain ⟨m, rfl, hm⟩ := fuel_pred hn
    show readAlternative (m + 1) rest = _
    unfold readAlternative
    rw [if_pos]
    cases rest with
    | nil => exact Or.inl rfl
    | cons c r =>
      rcases hf c rfl with rfl | rfl
      · exact Or.inr (Or.inr rfl)
      · exact Or.inr (Or.inl rfl)
  | @next p A q B h1 h2 ih1 ih2 =>
    obtain ⟨⟨c, s, rfl, hc1, hc2, hc3⟩, a, ha, hr⟩ := ih1
    obtain ⟨hb', b, hb2, hr'⟩ := ih2
    refine ⟨?_, .seq a b, by rw [← ha, ← hb2]; rfl, fun rest n hf hn => ?_⟩
    · intro d hd
      have : c = d := by simpa using hd
      subst this
      exact ⟨hc1, hc2, hc3⟩
    · simp only [List.length_append, List.length_cons] at hn
      obtain ⟨m, rfl, hm⟩ := fuel_pred hn
      have e : c :: s ++ q ++ rest = c :: s ++ (q ++ rest) := by simp
      rw [e]
      unfold readAlternative
      rw [if_neg, hr (q ++ rest) m ?_ (by simp only [List.length_cons]; omega)]
      · simp only
        rw [hr' rest m hf (by omega)]
      · cases q with
        | nil =>
          intro d hd
          rcases hf d hd with rfl | rfl <;> decide
        | cons x q => exact fun d hd => (hb' d hd).1
      · rintro (h | h | h)
        · cases h
        · exact hc3 (by simpa using h)
        · exact hc2 (by simpa using h)
  | begin =>
    refine ⟨⟨'^', [], rfl, by decide, by decide, by decide⟩, .first, rfl, fun rest n hf hn => ?_⟩
    obtain ⟨m, rfl, hm⟩ := fuel_pred hn
    rfl
  | stop =>
    refine ⟨⟨'$', [], rfl, by decide, by decide, by decide⟩, .last, rfl, fun rest n hf hn => ?_⟩
    obtain ⟨m, rfl, hm⟩ := fuel_pred hn
    rfl
  | @once p A h ih =>
    obtain ⟨hb, a, ha, hr⟩ := ih
    obtain ⟨c, s, e, hc⟩ := hb
    exact ⟨⟨c, s, e, hc.1, hc.2.1, hc.2.2.1⟩, a, ha, fun rest n hf hn =>
      readTerm_atom ⟨c, s, e, hc⟩ hr hn (readTimes_none hf)⟩
  | @«repeat» p A q n m h hq ih =>
    obtain ⟨hb, a, ha, hr⟩ := ih
    obtain ⟨c, s, e, hc⟩ := hb
    refine ⟨⟨c, s ++ q, by rw [e]; rfl, hc.1, hc.2.1, hc.2.2.1⟩, a.times (some (n, m)), ?_, fun rest i hf hi => ?_⟩
    · rw [times_lang a n m (often_limits hq), ha]
    · rw [List.append_assoc]
      refine readTerm_atom ⟨c, s, e, hc⟩ hr (by simp only [List.length_append] at hi; omega) ?_
      rw [readTimes_often hq, skipLazy_none hf]
  | @lazy p A q n m h hq ih =>
    obtain ⟨hb, a, ha, hr⟩ := ih
    obtain ⟨c, s, e, hc⟩ := hb
    refine ⟨⟨c, s ++ q ++ ['?'], by rw [e]; simp, hc.1, hc.2.1, hc.2.2.1⟩, a.times (some (n, m)), ?_, fun rest i hf hi => ?_⟩
    · rw [times_lang a n m (often_limits hq), ha]
    · rw [List.append_assoc, List.append_assoc]
      refine readTerm_atom ⟨c, s, e, hc⟩ hr (by simp only [List.length_append] at hi; omega) ?_
      rw [readTimes_often hq]
      rfl
  | @char c hc =>
    have hne : ∀ d, d ∈ special → c ≠ d := by rintro d hd rfl; exact hc hd
    have hl : (Re.set (single c)).lang = .char (· = c) := by
      show Meaning.char (fun d => (single c).has d = true) = _
      rw [show (fun d => (single c).has d = true) = (· = c) from funext fun d => propext (has_single c d)]
    refine ⟨⟨c, [], rfl, ?_, hne _ (by decide), hne _ (by decide), hne _ (by decide), hne _ (by decide)⟩, .set (single c), hl, ?_⟩
    · intro h
      apply hc
      simp only [repeaters, List.mem_cons, List.not_mem_nil, or_false] at h
      rcases h with rfl | rfl | rfl | rfl <;> decide
    · intro rest n d s e hn
      cases e
      obtain ⟨m, rfl, hm⟩ := fuel_pred (m := 3) hn
      unfold readAtom
      rw [if_neg (hne _ (by decide)), if_neg (hne _ (by decide)), if_neg (hne _ (by decide)), if_neg (hne _ (by decide)),
        if_neg (fun h => h.elim (hne _ (by decide)) (hne _ (by decide))), if_neg (show c ∉ patternSpecial from hc)]
      rfl
  | any =>
    refine ⟨⟨'.', [], rfl, by decide, by decide, by decide, by decide, by decide⟩,
      .set ⟨true, [('\n', '\n'), ('\r', '\r')]⟩, ?_, ?_⟩
    · show Meaning.char (fun d => CharSet.has ⟨true, [('\n', '\n'), ('\r', '\r')]⟩ d = true) = _
      congr 1
      funext d
      apply propext
      rw [has_true]
      simp [between_same]
    · intro rest n d s e hn
      cases e
      obtain ⟨m, rfl, hm⟩ := fuel_pred (m := 3) hn
      rfl
  | @escape c P hc =>
    obtain ⟨k, k1, -, k3⟩ := escapeSet_of_escape hc
    have k3 : (fun c => k.has c = true) = P := k3
    refine ⟨⟨'\\', [c], rfl, by decide, by decide, by decide, by decide, by decide⟩, .set k, by rw [← k3]; rfl, ?_⟩
    intro rest n d s e hn
    cases e
    obtain ⟨m, rfl, hm⟩ := fuel_pred (m := 7) hn
    unfold readAtom
    rw [if_neg (by decide), if_pos rfl]
    show (match escapeSet c with | none => _ | some k => _) = _
    rw [k1]
    rfl
  | @negEscape c P hc =>
    obtain ⟨k, k1, k3⟩ := escapeSet_of_neg hc
    have k3 : (fun c => k.has c = true) = P := k3
    refine ⟨⟨'\\', [c], rfl, by decide, by decide, by decide, by decide, by decide⟩, .set k, by rw [← k3]; rfl, ?_⟩
    intro rest n d s e hn
    cases e
    obtain ⟨m, rfl, hm⟩ := fuel_pred (m := 7) hn
    unfold readAtom
    rw [if_neg (by decide), if_pos rfl]
    show (match escapeSet c with | none => _ | some k => _) = _
    rw [k1]
    rfl
  | @brackets p P hp hne hh =>
    obtain ⟨k, -, k2, k3⟩ := readBrackets_pos (rest := []) hp hne hh
    have k2 : (fun c => k.has c = true) = P := k2
    refine ⟨⟨'[', p ++ [']'], rfl, by decide, by decide, by decide, by decide, by decide⟩, .set k, by rw [← k2]; rfl, ?_⟩
    intro rest n d s e hn
    cases e
    simp only [List.length_cons] at hn
    obtain ⟨m, rfl, hm⟩ := fuel_pred (m := 3) (n := n) (by omega)
    unfold readAtom
    rw [if_neg (by decide), if_neg (by decide), if_pos rfl]
    have : p ++ [']'] ++ rest = p ++ ']' :: rest := by simp
    rw [this, k3]
  | @negBrackets p P hp hne =>
    obtain ⟨k, k2, k3⟩ := readBrackets_neg hp hne
    have k2 : (fun c => k.has c = true) = fun c => ¬ P c := k2
    refine ⟨⟨'[', '^' :: (p ++ [']']), rfl, by decide, by decide, by decide, by decide, by decide⟩, .set k, by rw [← k2]; rfl, ?_⟩
    intro rest n d s e hn
    cases e
    simp only [List.length_cons] at hn
    obtain ⟨m, rfl, hm⟩ := fuel_pred (m := 3) (n := n) (by omega)
    unfold readAtom
    rw [if_neg (by decide), if_neg (by decide), if_pos rfl]
    have : '^' :: (p ++ [']']) ++ rest = '^' :: (p ++ ']' :: rest) := by simp
    rw [this, k3]
  | @group p A h ih =>
    obtain ⟨hb, a, ha, hr⟩ := ih
    refine ⟨⟨'(', p ++ [')'], rfl, by decide, by decide, by decide, by decide, by decide⟩, a, ha, ?_⟩
    intro rest n d s e hn
    cases e
    simp only [List.length_cons, List.length_append, List.length_nil] at hn
    obtain ⟨m, rfl, hm⟩ := fuel_pred (m := 4 * p.length + 7) (n := n) (by omega)
    have hq : ¬ (p ++ [')'] ++ rest).head? = some '?' := by
      cases p with
      | nil => simp
      | cons c p =>
        intro hh
        have : c = '?' := by simpa using hh
        exact (hb c rfl).1 (by rw [this]; decide)
    unfold readAtom
    rw [if_neg (by decide), if_neg (by decide), if_neg (by decide), if_pos rfl, if_neg (fun hh => hq hh.1), if_neg hq]
    have : p ++ [')'] ++ rest = p ++ ')' :: rest := by simp
    rw [this, hr (')' :: rest) m (fun c hc => by simpa using hc.symm) (by omega)]
    rfl
  | @plainGroup p A h ih =>
    obtain ⟨hb, a, ha, hr⟩ := ih
    refine ⟨⟨'(', '?' :: ':' :: (p ++ [')']), rfl, by decide, by decide, by decide, by decide, by decide⟩, a, ha, ?_⟩
    intro rest n d s e hn
    cases e
    simp only [List.length_cons, List.length_append, List.length_nil] at hn
    obtain ⟨m, rfl, hm⟩ := fuel_pred (m := 4 * p.length + 7) (n := n) (by omega)
    have e2 : '?' :: ':' :: (p ++ [')']) ++ rest = '?' :: ':' :: (p ++ ')' :: rest) := by simp
    rw [e2]
    unfold readAtom
    rw [if_neg (by decide), if_neg (by decide), if_neg (by decide), if_pos rfl, if_neg (fun hh => hh.2 rfl), if_pos (show ('?' :: ':' :: (p ++ ')' :: rest)).head? = some '?' from rfl)]
    show (match readDisjunction m (p ++ ')' :: rest) with | .error e => _ | .ok (a, r) => _) = _
    rw [hr (')' :: rest) m (fun c hc => by simpa using hc.symm) (by omega)]
    rfl

end Sharg
