import Verif.Lemmas.RegexRead

/-!
# Patterns are read and written

What the readers return has the meaning of what they have read, and everything that has a meaning is read.
-/

namespace Sharg

open Spec

theorem head_cons {s : Str} {c : Char} (h : s.head? = some c) : s = c :: s.tail := by
  cases s with
  | nil => cases h
  | cons d s =>
    have : d = c := by simpa using h
    rw [this]
    rfl

/-- What the four readers return. -/
theorem readers_sound (n : Nat) :
    (∀ s a rest, readDisjunction n s = .ok (a, rest) → ∃ p, s = p ++ rest ∧ Means .disjunction p a.lang) ∧
    (∀ s a rest, readAlternative n s = .ok (a, rest) → ∃ p, s = p ++ rest ∧ Means .alternative p a.lang) ∧
    (∀ s a rest, readTerm n s = .ok (a, rest) → ∃ p, s = p ++ rest ∧ Means .term p a.lang) ∧
    (∀ c s a rest, readAtom n c s = .ok (a, rest) → ∃ p, c :: s = p ++ rest ∧ Means .atom p a.lang) := by
  induction n with
  | zero =>
    refine ⟨?_, ?_, ?_, ?_⟩
    · intro s a rest h; unfold readDisjunction at h; cases h
    · intro s a rest h; unfold readAlternative at h; cases h
    · intro s a rest h; unfold readTerm at h; cases h
    · intro c s a rest h; unfold readAtom at h; cases h
  | succ n ih =>
    obtain ⟨ihd, iha, iht, ihm⟩ := ih
    refine ⟨?_, ?_, ?_, ?_⟩
    · intro s a rest h
      unfold readDisjunction at h
      cases h1 : readAlternative n s with
      | error e => rw [h1] at h; cases h
      | ok ar =>
        obtain ⟨a1, r⟩ := ar
        rw [h1] at h
        dsimp only at h
        obtain ⟨p, rfl, hp⟩ := iha s a1 r h1
        by_cases hr : r.head? = some '|'
        · rw [if_pos hr] at h
          cases h2 : readDisjunction n r.tail with
          | error e => rw [h2] at h; cases h
          | ok br =>
            obtain ⟨b, r'⟩ := br
            rw [h2] at h
            cases h
            obtain ⟨q, hq1, hq2⟩ := ihd _ _ _ h2
            refine ⟨p ++ '|' :: q, ?_, .either hp hq2⟩
            rw [head_cons hr, hq1]
            simp
        · rw [if_neg hr] at h
          cases h
          exact ⟨p, rfl, .only hp⟩
    · intro s a rest h
      unfold readAlternative at h
      by_cases hs : s = [] ∨ s.head? = some '|' ∨ s.head? = some ')'
      · rw [if_pos hs] at h
        cases h
        exact ⟨[], rfl, .empty⟩
      · rw [if_neg hs] at h
        cases h1 : readTerm n s with
        | error e => rw [h1] at h; cases h
        | ok ar =>
          obtain ⟨a1, r⟩ := ar
          rw [h1] at h
          dsimp only at h
          obtain ⟨p, rfl, hp⟩ := iht s a1 r h1
          cases h2 : readAlternative n r with
          | error e => rw [h2] at h; cases h
          | ok br =>
            obtain ⟨b, r'⟩ := br
            rw [h2] at h
            cases h
            obtain ⟨q, rfl, hq⟩ := iha _ _ _ h2
            exact ⟨p ++ q, by simp, .next hp hq⟩
    · intro s a rest h
      cases s with
      | nil => unfold readTerm at h; cases h
      | cons c s =>
        unfold readTerm at h
        by_cases h1 : c = '^'
        · rw [if_pos h1] at h
          cases h
          exact ⟨['^'], by rw [h1]; rfl, .begin⟩
        rw [if_neg h1] at h
        by_cases h2 : c = '$'
        · rw [if_pos h2] at h
          cases h
          exact ⟨['$'], by rw [h2]; rfl, .stop⟩
        rw [if_neg h2] at h
        cases h3 : readAtom n c s with
        | error e => rw [h3] at h; cases h
        | ok ar =>
          obtain ⟨a1, r⟩ := ar
          rw [h3] at h
          dsimp only at h
          obtain ⟨p, hp1, hp2⟩ := ihm c s a1 r h3
          cases h4 : readTimes r with
          | error e => rw [h4] at h; cases h
          | ok tr =>
            obtain ⟨t, r'⟩ := tr
            rw [h4] at h
            cases h
            rcases readTimes_sound h4 with ⟨rfl, rfl⟩ | ⟨q, i, m, rfl, hq, hr⟩
            · exact ⟨p, hp1, .once hp2⟩
            · rw [times_lang a1 i m (often_limits hq)]
              rcases hr with rfl | rfl
              · exact ⟨p ++ q, by rw [hp1]; simp, .repeat hp2 hq⟩
              · exact ⟨p ++ q ++ ['?'], by rw [hp1]; simp, .lazy hp2 hq⟩
    · intro c s a rest h
      unfold readAtom at h
      by_cases h1 : c = '.'
      · rw [if_pos h1] at h
        cases h
        obtain ⟨-, a, ha, hr⟩ := means_read Means.any
        have e := hr s 4 '.' [] rfl (Nat.le_refl _)
        unfold readAtom at e
        rw [if_pos rfl] at e
        cases e
        refine ⟨['.'], by rw [h1]; rfl, ?_⟩
        rw [ha]
        exact .any
      rw [if_neg h1] at h
      by_cases h2 : c = '\\'
      · rw [if_pos h2] at h
        cases s with
        | nil => cases h
        | cons d r =>
          dsimp only at h
          cases h3 : escapeSet d with
          | none => rw [h3] at h; cases h
          | some k =>
            rw [h3] at h
            cases h
            refine ⟨['\\', d], by rw [h2]; rfl, ?_⟩
            rcases escape_of_escapeSet h3 with ⟨-, hk⟩ | ⟨-, hk⟩
            · exact .escape hk
            · exact .negEscape hk
      rw [if_neg h2] at h
      by_cases h3 : c = '['
      · rw [if_pos h3] at h
        cases h4 : readBrackets s with
        | error e => rw [h4] at h; cases h
        | ok kr =>
          obtain ⟨k, r⟩ := kr
          rw [h4] at h
          cases h
          unfold readBrackets at h4
          by_cases hc : s.head? = some '^'
          · simp only [hc, decide_true, if_true] at h4
            cases h5 : readItems (s.length + 1) s.tail with
            | error e => rw [h5] at h4; cases h4
            | ok x =>
              obtain ⟨rs, r⟩ := x
              rw [h5] at h4
              dsimp only at h4
              by_cases hrs : rs = []
              · rw [if_pos hrs] at h4; cases h4
              rw [if_neg hrs] at h4
              cases h4
              obtain ⟨p, hp1, hp2, hp3⟩ := readItems_sound h5
              refine ⟨'[' :: '^' :: (p ++ [']']), ?_, ?_⟩
              · rw [h3, head_cons hc, hp1]; simp
              · have := Means.negBrackets hp2 (fun e => hrs (hp3 e))
                have e : (Re.set ⟨true, rs⟩).lang = .char fun c => ¬ CharSet.has ⟨false, rs⟩ c = true := by
                  show Meaning.char (fun d => CharSet.has ⟨true, rs⟩ d = true) = _
                  congr 1
                  funext d
                  exact propext (has_neg rs d)
                rw [e]
                exact this
          · simp only [hc, decide_false, if_false] at h4
            cases h5 : readItems (s.length + 1) s with
            | error e => simp only [h5] at h4; cases h4
            | ok x =>
              obtain ⟨rs, r⟩ := x
              simp only [h5] at h4
              by_cases hrs : rs = []
              · rw [if_pos hrs] at h4; cases h4
              rw [if_neg hrs] at h4
              cases h4
              obtain ⟨p, hp1, hp2, hp3⟩ := readItems_sound h5
              refine ⟨'[' :: (p ++ [']']), by rw [h3, hp1]; simp, .brackets hp2 (fun e => hrs (hp3 e)) ?_⟩
              intro hh
              apply hc
              rw [hp1]
              cases p with
              | nil => cases hh
              | cons x p => exact hh
      rw [if_neg h3] at h
      by_cases h4 : c = '('
      · rw [if_pos h4] at h
        by_cases h5 : s.head? = some '?' ∧ s.tail.head? ≠ some ':'
        · rw [if_pos h5] at h; cases h
        rw [if_neg h5] at h
        cases h6 : readDisjunction n (if s.head? = some '?' then s.drop 2 else s) with
        | error e => rw [h6] at h; cases h
        | ok ar =>
          obtain ⟨a1, r⟩ := ar
          rw [h6] at h
          dsimp only at h
          obtain ⟨p, hp1, hp2⟩ := ihd _ _ _ h6
          by_cases h7 : r.head? = some ')'
          · rw [if_pos h7] at h
            cases h
            by_cases h8 : s.head? = some '?'
            · rw [if_pos h8] at hp1
              have h9 : s.tail.head? = some ':' := Classical.byContradiction fun hh => h5 ⟨h8, hh⟩
              have es : s = '?' :: ':' :: s.drop 2 := by
                have e1 := head_cons h8
                have e2 : s.tail = ':' :: s.tail.tail := head_cons h9
                have e3 : s.drop 2 = s.tail.tail := by rw [e1, e2]; rfl
                rw [e3, ← e2, ← e1]
              refine ⟨'(' :: '?' :: ':' :: (p ++ [')']), ?_, .plainGroup hp2⟩
              rw [h4, es, hp1]
              conv => lhs; rw [head_cons h7]
              simp
            · rw [if_neg h8] at hp1
              refine ⟨'(' :: (p ++ [')']), ?_, .group hp2⟩
              rw [h4, hp1]
              conv => lhs; rw [head_cons h7]
              simp
          · rw [if_neg h7] at h; cases h
      rw [if_neg h4] at h
      by_cases h5 : c = ']' ∨ c = '}'
      · rw [if_pos h5] at h; cases h
      rw [if_neg h5] at h
      by_cases h6 : c ∈ patternSpecial
      · rw [if_pos h6] at h; cases h
      rw [if_neg h6] at h
      cases h
      refine ⟨[c], rfl, ?_⟩
      have e : (Re.set (single c)).lang = .char (· = c) := by
        show Meaning.char (fun d => (single c).has d = true) = _
        rw [show (fun d => (single c).has d = true) = (· = c) from funext fun d => propext (has_single c d)]
      rw [e]
      exact .char h6

theorem readPattern_sound {p : Str} {a : Re} (h : readPattern p = .ok a) : Means .disjunction p a.lang := by
  unfold readPattern at h
  cases h1 : readDisjunction (4 * p.length + 4) p with
  | error e => rw [h1] at h; cases h
  | ok ar =>
    obtain ⟨b, r⟩ := ar
    rw [h1] at h
    dsimp only at h
    by_cases hr : r = []
    · rw [if_pos hr] at h
      cases h
      obtain ⟨q, hq1, hq2⟩ := (readers_sound _).1 _ _ _ h1
      rw [hr, List.append_nil] at hq1
      rw [hq1]
      exact hq2
    · rw [if_neg hr] at h; cases h

theorem readPattern_complete {p : Str} {L : Meaning} (h : Means .disjunction p L) : ∃ a : Re, readPattern p = .ok a ∧ a.lang = L := by
  obtain ⟨-, a, ha, hr⟩ := means_read h
  have := hr [] (4 * p.length + 4) (fun c hc => by cases hc) (by omega)
  rw [List.append_nil] at this
  refine ⟨a, ?_, ha⟩
  unfold readPattern
  rw [this]
  rfl

/-- A pattern has only one meaning. -/
theorem means_unique {p : Str} {L L' : Meaning} (h : Means .disjunction p L) (h' : Means .disjunction p L') : L = L' := by
  obtain ⟨a, ha, rfl⟩ := readPattern_complete h
  obtain ⟨b, hb, rfl⟩ := readPattern_complete h'
  rw [ha] at hb
  cases hb
  rfl

end Sharg
