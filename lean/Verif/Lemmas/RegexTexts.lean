import Verif.Lemmas.RegexMain

/-!
# Which texts a pattern matches

Simplifies the meaning of patterns in which the position in the text hardly matters.
-/

namespace Sharg

open Spec

theorem set_lang (k : CharSet) : (Re.set k).lang = .char fun c => k.has c = true := rfl

theorem followed_nothing (A : Meaning) : A.followed .nothing = A := by
  funext start s fin
  apply propext
  constructor
  · rintro ⟨u, v, rfl, h, rfl⟩
    simpa using h
  · intro h
    exact ⟨s, [], by simp, by simpa using h, rfl⟩

theorem begin_followed (A : Meaning) (s : Str) (fin : Bool) : Meaning.begin.followed A true s fin ↔ A true s fin := by
  constructor
  · rintro ⟨u, v, rfl, ⟨rfl, -⟩, h⟩
    exact h
  · intro h
    exact ⟨[], s, rfl, ⟨rfl, rfl⟩, h⟩

theorem char_followed (P : Char → Prop) (A : Meaning) (start : Bool) (s : Str) (fin : Bool) :
    (Meaning.char P).followed A start s fin ↔ ∃ c t, s = c :: t ∧ P c ∧ A false t fin := by
  constructor
  · rintro ⟨u, v, rfl, ⟨c, rfl, hc⟩, h⟩
    exact ⟨c, v, rfl, hc, by simpa using h⟩
  · rintro ⟨c, t, rfl, hc, h⟩
    exact ⟨[c], t, rfl, ⟨c, rfl, hc⟩, by simpa using h⟩

theorem this_followed (c : Char) (A : Meaning) (start : Bool) (s : Str) (fin : Bool) :
    (Meaning.char fun d => (single c).has d = true).followed A start s fin ↔ ∃ t, s = c :: t ∧ A false t fin := by
  rw [char_followed]
  constructor
  · rintro ⟨d, t, rfl, h1, h2⟩
    rw [has_single] at h1
    subst h1
    exact ⟨t, rfl, h2⟩
  · rintro ⟨t, rfl, h⟩
    exact ⟨c, t, rfl, (has_single c c).2 rfl, h⟩

theorem char_power (P : Char → Prop) (k : Nat) (start : Bool) (s : Str) (fin : Bool) :
    (Meaning.char P).power k start s fin ↔ s.length = k ∧ ∀ c ∈ s, P c := by
  induction k generalizing start s with
  | zero =>
    show s = [] ↔ _
    constructor
    · rintro rfl; exact ⟨rfl, by simp⟩
    · rintro ⟨h, -⟩; exact List.length_eq_zero_iff.1 h
  | succ k ih =>
    show (Meaning.char P).followed ((Meaning.char P).power k) start s fin ↔ _
    rw [char_followed]
    constructor
    · rintro ⟨c, t, rfl, hc, h⟩
      obtain ⟨h1, h2⟩ := (ih _ _).1 h
      exact ⟨by simp [h1], by simpa using ⟨hc, h2⟩⟩
    · rintro ⟨h1, h2⟩
      cases s with
      | nil => cases h1
      | cons c t =>
        exact ⟨c, t, rfl, h2 c (by simp), (ih _ _).2 ⟨by simpa using h1, fun d hd => h2 d (by simp [hd])⟩⟩

theorem char_repeated (P : Char → Prop) (n : Nat) (start : Bool) (s : Str) (fin : Bool) :
    (Meaning.char P).repeated n none start s fin ↔ n ≤ s.length ∧ ∀ c ∈ s, P c := by
  constructor
  · rintro ⟨k, hk, -, h⟩
    obtain ⟨rfl, h2⟩ := (char_power P k start s fin).1 h
    exact ⟨hk, h2⟩
  · rintro ⟨h1, h2⟩
    exact ⟨s.length, h1, fun l hl => (by cases hl), (char_power _ _ _ _ _).2 ⟨rfl, h2⟩⟩

theorem chars_followed (P : Char → Prop) (n : Nat) (A : Meaning) (start : Bool) (s : Str) (fin : Bool) :
    ((Meaning.char P).repeated n none).followed A start s fin ↔
      ∃ u v, s = u ++ v ∧ n ≤ u.length ∧ (∀ c ∈ u, P c) ∧ A (start && u.isEmpty) v fin := by
  constructor
  · rintro ⟨u, v, rfl, h1, h2⟩
    obtain ⟨h3, h4⟩ := (char_repeated _ _ _ _ _).1 h1
    exact ⟨u, v, rfl, h3, h4, h2⟩
  · rintro ⟨u, v, rfl, h1, h2, h3⟩
    exact ⟨u, v, rfl, (char_repeated _ _ _ _ _).2 ⟨h1, h2⟩, h3⟩

theorem times_none_lang (k : CharSet) (n : Nat) :
    ((Re.set k).times (some (n, none))).lang = (Meaning.char fun c => k.has c = true).repeated n none :=
  times_lang (.set k) n none fun l h => by cases h

/-- The text of a pattern tells what it matches. -/
theorem patternFor_read {p : Str} {a : Re} (h : readPattern p = .ok a) {A : Str → Prop} (hA : ∀ s, A s ↔ a.lang true s true) :
    PatternFor p A := ⟨a.lang, readPattern_sound h, hA⟩

theorem patternFor_matchAll {p : Str} {A : Str → Prop} (h : PatternFor p A) :
    ∃ a, readPattern p = .ok a ∧ ∀ s, a.matchAll s = true ↔ A s := by
  obtain ⟨L, h1, h2⟩ := h
  obtain ⟨a, ha, rfl⟩ := readPattern_complete h1
  exact ⟨a, ha, fun s => (matchFrom_iff a true s).trans (h2 s).symm⟩

end Sharg
