import Verif.Lemmas.RegexTexts
import Verif.Lemmas.VersionParts
import Verif.Props.PathRegex
import Verif.Props.Tutorial

/-!
# Patterns (C103)
-/

namespace Sharg

open Spec

variable {W : Type}

/-! ### The meaning of a pattern -/

/-- C103: a pattern has at most one meaning. -/
theorem C103_one_meaning (p : Str) (A B : Str → Prop) (hA : PatternFor p A) (hB : PatternFor p B) : ∀ s, A s ↔ B s := by
  obtain ⟨L, h1, h2⟩ := hA
  obtain ⟨L', h1', h2'⟩ := hB
  intro s
  rw [h2, h2', means_unique h1 h1']

/-- C103: the constructor of `std::regex` reads exactly the patterns that have a meaning, and `std::regex_match` tells whether the
whole text is matched. -/
theorem C103_regex_match (p : Str) :
    ((∃ A, PatternFor p A) ↔ ∃ r, readPattern p = .ok r) ∧
    ∀ r, readPattern p = .ok r → PatternFor p fun s => r.matchAll s = true := by
  have two : ∀ r, readPattern p = .ok r → PatternFor p fun s => r.matchAll s = true :=
    fun r h => patternFor_read h fun s => matchFrom_iff r true s
  refine ⟨⟨fun ⟨A, h⟩ => ?_, fun ⟨r, h⟩ => ⟨_, two r h⟩⟩, two⟩
  obtain ⟨r, hr, -⟩ := patternFor_matchAll h
  exact ⟨r, hr⟩

theorem patternValidator_read {p : Str} {r : Re} (h : readPattern p = .ok r) (other : Str → Option (Str → Bool)) (e : Exn) :
    patternValidator (W := W) other e p = regexValidator p r.matchAll := by
  unfold patternValidator
  rw [h]

theorem patternValidator_malformed {p : Str} (h : readPattern p = .error .malformed) (other : Str → Option (Str → Bool)) (e : Exn) :
    (patternValidator (W := W) other e p).run = fun _ => M.throw e := by
  unfold patternValidator
  rw [h]

open Classical in
/-- C103: the validator accepts a text exactly if the pattern matches the whole text, and a list exactly if it matches every
element. Nothing else changes. -/
theorem C103_accepts (other : Str → Option (Str → Bool)) (e : Exn) (p : Str) (A : Str → Prop) (h : PatternFor p A) (w : W) :
    (∀ s, (patternValidator other e p).run s w = if A s then .ok () w else .err .validationError w) ∧
    (∀ l, (patternValidator other e p).each.run l w = if (∀ s ∈ l, A s) then .ok () w else .err .validationError w) ∧
    (patternValidator (W := W) other e p).help = "Value must match the pattern '".toList ++ p ++ "'.".toList := by
  obtain ⟨r, hr, hm⟩ := patternFor_matchAll h
  have e1 := patternValidator_read (W := W) hr other e
  obtain ⟨h1, h2, -⟩ := C65_pattern_accepts p r.matchAll w
  refine ⟨fun s => ?_, fun l => ?_, by rw [e1]; rfl⟩
  · rw [e1, h1]
    by_cases hs : A s
    · rw [if_pos hs, if_pos ((hm s).2 hs)]
    · rw [if_neg hs, if_neg fun hh => hs ((hm s).1 hh)]
  · rw [e1, h2]
    by_cases hs : ∀ s ∈ l, A s
    · rw [if_pos hs, if_pos fun s hl => (hm s).2 (hs s hl)]
    · rw [if_neg hs, if_neg fun hh => hs fun s hl => (hm s).1 (hh s hl)]

/-- C103 for `parse()`: whatever the arguments are, when `parse()` has returned, every text that was given for a pattern is matched
by it. -/
theorem C103_parsed_texts (env : Env W) (g g' : Prog W) (hg : Reachable env g) (h : parse env g = (.returned, g'))
    (hv : VarsDistinct (decls g)) (hl : PositionalListsInRange env g) (other : Str → Option (Str → Bool)) (e : Exn) (p : Str)
    (A : Str → Prop) (hp : PatternFor p A) (x : VarId)
    (hx : CheckedBy (decls g) g'.parser.formatArguments (patternValidator other e p).atTexts x) :
    (∀ t, g'.store x = .one (.str t) → A t) ∧ ∀ es t, g'.store x = .many es → .str t ∈ es → A t := by
  obtain ⟨r, hr, hm⟩ := patternFor_matchAll hp
  rw [patternValidator_read hr] at hx
  obtain ⟨h1, h2⟩ := C90_parsed_texts env g g' hg h hv hl p r.matchAll x hx
  exact ⟨fun t ht => (hm t).1 (h1 t ht), fun es t hs ht => (hm t).1 (h2 es t hs ht)⟩

/-! ### The patterns in the code -/

/-- C103: the names of applications and subcommands are checked with `^[a-zA-Z0-9_-]+$` (parser.hpp line 735): letters, digits,
underscores and dashes, and at least one of them. -/
theorem C103_name_pattern : PatternFor "^[a-zA-Z0-9_-]+$".toList CleanName ∧
    PatternFor "^[a-zA-Z0-9_-]+$".toList fun s => matchesNameRegex s = true := by
  have hk : readPattern "^[a-zA-Z0-9_-]+$".toList = .ok (.seq .first (.seq ((Re.set ⟨false,
      [('a', 'z'), ('A', 'Z'), ('0', '9'), ('_', '_'), ('-', '-')]⟩).times (some (1, none))) (.seq .last .eps))) := by decide +kernel
  have h1 : PatternFor "^[a-zA-Z0-9_-]+$".toList CleanName := by
    refine patternFor_read hk fun s => ?_
    show _ ↔ Meaning.begin.followed (Meaning.followed _ (Meaning.stop.followed Meaning.nothing)) true s true
    rw [begin_followed, followed_nothing, times_none_lang, chars_followed]
    have key : ∀ c, CharSet.has ⟨false, [('a', 'z'), ('A', 'Z'), ('0', '9'), ('_', '_'), ('-', '-')]⟩ c = true ↔
        (('a' ≤ c ∧ c ≤ 'z') ∨ ('A' ≤ c ∧ c ≤ 'Z') ∨ ('0' ≤ c ∧ c ≤ '9') ∨ c = '_' ∨ c = '-') := by
      intro c
      rw [has_false]
      simp only [List.mem_cons, List.not_mem_nil, or_false, exists_eq_or_imp, exists_eq_left, between_same]
      exact Iff.rfl
    constructor
    · rintro ⟨h1, h2⟩
      exact ⟨s, [], by simp, List.length_pos_iff.2 h1, fun c hc => (key c).2 (h2 c hc), rfl, rfl⟩
    · rintro ⟨u, v, rfl, h1, h2, rfl, -⟩
      rw [List.append_nil]
      exact ⟨List.length_pos_iff.1 h1, fun c hc => (key c).1 (h2 c hc)⟩
  refine ⟨h1, ?_⟩
  have : (fun s => matchesNameRegex s = true) = CleanName := funext fun s => propext (matchesNameRegex_iff s)
  rw [this]
  exact h1

theorem isDecimal_chars (u : Str) : IsDecimal u ↔ 1 ≤ u.length ∧ ∀ c ∈ u, CharSet.has ⟨false, [('0', '9')]⟩ c = true := by
  have key : ∀ c, c ∈ digits ↔ CharSet.has ⟨false, [('0', '9')]⟩ c = true := fun c => by
    rw [mem_digits_iff, isDigit_iff, has_digit]
  constructor
  · rintro ⟨h1, h2⟩
    exact ⟨List.length_pos_iff.2 h1, fun c hc => (key c).1 (h2 c hc)⟩
  · rintro ⟨h1, h2⟩
    exact ⟨List.length_pos_iff.1 h1, fun c hc => (key c).2 (h2 c hc)⟩

/-- C103: the versions that a server answers are checked with `^[[:digit:]]+\.[[:digit:]]+\.[[:digit:]]+$` (version_check.hpp lines
431 and 480): three numbers with dots between them. -/
theorem C103_version_pattern :
    PatternFor "^[[:digit:]]+\\.[[:digit:]]+\\.[[:digit:]]+$".toList fun s =>
      ∃ a b c, IsDecimal a ∧ IsDecimal b ∧ IsDecimal c ∧ s = a ++ '.' :: b ++ '.' :: c := by
  have hk : readPattern "^[[:digit:]]+\\.[[:digit:]]+\\.[[:digit:]]+$".toList = .ok (.seq .first (.seq ((Re.set ⟨false,
      [('0', '9')]⟩).times (some (1, none))) (.seq (.set (single '.')) (.seq ((Re.set ⟨false,
      [('0', '9')]⟩).times (some (1, none))) (.seq (.set (single '.')) (.seq ((Re.set ⟨false,
      [('0', '9')]⟩).times (some (1, none))) (.seq .last .eps))))))) := by decide +kernel
  refine patternFor_read hk fun s => ?_
  show _ ↔ Meaning.begin.followed (Meaning.followed _ (Meaning.followed _ (Meaning.followed _ (Meaning.followed _ (Meaning.followed _
    (Meaning.stop.followed Meaning.nothing)))))) true s true
  rw [begin_followed, followed_nothing, times_none_lang, chars_followed]
  constructor
  · rintro ⟨a, b, c, ha, hb, hc, rfl⟩
    obtain ⟨a1, a2⟩ := (isDecimal_chars a).1 ha
    obtain ⟨b1, b2⟩ := (isDecimal_chars b).1 hb
    obtain ⟨c1, c2⟩ := (isDecimal_chars c).1 hc
    refine ⟨a, '.' :: (b ++ '.' :: c), by simp, a1, a2, (this_followed _ _ _ _ _).2 ⟨_, rfl, (chars_followed _ _ _ _ _ _).2
      ⟨b, '.' :: c, rfl, b1, b2, (this_followed _ _ _ _ _).2 ⟨_, rfl, (chars_followed _ _ _ _ _ _).2
      ⟨c, [], by simp, c1, c2, rfl, rfl⟩⟩⟩⟩⟩
  · rintro ⟨a, v1, rfl, a1, a2, h1⟩
    obtain ⟨v2, rfl, h2⟩ := (this_followed _ _ _ _ _).1 h1
    obtain ⟨b, v3, rfl, b1, b2, h3⟩ := (chars_followed _ _ _ _ _ _).1 h2
    obtain ⟨v4, rfl, h4⟩ := (this_followed _ _ _ _ _).1 h3
    obtain ⟨c, v5, rfl, c1, c2, rfl, -⟩ := (chars_followed _ _ _ _ _ _).1 h4
    exact ⟨a, b, c, (isDecimal_chars a).2 ⟨a1, a2⟩, (isDecimal_chars b).2 ⟨b1, b2⟩, (isDecimal_chars c).2 ⟨c1, c2⟩, by simp⟩

/-- C103: a file name of the tutorial is checked with `.*seasons\..+$` (doc/tutorial/parser/solution6.cpp line 85): `seasons.` with
something behind it, in one line. -/
theorem C103_tutorial_pattern : PatternFor tutorialPattern SeasonsText ∧
    PatternFor tutorialPattern fun s => matchesSeasons s = true := by
  have hk : readPattern tutorialPattern = .ok (.seq ((Re.set ⟨true, [('\n', '\n'), ('\r', '\r')]⟩).times (some (0, none)))
      (.seq (.set (single 's')) (.seq (.set (single 'e')) (.seq (.set (single 'a')) (.seq (.set (single 's'))
      (.seq (.set (single 'o')) (.seq (.set (single 'n')) (.seq (.set (single 's')) (.seq (.set (single '.'))
      (.seq ((Re.set ⟨true, [('\n', '\n'), ('\r', '\r')]⟩).times (some (1, none))) (.seq .last .eps))))))))))) := by decide +kernel
  have key : ∀ c, CharSet.has ⟨true, [('\n', '\n'), ('\r', '\r')]⟩ c = true ↔ c ≠ '\n' ∧ c ≠ '\r' := by
    intro c
    rw [has_true]
    simp [between_same]
  have h1 : PatternFor tutorialPattern SeasonsText := by
    refine patternFor_read hk fun s => ?_
    show _ ↔ Meaning.followed _ (Meaning.followed _ (Meaning.followed _ (Meaning.followed _ (Meaning.followed _ (Meaning.followed _
      (Meaning.followed _ (Meaning.followed _ (Meaning.followed _ (Meaning.followed _ (Meaning.stop.followed Meaning.nothing))))))))))
      true s true
    rw [followed_nothing, times_none_lang, times_none_lang, chars_followed]
    constructor
    · rintro ⟨⟨a, b, rfl, hb⟩, h1, h2⟩
      have hc : ∀ c, c ∈ a ++ "seasons.".toList ++ b → CharSet.has ⟨true, [('\n', '\n'), ('\r', '\r')]⟩ c = true := fun c hc =>
        (key c).2 ⟨fun e => h1 (e ▸ hc), fun e => h2 (e ▸ hc)⟩
      refine ⟨a, "seasons.".toList ++ b, by simp, Nat.zero_le _, fun c h => hc c (by simp [h]), ?_⟩
      refine (this_followed _ _ _ _ _).2 ⟨_, rfl, (this_followed _ _ _ _ _).2 ⟨_, rfl, (this_followed _ _ _ _ _).2 ⟨_, rfl,
        (this_followed _ _ _ _ _).2 ⟨_, rfl, (this_followed _ _ _ _ _).2 ⟨_, rfl, (this_followed _ _ _ _ _).2 ⟨_, rfl,
        (this_followed _ _ _ _ _).2 ⟨_, rfl, (this_followed _ _ _ _ _).2 ⟨b, rfl, (chars_followed _ _ _ _ _ _).2
        ⟨b, [], by simp, List.length_pos_iff.2 hb, fun c h => hc c (by simp [h]), rfl, rfl⟩⟩⟩⟩⟩⟩⟩⟩⟩
    · rintro ⟨a, v1, rfl, -, a2, h1⟩
      obtain ⟨v2, rfl, h2⟩ := (this_followed _ _ _ _ _).1 h1
      obtain ⟨v3, rfl, h3⟩ := (this_followed _ _ _ _ _).1 h2
      obtain ⟨v4, rfl, h4⟩ := (this_followed _ _ _ _ _).1 h3
      obtain ⟨v5, rfl, h5⟩ := (this_followed _ _ _ _ _).1 h4
      obtain ⟨v6, rfl, h6⟩ := (this_followed _ _ _ _ _).1 h5
      obtain ⟨v7, rfl, h7⟩ := (this_followed _ _ _ _ _).1 h6
      obtain ⟨v8, rfl, h8⟩ := (this_followed _ _ _ _ _).1 h7
      obtain ⟨v9, rfl, h9⟩ := (this_followed _ _ _ _ _).1 h8
      obtain ⟨b, v10, rfl, b1, b2, rfl, -⟩ := (chars_followed _ _ _ _ _ _).1 h9
      have a2' : '\n' ∉ a ∧ '\r' ∉ a := ⟨fun h => ((key _).1 (a2 _ h)).1 rfl, fun h => ((key _).1 (a2 _ h)).2 rfl⟩
      have b2' : '\n' ∉ b ∧ '\r' ∉ b := ⟨fun h => ((key _).1 (b2 _ h)).1 rfl, fun h => ((key _).1 (b2 _ h)).2 rfl⟩
      refine ⟨⟨a, b, by simp, List.length_pos_iff.1 b1⟩, ?_, ?_⟩
      · simp [a2'.1, b2'.1]
      · simp [a2'.2, b2'.2]
  refine ⟨h1, ?_⟩
  have : (fun s => matchesSeasons s = true) = SeasonsText := funext fun s => propext (matchesSeasons_iff s)
  rw [this]
  exact h1

/-- C103: the version of the application is looked for with `^([[:digit:]]+\.[[:digit:]]+\.[[:digit:]]+).*` (version_check.hpp line
93). What the version check uses is the longest beginning of the text that the group matches, or 0.0.0 if it matches no beginning. -/
theorem C103_own_version : ∃ L, Means .disjunction "^([[:digit:]]+\\.[[:digit:]]+\\.[[:digit:]]+)".toList L ∧
    ∀ text : Str,
      (∀ u v, text = u ++ v → L true u v.isEmpty → u <+: ownVersion text) ∧
      ((∃ v, text = ownVersion text ++ v ∧ L true (ownVersion text) v.isEmpty) ∨
        ownVersion text = "0.0.0".toList ∧ ∀ u v, text = u ++ v → ¬ L true u v.isEmpty) := by
  have hk : readPattern "^([[:digit:]]+\\.[[:digit:]]+\\.[[:digit:]]+)".toList = .ok (.seq .first (.seq (.seq ((Re.set ⟨false,
      [('0', '9')]⟩).times (some (1, none))) (.seq (.set (single '.')) (.seq ((Re.set ⟨false,
      [('0', '9')]⟩).times (some (1, none))) (.seq (.set (single '.')) (.seq ((Re.set ⟨false,
      [('0', '9')]⟩).times (some (1, none))) .eps))))) .eps)) := by decide +kernel
  refine ⟨_, readPattern_sound hk, ?_⟩
  have key : ∀ (s : Str) (fin : Bool), Meaning.begin.followed (Meaning.followed (Meaning.followed ((Re.set ⟨false,
      [('0', '9')]⟩).times (some (1, none))).lang (Meaning.followed (Re.set (single '.')).lang (Meaning.followed ((Re.set ⟨false,
      [('0', '9')]⟩).times (some (1, none))).lang (Meaning.followed (Re.set (single '.')).lang (Meaning.followed ((Re.set ⟨false,
      [('0', '9')]⟩).times (some (1, none))).lang Meaning.nothing))))) Meaning.nothing) true s fin ↔
      ∃ a b c, (IsDecimal a ∧ IsDecimal b ∧ IsDecimal c) ∧ s = a ++ '.' :: b ++ '.' :: c := by
    intro s fin
    rw [begin_followed, followed_nothing, followed_nothing, times_none_lang, chars_followed]
    constructor
    · rintro ⟨a, v1, rfl, a1, a2, h1⟩
      obtain ⟨v2, rfl, h2⟩ := (this_followed _ _ _ _ _).1 h1
      obtain ⟨b, v3, rfl, b1, b2, h3⟩ := (chars_followed _ _ _ _ _ _).1 h2
      obtain ⟨c, rfl, h4⟩ := (this_followed _ _ _ _ _).1 h3
      obtain ⟨c1, c2⟩ := (char_repeated _ _ _ _ _).1 h4
      exact ⟨a, b, c, ⟨(isDecimal_chars a).2 ⟨a1, a2⟩, (isDecimal_chars b).2 ⟨b1, b2⟩, (isDecimal_chars c).2 ⟨c1, c2⟩⟩, by simp⟩
    · rintro ⟨a, b, c, ⟨ha, hb, hc⟩, rfl⟩
      obtain ⟨a1, a2⟩ := (isDecimal_chars a).1 ha
      obtain ⟨b1, b2⟩ := (isDecimal_chars b).1 hb
      exact ⟨a, '.' :: (b ++ '.' :: c), by simp, a1, a2, (this_followed _ _ _ _ _).2 ⟨_, rfl, (chars_followed _ _ _ _ _ _).2
        ⟨b, '.' :: c, rfl, b1, b2, (this_followed _ _ _ _ _).2 ⟨_, rfl, (char_repeated _ _ _ _ _).2 ((isDecimal_chars c).1 hc)⟩⟩⟩⟩
  intro text
  have front : ∀ a b c v, (IsDecimal a ∧ IsDecimal b ∧ IsDecimal c) → text = a ++ '.' :: b ++ '.' :: c ++ v →
      versionMatch text = some (a, b, c ++ v.takeWhile isDigit, v.dropWhile isDigit) := by
    rintro a b c v ⟨ha, hb, hc⟩ rfl
    refine (versionMatch_iff _ _ _ _ _).2 ⟨by simp [List.takeWhile_append_dropWhile], ⟨ha, hb, by simp [hc.1], fun x hx => ?_⟩,
      (takeWhile_digits_spec v).2⟩
    rcases List.mem_append.1 hx with hx | hx
    · exact hc.2 x hx
    · exact (takeWhile_digits_spec v).1 x hx
  refine ⟨fun u v e h => ?_, ?_⟩
  · obtain ⟨a, b, c, hd, rfl⟩ := (key u v.isEmpty).1 h
    have := front a b c v hd e
    unfold ownVersion
    rw [this]
    exact ⟨v.takeWhile isDigit, by simp⟩
  · cases hm : versionMatch text with
    | some x =>
      obtain ⟨a, b, c, rest⟩ := x
      obtain ⟨h1, h2, h3⟩ := (versionMatch_iff _ _ _ _ _).1 hm
      have ho : ownVersion text = a ++ '.' :: b ++ '.' :: c := by unfold ownVersion; rw [hm]
      exact Or.inl ⟨rest, by rw [ho]; exact h1, by rw [ho]; exact (key _ _).2 ⟨a, b, c, h2, rfl⟩⟩
    | none =>
      refine Or.inr ⟨by unfold ownVersion; rw [hm], fun u v e h => ?_⟩
      obtain ⟨a, b, c, hd, rfl⟩ := (key u v.isEmpty).1 h
      rw [front a b c v hd e] at hm
      cases hm

/-! ### Patterns that cannot be read -/

/-- C103: a bracket that is not closed, a bracket that is closed without being opened, and a repetition of nothing make a pattern
unreadable. -/
theorem C103_malformed (p : Str) (A : Str → Prop) (h : PatternFor p A) :
    readPattern ('(' :: p) = .error .malformed ∧ readPattern (p ++ [')']) = .error .malformed ∧
    ∀ c ∈ ['*', '+', '?', '{'], readPattern (c :: p) = .error .malformed := by
  obtain ⟨L, hm, -⟩ := h
  obtain ⟨hb, a, -, hr⟩ := means_read hm
  refine ⟨?_, ?_, ?_⟩
  · have hq : ¬ p.head? = some '?' := fun hq => (hb _ hq).1 (by decide)
    have h0 : readAtom (4 * p.length + 5) '(' p = .error .malformed := by
      unfold readAtom
      have e := hr [] (4 * p.length + 4) (fun c hc => by cases hc) (by omega)
      rw [List.append_nil] at e
      rw [if_neg (by decide), if_neg (by decide), if_neg (by decide), if_pos rfl, if_neg (fun hh => hq hh.1), if_neg hq, e]
      rfl
    have h1 : readTerm (4 * p.length + 6) ('(' :: p) = .error .malformed := by
      unfold readTerm
      rw [if_neg (by decide), if_neg (by decide), h0]
    have h2 : readAlternative (4 * p.length + 7) ('(' :: p) = .error .malformed := by
      unfold readAlternative
      rw [if_neg (by simp), h1]
    have h3 : readDisjunction (4 * p.length + 8) ('(' :: p) = .error .malformed := by
      unfold readDisjunction
      rw [h2]
    unfold readPattern
    rw [show 4 * ('(' :: p).length + 4 = 4 * p.length + 8 by simp only [List.length_cons]; omega, h3]
  · unfold readPattern
    rw [hr [')'] _ (fun c hc => by simpa using hc.symm) (by simp only [List.length_append]; omega)]
    rfl
  · intro c hc
    have hs : c ≠ '.' ∧ c ≠ '\\' ∧ c ≠ '[' ∧ c ≠ '(' ∧ ¬ (c = ']' ∨ c = '}') ∧ c ∈ patternSpecial ∧ c ≠ '^' ∧ c ≠ '$' ∧ c ≠ '|' ∧ c ≠ ')' := by
      simp only [List.mem_cons, List.not_mem_nil, or_false] at hc
      rcases hc with rfl | rfl | rfl | rfl <;> decide
    obtain ⟨s1, s2, s3, s4, s5, s6, s7, s8, s9, s10⟩ := hs
    have h0 : readAtom (4 * p.length + 5) c p = .error .malformed := by
      unfold readAtom
      rw [if_neg s1, if_neg s2, if_neg s3, if_neg s4, if_neg s5, if_pos s6]
    have h1 : readTerm (4 * p.length + 6) (c :: p) = .error .malformed := by
      unfold readTerm
      rw [if_neg s7, if_neg s8, h0]
    have h2 : readAlternative (4 * p.length + 7) (c :: p) = .error .malformed := by
      unfold readAlternative
      rw [if_neg (by simp [s9, s10]), h1]
    have h3 : readDisjunction (4 * p.length + 8) (c :: p) = .error .malformed := by
      unfold readDisjunction
      rw [h2]
    unfold readPattern
    rw [show 4 * (c :: p).length + 4 = 4 * p.length + 8 by simp only [List.length_cons]; omega, h3]

/-- C103, partial (the application is told only when a value is checked, and not as a `design_error`): with a pattern that cannot be
read, the validator throws on every text. When `parse()` has returned, a variable that holds a text has not been given a value for
such a pattern. -/
theorem C103_unreadable_pattern_partial (env : Env W) (g g' : Prog W) (hg : Reachable env g) (h : parse env g = (.returned, g'))
    (hv : VarsDistinct (decls g)) (hl : PositionalListsInRange env g) (other : Str → Option (Str → Bool)) (e : Exn) (p : Str)
    (hp : readPattern p = .error .malformed) :
    (∀ t w, (patternValidator (W := W) other e p).run t w = .err e w) ∧
    ∀ x t, (g'.store x = .one (.str t) ∨ ∃ es, g'.store x = .many es ∧ .str t ∈ es) →
      ¬ CheckedBy (decls g) g'.parser.formatArguments (patternValidator other e p).atTexts x := by
  have hr := patternValidator_malformed (W := W) hp other e
  refine ⟨fun t w => by rw [hr]; rfl, ?_⟩
  intro x t hst hx
  obtain ⟨_, u, u', _, h1, _⟩ := C33_validated_in_the_same_world env g g' hg h hv hl _ x hx
  rcases hst with ht | ⟨es, hs, ht⟩
  · rw [ht] at h1
    have h2 := inParser_true (show (patternValidator other e p).inParser t u = (true, u') from h1)
    rw [hr] at h2
    cases h2
  · rw [hs] at h1
    have h2 := inParser_true (show (patternValidator other e p).each.inParser (es.filterMap fun | .str t => some t | _ => none) u = (true, u') from h1)
    have hmem : t ∈ es.filterMap fun | .str t => some t | _ => none := List.mem_filterMap.2 ⟨_, ht, rfl⟩
    generalize (es.filterMap fun | .str t => some t | _ => none) = l at h2 hmem
    cases l with
    | nil => cases hmem
    | cons y l =>
      change M.forEach (patternValidator other e p).run (y :: l) u = _ at h2
      rw [hr, M.forEach_cons] at h2
      cases h2

/-! ### Examples -/

/-- A flag, and an option `-t` for texts with a pattern. -/
def exTextRun (p : String) (args : List String) : Prog Unit :=
  exRun [.addFlag { short := 'v', long := "verbose".toList } 3 false,
    .addOption { short := 't', long := "text".toList } 1 false .string
      (patternValidator (fun _ => none) .userInputError p.toList).atTexts] (args.map String.toList)

/-- C103 is false: a pattern with a bracket that is not closed is not noticed while nobody gives a value, and then the value is
blamed. -/
theorem C103_mistake_blamed_on_the_user :
    ∃ p : String, (¬ ∃ A, PatternFor p.toList A) ∧ (parse exEnv (exTextRun p ["-v"])).1 = .returned ∧
      (parse exEnv (exTextRun p ["-t", "abc"])).1 = .threw .validationError := by
  refine ⟨"(abc", fun h => ?_, by decide +kernel, by decide +kernel⟩
  obtain ⟨r, hr⟩ := (C103_regex_match _).1.1 h
  have : readPattern "(abc".toList = .error .malformed := by decide +kernel
  rw [this] at hr
  cases hr

/-- The e-mail address of the documentation (test/snippet/validators_4.cpp line 13). -/
theorem C103_email_pattern : PatternFor "[a-zA-Z]+@[a-zA-Z]+\\.com".toList fun s =>
    ∃ a b, s = a ++ '@' :: b ++ ".com".toList ∧ a ≠ [] ∧ b ≠ [] ∧ ∀ c, c ∈ a ∨ c ∈ b → IsLower c ∨ IsUpper c := by
  have hk : readPattern "[a-zA-Z]+@[a-zA-Z]+\\.com".toList = .ok (.seq ((Re.set ⟨false, [('a', 'z'), ('A', 'Z')]⟩).times (some (1, none)))
      (.seq (.set (single '@')) (.seq ((Re.set ⟨false, [('a', 'z'), ('A', 'Z')]⟩).times (some (1, none)))
      (.seq (.set (single '.')) (.seq (.set (single 'c')) (.seq (.set (single 'o')) (.seq (.set (single 'm')) .eps))))))) := by decide +kernel
  have key : ∀ c, CharSet.has ⟨false, [('a', 'z'), ('A', 'Z')]⟩ c = true ↔ IsLower c ∨ IsUpper c := by
    intro c
    rw [has_false]
    simp only [List.mem_cons, List.not_mem_nil, or_false, exists_eq_or_imp, exists_eq_left]
    exact Iff.rfl
  refine patternFor_read hk fun s => ?_
  show _ ↔ Meaning.followed _ (Meaning.followed _ (Meaning.followed _ (Meaning.followed _ (Meaning.followed _ (Meaning.followed _
    (Meaning.followed _ Meaning.nothing)))))) true s true
  rw [times_none_lang, chars_followed]
  constructor
  · rintro ⟨a, b, rfl, ha, hb, hc⟩
    exact ⟨a, '@' :: (b ++ ".com".toList), by simp, List.length_pos_iff.2 ha, fun c h => (key c).2 (hc c (Or.inl h)),
      (this_followed _ _ _ _ _).2 ⟨_, rfl, (chars_followed _ _ _ _ _ _).2 ⟨b, _, rfl, List.length_pos_iff.2 hb,
      fun c h => (key c).2 (hc c (Or.inr h)), (this_followed _ _ _ _ _).2 ⟨_, rfl, (this_followed _ _ _ _ _).2 ⟨_, rfl,
      (this_followed _ _ _ _ _).2 ⟨_, rfl, (this_followed _ _ _ _ _).2 ⟨_, rfl, rfl⟩⟩⟩⟩⟩⟩⟩
  · rintro ⟨a, v1, rfl, a1, a2, h1⟩
    obtain ⟨v2, rfl, h2⟩ := (this_followed _ _ _ _ _).1 h1
    obtain ⟨b, v3, rfl, b1, b2, h3⟩ := (chars_followed _ _ _ _ _ _).1 h2
    obtain ⟨v4, rfl, h4⟩ := (this_followed _ _ _ _ _).1 h3
    obtain ⟨v5, rfl, h5⟩ := (this_followed _ _ _ _ _).1 h4
    obtain ⟨v6, rfl, h6⟩ := (this_followed _ _ _ _ _).1 h5
    obtain ⟨v7, rfl, rfl⟩ := (this_followed _ _ _ _ _).1 h6
    refine ⟨a, b, by simp, List.length_pos_iff.1 a1, List.length_pos_iff.1 b1, fun c hc => (key c).1 ?_⟩
    rcases hc with hc | hc
    · exact a2 c hc
    · exact b2 c hc

/-- `app -t ballo@rollo.com`. -/
def exEmail : Prog Unit := exTextRun "[a-zA-Z]+@[a-zA-Z]+\\.com" ["-t", "ballo@rollo.com"]

theorem exEmail_returned : parse exEnv exEmail = (.returned, (parse exEnv exEmail).2) := returned_pair (by decide +kernel)

theorem exEmail_decls : decls exEmail = declsOf ([.addFlag { short := 'v', long := "verbose".toList } 3 false,
    .addOption { short := 't', long := "text".toList } 1 false .string
      (patternValidator (fun _ => none) .userInputError "[a-zA-Z]+@[a-zA-Z]+\\.com".toList).atTexts].filterMap Call.entry?) := by
  unfold decls exEmail exTextRun exRun
  rw [operations_of_length exEnv _ _ (by decide +kernel)]
  rfl

theorem exEmail_checked : CheckedBy (decls exEmail) (parse exEnv exEmail).2.parser.formatArguments
    (patternValidator (fun _ => none) .userInputError "[a-zA-Z]+@[a-zA-Z]+\\.com".toList).atTexts 1 := by
  rw [exEmail_decls]
  exact Or.inl ⟨_, .head _, rfl, rfl, "-t".toList, by decide +kernel, by decide +kernel⟩

example : ∃ a b, "ballo@rollo.com".toList = a ++ '@' :: b ++ ".com".toList ∧ a ≠ [] ∧ b ≠ [] ∧ ∀ c, c ∈ a ∨ c ∈ b → IsLower c ∨ IsUpper c :=
  (C103_parsed_texts exEnv exEmail (parse exEnv exEmail).2 (exRun_reachable _ _) exEmail_returned (by decide +kernel) (Or.inl rfl)
    (fun _ => none) .userInputError _ _ C103_email_pattern 1 exEmail_checked).1 _ (by decide +kernel)

/-- `app -v`, with a pattern that cannot be read. -/
def exUnread : Prog Unit := exTextRun "(abc" ["-v"]

example : ¬ CheckedBy (decls exUnread) (parse exEnv exUnread).2.parser.formatArguments
    (patternValidator (fun _ => none) .userInputError "(abc".toList).atTexts 1 :=
  (C103_unreadable_pattern_partial exEnv exUnread (parse exEnv exUnread).2 (exRun_reachable _ _) (returned_pair (by decide +kernel))
    (by decide +kernel) (Or.inl rfl) (fun _ => none) .userInputError "(abc".toList (by decide +kernel)).2 1 [] (Or.inl (by decide +kernel))

example : (parse exEnv (exTextRun "[a-zA-Z]+@[a-zA-Z]+\\.com" ["-t", "ballo@rollo.com"])).1 = .returned ∧
    (parse exEnv (exTextRun "[a-zA-Z]+@[a-zA-Z]+\\.com" ["-t", "ballo@rollo.de"])).1 = .threw .validationError ∧
    (parse exEnv (exTextRun "[0-9]{2,3}|x?" ["-t", "123"])).1 = .returned ∧
    (parse exEnv (exTextRun "[0-9]{2,3}|x?" ["-t", "1"])).1 = .threw .validationError := by decide +kernel

/-- One directory of a path: a slash and a name. -/
theorem directories_power (k : Nat) (start : Bool) (s : Str) (fin : Bool) :
    ((Re.seq (.set (single '/')) (.seq ((Re.set ⟨true, [('/', '/')]⟩).times (some (1, none))) .eps)).lang.power k) start s fin ↔
      ∃ names : List Str, names.length = k ∧ (∀ n ∈ names, n ≠ [] ∧ '/' ∉ n) ∧ s = names.flatMap ('/' :: ·) := by
  have key : ∀ c, CharSet.has ⟨true, [('/', '/')]⟩ c = true ↔ c ≠ '/' := by
    intro c
    rw [has_true]
    simp [between_same]
  have one : ∀ (A : Meaning) (start : Bool) (s : Str),
      ((Re.seq (.set (single '/')) (.seq ((Re.set ⟨true, [('/', '/')]⟩).times (some (1, none))) .eps)).lang.followed A) start s fin ↔
        ∃ n v, s = '/' :: n ++ v ∧ (n ≠ [] ∧ '/' ∉ n) ∧ A false v fin := by
    intro A start s
    show (Meaning.followed (Meaning.followed _ (Meaning.followed _ Meaning.nothing)) A) start s fin ↔ _
    rw [followed_nothing, followed_assoc, times_none_lang]
    constructor
    · intro h
      obtain ⟨t, rfl, h1⟩ := (this_followed _ _ _ _ _).1 h
      obtain ⟨n, v, rfl, h2, h3, h4⟩ := (chars_followed _ _ _ _ _ _).1 h1
      exact ⟨n, v, rfl, ⟨List.length_pos_iff.1 h2, fun hn => (key _).1 (h3 _ hn) rfl⟩, by simpa using h4⟩
    · rintro ⟨n, v, rfl, ⟨h1, h2⟩, h3⟩
      exact (this_followed _ _ _ _ _).2 ⟨_, rfl, (chars_followed _ _ _ _ _ _).2 ⟨n, v, rfl, List.length_pos_iff.2 h1,
        fun c hc => (key c).2 fun e => h2 (e ▸ hc), by simpa using h3⟩⟩
  induction k generalizing start s with
  | zero =>
    show s = [] ↔ _
    constructor
    · rintro rfl
      exact ⟨[], rfl, by simp, rfl⟩
    · rintro ⟨names, h1, -, rfl⟩
      rw [List.length_eq_zero_iff.1 h1]
      rfl
  | succ k ih =>
    refine (one _ start s).trans ?_
    constructor
    · rintro ⟨n, v, rfl, hn, h⟩
      obtain ⟨names, h1, h2, rfl⟩ := (ih false v).1 h
      exact ⟨n :: names, by simp [h1], by simpa using ⟨hn, h2⟩, by simp⟩
    · rintro ⟨names, h1, h2, rfl⟩
      cases names with
      | nil => cases h1
      | cons n names =>
        exact ⟨n, names.flatMap ('/' :: ·), by simp, h2 n (by simp), (ih false _).2 ⟨names, by simpa using h1, fun m hm => h2 m (by simp [hm]), rfl⟩⟩

/-- C103: the pattern for absolute paths in the documentation (test/snippet/validators_chaining.cpp line 14). -/
theorem C103_absolute_pattern : PatternFor "(/[^/]+)+/.*\\.[^/\\.]+$".toList fun s =>
    ∃ (names : List Str) (r e : Str), s = names.flatMap ('/' :: ·) ++ '/' :: r ++ '.' :: e ∧ names ≠ [] ∧
      (∀ n ∈ names, n ≠ [] ∧ '/' ∉ n) ∧ '\n' ∉ r ∧ '\r' ∉ r ∧ e ≠ [] ∧ '/' ∉ e ∧ '.' ∉ e := by
  have hk : readPattern "(/[^/]+)+/.*\\.[^/\\.]+$".toList = .ok (.seq ((Re.seq (.set (single '/')) (.seq ((Re.set
      ⟨true, [('/', '/')]⟩).times (some (1, none))) .eps)).times (some (1, none))) (.seq (.set (single '/')) (.seq ((Re.set
      ⟨true, [('\n', '\n'), ('\r', '\r')]⟩).times (some (0, none))) (.seq (.set (single '.')) (.seq ((Re.set
      ⟨true, [('/', '/'), ('.', '.')]⟩).times (some (1, none))) (.seq .last .eps)))))) := by decide +kernel
  have k1 : ∀ c, CharSet.has ⟨true, [('\n', '\n'), ('\r', '\r')]⟩ c = true ↔ c ≠ '\n' ∧ c ≠ '\r' := by
    intro c
    rw [has_true]
    simp [between_same]
  have k2 : ∀ c, CharSet.has ⟨true, [('/', '/'), ('.', '.')]⟩ c = true ↔ c ≠ '/' ∧ c ≠ '.' := by
    intro c
    rw [has_true]
    simp [between_same]
  refine patternFor_read hk fun s => ?_
  show _ ↔ Meaning.followed _ (Meaning.followed _ (Meaning.followed _ (Meaning.followed _ (Meaning.followed _
    (Meaning.stop.followed Meaning.nothing))))) true s true
  rw [followed_nothing, times_none_lang, times_none_lang, times_lang _ 1 none (fun l h => by cases h)]
  constructor
  · rintro ⟨names, r, e, rfl, h1, h2, h3, h4, h5, h6, h7⟩
    refine ⟨names.flatMap ('/' :: ·), '/' :: (r ++ '.' :: e), by simp, ⟨names.length, List.length_pos_iff.2 h1, fun l hl => (by cases hl),
      (directories_power _ _ _ _).2 ⟨names, rfl, h2, rfl⟩⟩, ?_⟩
    refine (this_followed _ _ _ _ _).2 ⟨_, rfl, (chars_followed _ _ _ _ _ _).2 ⟨r, '.' :: e, rfl, Nat.zero_le _, fun c hc => (k1 c).2
      ⟨fun he => h3 (he ▸ hc), fun he => h4 (he ▸ hc)⟩, (this_followed _ _ _ _ _).2 ⟨e, rfl, (chars_followed _ _ _ _ _ _).2
      ⟨e, [], by simp, List.length_pos_iff.2 h5, fun c hc => (k2 c).2 ⟨fun he => h6 (he ▸ hc), fun he => h7 (he ▸ hc)⟩, rfl, rfl⟩⟩⟩⟩
  · rintro ⟨u, v, rfl, ⟨k, hk1, -, hk2⟩, h1⟩
    obtain ⟨names, rfl, hn, rfl⟩ := (directories_power _ _ _ _).1 hk2
    obtain ⟨v2, rfl, h2⟩ := (this_followed _ _ _ _ _).1 h1
    obtain ⟨r, v3, rfl, -, r2, h3⟩ := (chars_followed _ _ _ _ _ _).1 h2
    obtain ⟨v4, rfl, h4⟩ := (this_followed _ _ _ _ _).1 h3
    obtain ⟨e, v5, rfl, e1, e2, rfl, -⟩ := (chars_followed _ _ _ _ _ _).1 h4
    exact ⟨names, r, e, by simp, List.length_pos_iff.1 hk1, hn, fun hc => ((k1 _).1 (r2 _ hc)).1 rfl, fun hc => ((k1 _).1 (r2 _ hc)).2 rfl,
      List.length_pos_iff.1 e1, fun hc => ((k2 _).1 (e2 _ hc)).1 rfl, fun hc => ((k2 _).1 (e2 _ hc)).2 rfl⟩

/-- C103 and C90: an option of type `std::filesystem::path` with the pattern for absolute paths of the documentation accepts no path,
absolute or not. -/
theorem C103_documented_pattern_rejects_all_paths (other : Str → Option (Str → Bool)) (e : Exn) (t : Str) (ht : t ≠ []) (w : W) :
    (patternValidator other e "(/[^/]+)+/.*\\.[^/\\.]+$".toList).onParts.run t w = .err .validationError w := by
  obtain ⟨r, hr, hm⟩ := patternFor_matchAll C103_absolute_pattern
  rw [patternValidator_read hr]
  refine C90_patterns_for_directories_reject_everything _ _ (fun q hq => ?_) t ht w
  obtain ⟨names, r, e, rfl, -, -, -, -, h5, -⟩ := (hm q).1 hq
  refine ⟨by simp, fun h => ?_⟩
  have := congrArg List.length h
  simp at this
  omega

example : ∃ (names : List Str) (r e : Str), "/a/x.f".toList = names.flatMap ('/' :: ·) ++ '/' :: r ++ '.' :: e ∧ names ≠ [] ∧
      (∀ n ∈ names, n ≠ [] ∧ '/' ∉ n) ∧ '\n' ∉ r ∧ '\r' ∉ r ∧ e ≠ [] ∧ '/' ∉ e ∧ '.' ∉ e :=
  ⟨["a".toList], "x".toList, "f".toList, by decide +kernel⟩

end Sharg
