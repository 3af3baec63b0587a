import Verif.Lemmas.Text
import Verif.Model.Help

/-!
# Properties C44, C48, C56, C57: texts

Escaping, widths, defaults, flag groups.
-/

namespace Sharg

open Spec

/-! ## C44 -/

/-- C44: no raw quote or angle bracket is left, every `&` starts a predefined entity, and an XML processor reads
back exactly the text. -/
theorem C44_escaping_is_safe_and_reversible (s : Str) :
    (∀ c ∈ escapeXml s, c ∉ ['"', '\'', '<', '>']) ∧
    (∀ before after, escapeXml s = before ++ '&' :: after → ∃ e ∈ entities, e.1 <+: '&' :: after) ∧
    (∀ t, XmlDecodes (escapeXml s) t ↔ t = s) := by
  refine ⟨?_, ?_, fun t => ⟨fun h => xmlDecodes_unique h (escapeXml_decodes s), fun h => h ▸ escapeXml_decodes s⟩⟩
  · intro c hc
    simp only [escapeXml, List.mem_flatMap] at hc
    obtain ⟨d, _, hd⟩ := hc
    rcases escapeXmlChar_entity d with ⟨he, hn⟩ | he
    · rw [he, List.mem_singleton] at hd
      subst hd
      simp only [List.mem_cons, not_or, List.not_mem_nil, or_false] at hn ⊢
      exact ⟨hn.1, hn.2.1, hn.2.2.1, hn.2.2.2.1⟩
    · exact entity_chars he c hd
  · induction s with
    | nil => intro b a h; simp [escapeXml] at h
    | cons d s ih =>
      intro b a h
      rw [escapeXml_cons] at h
      rcases List.append_eq_append_iff.1 h with ⟨x, hx, hs⟩ | ⟨x, hx, hs⟩
      · exact ih x a hs
      · rcases escapeXmlChar_entity d with ⟨he, hn⟩ | he
        · rw [he] at hx
          cases b with
          | nil =>
            cases x with
            | nil => exact ih [] a (by simpa using hs.symm)
            | cons y x =>
              simp only [List.nil_append, List.cons.injEq] at hx hs
              simp only [List.cons_append, List.cons.injEq] at hs
              exfalso; apply hn; rw [hx.1, ← hs.1]; simp
          | cons z b =>
            simp only [List.cons_append, List.cons.injEq] at hx
            have hx2 := hx.2
            simp only [List.nil_eq_append_iff] at hx2
            rw [hx2.2] at hs
            exact ih [] a (by simpa using hs.symm)
        · cases x with
          | nil => exact ih [] a (by simpa using hs.symm)
          | cons y x =>
            simp only [List.cons_append, List.cons.injEq] at hs
            obtain ⟨rfl, rfl⟩ := hs
            have hb := entity_amp he b x hx
            subst hb
            refine ⟨_, he, ?_⟩
            rw [hx]
            exact ⟨escapeXml s, by simp⟩

example : escapeXml "a<b & \"c\"".toList = "a&lt;b &amp; &quot;c&quot;".toList := by decide +kernel

/-! ## C48 -/

/-- C48 (negation): two backslashes are printed as two characters but counted as one; a backslash before another
character is not counted at all; the heading of the page prints markup as it is but underlines it as if it was
interpreted. -/
theorem C48_width_differs :
    (toText true false ['\\', '\\'] = .ok ['\\', '\\'] ∧ textWidth ['\\', '\\'] = 1) ∧
    (toText true false ['\\', 'd', '+'] = .ok ['\\', 'd', '+'] ∧ textWidth ['\\', 'd', '+'] = 2) ∧
    (helpHeader ['a'] { shortDescription := "\\fBx\\fP".toList } ⟨[], false⟩).state.out
      = "a - \\fBx\\fP\n=====\n".toList := by
  decide +kernel

/-- C48 (partial; missing: texts with a backslash that starts neither `\-` nor a font command, see above): for marked
up text the computed width is the number of characters shown. -/
theorem C48_width_of_markup_partial (ndebug : Bool) {text shown : Str} (h : Marked text shown) :
    toText ndebug false text = .ok shown ∧ textWidth text = shown.length :=
  ⟨marked_toText ndebug h, marked_textWidth h⟩

example : Marked ['\\', 'f', 'B', '-', 'i', '\\', 'f', 'P', ' ', '\\', '-', '\\', 'f', 'X']
    ['-', 'i', ' ', '-', '\\', 'f', 'X'] :=
  .font (by decide) (.char (by decide) (.char (by decide) (.font (by decide) (.char (by decide)
    (.dash (.unknown (by decide) .nil))))))

/-! ## C56 -/

theorem defaultOfValue_string (te : TypeEnv) (s : Str) :
    defaultOfValue te .string (.one (.str s)) = " Default: ".toList ++ quoted s := rfl

/-- C56 (negation): without quotes the list notation is ambiguous. This is how the allowed values of a
`value_list_validator` of strings are listed; the two different lists give the same text. On the console even quoted
defaults are ambiguous, since runs of blanks are printed as one: the defaults `a b` and `a  b` give the same page. -/
theorem C56_ambiguous (c : Console) (te : TypeEnv) (tab : Nat) (h : HelpState) :
    showList ["a, b".toList] = showList ["a".toList, "b".toList] ∧
    printText c (defaultOfValue te .string (.one (.str "a b".toList))) tab h =
      printText c (defaultOfValue te .string (.one (.str "a  b".toList))) tab h := by
  refine ⟨by decide, ?_⟩
  have : words (defaultOfValue te .string (.one (.str "a b".toList))) =
      words (defaultOfValue te .string (.one (.str "a  b".toList))) := by
    rw [defaultOfValue_string, defaultOfValue_string]
    decide +kernel
  simp only [printText, this]

/-- C56 (partial; missing: unquoted strings and the collapsed blanks of the console page, see above): the default
text of a string option and of a list of strings determines the value. -/
theorem C56_string_defaults_recoverable_partial (te : TypeEnv) :
    (∀ s t, defaultOfValue te .string (.one (.str s)) = defaultOfValue te .string (.one (.str t)) → s = t) ∧
    (∀ l m : List Str, defaultOfValue te .string (.many (l.map .str)) = defaultOfValue te .string (.many (m.map .str)) → l = m) := by
  constructor
  · intro s t h
    exact quoted_injective (List.append_cancel_left h)
  · intro l m h
    have h' := List.append_cancel_left h
    simp only [List.map_map] at h'
    exact showList_quoted_injective (by simpa [Function.comp_def, streamElem] using h')

theorem showNat_digits (n : Nat) : ∀ c ∈ showNat n, c.isDigit := fun _ hc =>
  Nat.isDigit_of_mem_toDigits (by decide) (by decide) hc

theorem showNat_injective {a b : Nat} (h : showNat a = showNat b) : a = b := by
  have := congrArg (fun l => Nat.ofDigitChars 10 l 0) h
  simpa [showNat, Nat.ofDigitChars_ten_toDigits] using this

theorem digits_split {s t u v : Str} (hs : ∀ c ∈ s, c.isDigit) (ht : ∀ c ∈ t, c.isDigit)
    (hu : ∀ c, u.head? = some c → ¬ c.isDigit) (hv : ∀ c, v.head? = some c → ¬ c.isDigit) (h : s ++ u = t ++ v) :
    s = t ∧ u = v := by
  induction s generalizing t with
  | nil =>
    cases t with
    | nil => exact ⟨rfl, by simpa using h⟩
    | cons d t =>
      simp only [List.nil_append] at h
      exact absurd (ht d (by simp)) (hu d (by simp [h]))
  | cons c s ih =>
    cases t with
    | nil =>
      simp only [List.nil_append] at h
      exact absurd (hs c (by simp)) (hv c (by simp [← h]))
    | cons d t =>
      simp only [List.cons_append, List.cons.injEq] at h
      obtain ⟨h1, h2⟩ := ih (fun c hc => hs c (by simp [hc])) (fun c hc => ht c (by simp [hc])) h.2
      exact ⟨by rw [h.1, h1], h2⟩

theorem showInt_split {a b : Int} {u v : Str} (hu : ∀ c, u.head? = some c → ¬ c.isDigit)
    (hv : ∀ c, v.head? = some c → ¬ c.isDigit) (h : showInt a ++ u = showInt b ++ v) : a = b ∧ u = v := by
  have hd : ∀ n : Nat, ∀ r r' : Str, showNat n ++ r ≠ '-' :: r' := by
    intro n r r' h
    cases hn : showNat n with
    | nil => exact Nat.toDigits_ne_nil hn
    | cons c s =>
      rw [hn] at h
      simp only [List.cons_append, List.cons.injEq] at h
      have := showNat_digits n c (by simp [hn])
      rw [h.1] at this
      exact absurd this (by decide)
  unfold showInt at h
  split at h <;> split at h
  · simp only [List.cons_append, List.cons.injEq, true_and] at h
    obtain ⟨h1, h2⟩ := digits_split (showNat_digits _) (showNat_digits _) hu hv h
    exact ⟨by have := showNat_injective h1; omega, h2⟩
  · exact absurd h.symm (hd _ _ _)
  · exact absurd h (hd _ _ _)
  · obtain ⟨h1, h2⟩ := digits_split (showNat_digits _) (showNat_digits _) hu hv h
    exact ⟨by have := showNat_injective h1; omega, h2⟩

/-- C56 (partial): the default text of an integer option (other than `char` and one-byte integers) and of a list of
such integers determines the value. -/
theorem C56_integer_defaults_recoverable_partial (te : TypeEnv) (lo hi : Int)
    (hw : te.kind (.integer lo hi) = .wide) :
    (∀ a b, defaultOfValue te (.integer lo hi) (.one (.int a)) = defaultOfValue te (.integer lo hi) (.one (.int b)) →
      a = b) ∧
    (∀ l m : List Int, defaultOfValue te (.integer lo hi) (.many (l.map .int)) =
      defaultOfValue te (.integer lo hi) (.many (m.map .int)) → l = m) := by
  constructor
  · intro a b h
    have h' := List.append_cancel_left h
    simp only [toStringElem, hw, streamElem] at h'
    exact (showInt_split (u := []) (v := []) (by simp) (by simp) (by rw [h'])).1
  · intro l m h
    have h' := List.append_cancel_left h
    simp only [List.map_map] at h'
    have h'' : showList (l.map showInt) = showList (m.map showInt) := by
      simpa [Function.comp_def, streamElem, hw] using h'
    apply showList_injective showInt _ _ h''
    · intro a b u v hu hv h
      refine showInt_split ?_ ?_ h
      · intro c hc; rcases hu with rfl | ⟨x, rfl⟩ | ⟨x, rfl⟩ <;> simp at hc <;> subst hc <;> decide
      · intro c hc; rcases hv with rfl | ⟨x, rfl⟩ | ⟨x, rfl⟩ <;> simp at hc <;> subst hc <;> decide
    · intro a
      unfold showInt
      split
      · exact ⟨_, _, rfl, by decide⟩
      · cases hn : showNat a.natAbs with
        | nil => exact absurd hn Nat.toDigits_ne_nil
        | cons c s =>
          refine ⟨c, s, rfl, ?_⟩
          have := showNat_digits a.natAbs c (by simp [hn])
          intro h; subst h; exact absurd this (by decide)

/-- C56 (negation for one-byte integers): the default of an `int8_t` option is printed as a number, the default of a
list of `int8_t` as the characters with these codes. -/
theorem C56_bytes_in_lists (te : TypeEnv) (hw : te.kind (.integer (-128) 127) = .byte) :
    defaultOfValue te (.integer (-128) 127) (.one (.int 65)) = " Default: 65".toList ∧
    defaultOfValue te (.integer (-128) 127) (.many [.int 65]) = " Default: [A]".toList := by
  have h1 : defaultOfValue te (.integer (-128) 127) (.one (.int 65)) = " Default: ".toList ++ showInt 65 := by
    show " Default: ".toList ++ toStringElem te (.integer (-128) 127) (.int 65) = _
    simp only [toStringElem, hw]
  have h2 : defaultOfValue te (.integer (-128) 127) (.many [.int 65]) = " Default: ".toList ++ showList [[byteChar 65]] := by
    show " Default: ".toList ++ showList [streamElem te (.integer (-128) 127) (.int 65)] = _
    rw [streamElem, hw]
  rw [h1, h2]
  decide +kernel

/-- C56 for single characters: different characters have different texts, so that the default of an option of type `char` can be read
off the page. -/
theorem C56_char_defaults_recoverable (te : TypeEnv) (lo hi : Int) (hk : te.kind (.integer lo hi) = .character) (i j : Int)
    (h₁ : -128 ≤ i ∧ i ≤ 127) (h₂ : -128 ≤ j ∧ j ≤ 127)
    (h : defaultOfValue te (.integer lo hi) (.one (.int i)) = defaultOfValue te (.integer lo hi) (.one (.int j))) : i = j := by
  have e : ∀ x : Int, defaultOfValue te (.integer lo hi) (.one (.int x)) = " Default: ".toList ++ [byteChar x] := by
    intro x
    show " Default: ".toList ++ toStringElem te (.integer lo hi) (.int x) = _
    simp only [toStringElem, streamElem, hk]
  rw [e, e] at h
  have h := List.append_cancel_left h
  injection h with h
  unfold byteChar at h
  have hn : ∀ n : Nat, n < 256 → (Char.ofNat n).toNat = n := by
    intro n hn
    have : n.isValidChar := Or.inl (by omega)
    simp [Char.ofNat, this, Char.toNat, Char.ofNatAux]
  have h := congrArg Char.toNat h
  rw [hn _ (by omega), hn _ (by omega)] at h
  omega

/-- A type environment for examples: names and printing as in the library, no foreign types. -/
def exTypes : TypeEnv where
  typeName
    | .string => "std::string".toList
    | .boolean => "bool".toList
    | .integer _ _ => "signed 32 bit integer".toList
    | _ => "other".toList
  kind _ := .wide
  isPath _ := false
  showOther _ _ := []

example : defaultOfValue exTypes .string (.many [.str "a, b".toList, .str "\"".toList])
    = " Default: [\"a, b\", \"\\\"\"]".toList := by decide +kernel

example : exTypes.kind (.integer (-5) 5) = .wide ∧
    defaultOfValue exTypes (.integer (-5) 5) (.many [.int (-1), .int 2]) = " Default: [-1, 2]".toList := by decide +kernel

/-! ## C57 -/

/-- C57 (negation): the text never is the documented one; the blank before "and" is missing for every group. -/
theorem C57_flag_group_text_differs (flags : Str) (last : Char) (h : flags ≠ []) :
    expandMultipleFlags ('-' :: (flags ++ [last])) ≠ .ok (documentedFlagList flags last) := by
  rw [expandMultipleFlags_eq flags last h]
  intro he
  have := congrArg List.length (Except.ok.inj he)
  simp [documentedFlagList] at this

/-- C57 (partial; missing: the blank before "and"): each flag of a group of at least two is listed in order. -/
theorem C57_flag_group_lists_every_flag_partial (flags : Str) (last : Char) (h : flags ≠ []) :
    expandMultipleFlags ('-' :: (flags ++ [last])) =
      .ok (joined ", ".toList (flags.map fun c => ['-', c]) ++ "and ".toList ++ ['-', last]) := by
  rw [expandMultipleFlags_eq flags last h]
  simp

example : expandMultipleFlags "-agdg".toList = .ok "-a, -g, -dand -g".toList := by decide +kernel

end Sharg
