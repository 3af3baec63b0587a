import Verif.Lemmas.TypeNames
import Verif.Props.ErrorTexts

/-!
# Property C88: the name of a type tells which values are accepted
-/

namespace Sharg

open Spec

variable {W : Type}

/-- The types whose name the parser keeps its promise for. -/
def plainTypes : List CppType :=
  [.int8, .uint8, .int16, .uint16, .int32, .uint32, .int64, .uint64, .double, .float, .bool, .string]

/-- C88, partial: the texts that are accepted for a variable of the type are exactly those that its name promises. Missing: `char`, paths, enumerations,
`long long`, and types the program defines itself. -/
theorem C88_name_tells_values_partial (t : CppType) (ht : t ∈ plainTypes) (text : Str) : (∃ e, Denotes t.elem text e) ↔ PromisedBy t.name text := by
  simp only [plainTypes, List.mem_cons, List.not_mem_nil, or_false] at ht
  rcases ht with rfl | rfl | rfl | rfl | rfl | rfl | rfl | rfl | rfl | rfl | rfl | rfl
  · exact named_signed .int8 "8".toList rfl (by decide) (by decide) (congrArg₂ ElemTy.integer (by decide +kernel) (by decide +kernel)) text
  · exact named_unsigned .uint8 "8".toList rfl (by decide) (by decide) (congrArg₂ ElemTy.integer (by decide +kernel) (by decide +kernel)) text
  · exact named_signed .int16 "16".toList rfl (by decide) (by decide) (congrArg₂ ElemTy.integer (by decide +kernel) (by decide +kernel)) text
  · exact named_unsigned .uint16 "16".toList rfl (by decide) (by decide) (congrArg₂ ElemTy.integer (by decide +kernel) (by decide +kernel)) text
  · exact named_signed .int32 "32".toList rfl (by decide) (by decide) (congrArg₂ ElemTy.integer (by decide +kernel) (by decide +kernel)) text
  · exact named_unsigned .uint32 "32".toList rfl (by decide) (by decide) (congrArg₂ ElemTy.integer (by decide +kernel) (by decide +kernel)) text
  · exact named_signed .int64 "64".toList rfl (by decide) (by decide) (congrArg₂ ElemTy.integer (by decide +kernel) (by decide +kernel)) text
  · exact named_unsigned .uint64 "64".toList rfl (by decide) (by decide) (congrArg₂ ElemTy.integer (by decide +kernel) (by decide +kernel)) text
  · exact named_double text
  · exact named_float text
  · exact named_bool text
  · exact named_string text

/-- C88: when `parse()` has returned, every value on the command line is one that the name on the page promises. -/
theorem C88_only_promised_values_accepted (env : Env W) (g g' : Prog W) (hg : Reachable env g) (items : List Item)
    (tail : Option (List Str)) (hl : LineGiven g items tail) (hok : LineOk (decls g) items tail)
    (hnd : env.ndebug = false ∨ ListsRepresentable (decls g) items tail) (hvars : VarsDistinct (decls g))
    (h : parse env g = (.returned, g')) (te : TypeEnv) (wd : Wording) (t : CppType) (ht : t ∈ plainTypes) (hte : t.Describes te wd)
    (d : OptDecl W) (hd : d ∈ (decls g).options) (hty : d.ty = t.elem) (it : Item) (hit : it ∈ items) (text : Str)
    (hv : it.valueFor d = some text) : PromisedBy (te.typeName d.ty) text := by
  obtain ⟨w₁, _, hm⟩ := C17_only_meaningful_lines_partial env g g' hg items tail hl hok hnd h
  have hmem : text ∈ given d items := List.mem_filterMap.2 ⟨it, hit, hv⟩
  have hval := (line_delivered hvars hm).1.value d hd (List.ne_nil_of_mem hmem)
  rw [hty, hte.page, ← C88_name_tells_values_partial t ht]
  have key : ∀ {ts : List Str} {es : List Elem}, DenoteAll d.ty ts es → ∀ x ∈ ts, ∃ e, Denotes d.ty x e := by
    intro ts
    induction ts with
    | nil => simp
    | cons y ys ih =>
      intro es hh x hx
      cases es with
      | nil => exact absurd hh id
      | cons e es =>
        rcases List.mem_cons.1 hx with rfl | hx
        · exact ⟨e, hh.1⟩
        · exact ih hh.2 x hx
  rw [← hty]
  cases hL : d.isList with
  | false =>
    rw [hL] at hval
    obtain ⟨x, e, h1, _, h2⟩ := hval
    rw [h1, List.mem_singleton] at hmem
    exact ⟨e, hmem ▸ h2⟩
  | true =>
    rw [hL] at hval
    obtain ⟨es, _, h2⟩ := hval
    exact key h2 text hmem

/-- C88: any other text ends with `user_input_error`, if the options registered before are fine. -/
theorem C88_other_values_reported (env : Env W) (g : Prog W) (hg : Reachable env g) (items : List Item)
    (tail : Option (List Str)) (hl : LooseGiven g items tail) (w₁ : W) (hv : CheckPasses env g w₁)
    (huni : ∀ d ∈ (decls g).options, d.isList = true → Uniform d items)
    (front back : List (OptDecl W)) (d : OptDecl W) (hsplit : (decls g).options = front ++ d :: back) (st₁ : Store) (w₂ : W)
    (hm : OptionsMean items front g.store w₁ st₁ w₂) (hs : d.isList = false) (te : TypeEnv) (wd : Wording) (t : CppType) (ht : t ∈ plainTypes)
    (hte : t.Describes te wd) (hty : d.ty = t.elem) (text : Str) (hgiven : given d items = [text])
    (hbad : ¬ PromisedBy (te.typeName d.ty) text) :
    ∃ g', parse env g = (.threw .userInputError, g') ∧ ∀ y, y ≠ d.var → g'.store y = st₁ y := by
  refine C29_C30_unreadable_text_reported env g hg items tail hl w₁ hv huni front back d hsplit st₁ w₂ hm hs text hgiven ⟨?_, ?_⟩
  · intro e he
    rw [hty] at he hbad
    rw [hte.page] at hbad
    exact hbad ((C88_name_tells_values_partial t ht text).1 ⟨e, he⟩)
  · intro names hn
    rw [hty] at hn
    simp only [plainTypes, List.mem_cons, List.not_mem_nil, or_false] at ht
    rcases ht with rfl | rfl | rfl | rfl | rfl | rfl | rfl | rfl | rfl | rfl | rfl | rfl <;> cases hn

/-- C88: the message about an unreadable value calls the type exactly what the page calls it (of every type, for single values and lists). -/
theorem C88_message_and_page_agree (t : CppType) (te : TypeEnv) (wd : Wording) (hte : t.Describes te wd) (hn : '\\' ∉ t.name) (ndebug isList : Bool)
    (option text : Str) :
    throwOnInputErrorT wd ndebug isList t.elem .error option text = some (.userInputError, "Value parse failed for ".toList ++ option
      ++ ": ".toList ++ "Argument ".toList ++ text ++ " could not be parsed as type ".toList ++ t.name ++ ".".toList) ∧
    toText ndebug false (typeInfo te isList t.elem) =
      .ok ((if isList then "(List of ".toList else "(".toList) ++ t.name ++ ")".toList) := by
  constructor
  · unfold throwOnInputErrorT
    dsimp only
    rw [hte.message]
  · have := C66_type_shown ndebug te t.elem (by rw [hte.page]; exact hn)
    rw [hte.page] at this
    cases isList with
    | true => rw [this.1, if_pos rfl]
    | false => rw [this.2, if_neg Bool.false_ne_true]

/-- The limits of the types whose name begins with `signed`. -/
theorem signed_limits (t : CppType) (ht : t ∈ plainTypes) (m : Str) (he : t.name = "signed ".toList ++ m ++ " bit integer".toList) :
    t.elem = .integer (-2 ^ (decValue m - 1)) (2 ^ (decValue m - 1) - 1) ∧ 0 < decValue m := by
  simp only [plainTypes, List.mem_cons, List.not_mem_nil, or_false] at ht
  have hi : t.name[1]? = some 'i' := by rw [he]; rfl
  rcases ht with rfl | rfl | rfl | rfl | rfl | rfl | rfl | rfl | rfl | rfl | rfl | rfl
  case inl =>
    have he : "signed ".toList ++ "8".toList ++ " bit integer".toList = "signed ".toList ++ m ++ " bit integer".toList := he
    rw [← List.append_cancel_left (List.append_cancel_right he)]
    exact ⟨congrArg₂ ElemTy.integer (by decide +kernel) (by decide +kernel), by decide⟩
  case inr.inr.inl =>
    have he : "signed ".toList ++ "16".toList ++ " bit integer".toList = "signed ".toList ++ m ++ " bit integer".toList := he
    rw [← List.append_cancel_left (List.append_cancel_right he)]
    exact ⟨congrArg₂ ElemTy.integer (by decide +kernel) (by decide +kernel), by decide⟩
  case inr.inr.inr.inr.inl =>
    have he : "signed ".toList ++ "32".toList ++ " bit integer".toList = "signed ".toList ++ m ++ " bit integer".toList := he
    rw [← List.append_cancel_left (List.append_cancel_right he)]
    exact ⟨congrArg₂ ElemTy.integer (by decide +kernel) (by decide +kernel), by decide⟩
  case inr.inr.inr.inr.inr.inr.inl =>
    have he : "signed ".toList ++ "64".toList ++ " bit integer".toList = "signed ".toList ++ m ++ " bit integer".toList := he
    rw [← List.append_cancel_left (List.append_cancel_right he)]
    exact ⟨congrArg₂ ElemTy.integer (by decide +kernel) (by decide +kernel), by decide⟩
  all_goals exact absurd hi (by decide)

/-- The limits of the types whose name begins with `unsigned`. -/
theorem unsigned_limits (t : CppType) (ht : t ∈ plainTypes) (m : Str) (he : t.name = "unsigned ".toList ++ m ++ " bit integer".toList) :
    t.elem = .integer 0 (2 ^ decValue m - 1) ∧ 0 < decValue m := by
  simp only [plainTypes, List.mem_cons, List.not_mem_nil, or_false] at ht
  have hi : t.name[0]? = some 'u' := by rw [he]; rfl
  rcases ht with rfl | rfl | rfl | rfl | rfl | rfl | rfl | rfl | rfl | rfl | rfl | rfl
  case inr.inl =>
    have he : "unsigned ".toList ++ "8".toList ++ " bit integer".toList = "unsigned ".toList ++ m ++ " bit integer".toList := he
    rw [← List.append_cancel_left (List.append_cancel_right he)]
    exact ⟨congrArg₂ ElemTy.integer (by decide +kernel) (by decide +kernel), by decide⟩
  case inr.inr.inr.inl =>
    have he : "unsigned ".toList ++ "16".toList ++ " bit integer".toList = "unsigned ".toList ++ m ++ " bit integer".toList := he
    rw [← List.append_cancel_left (List.append_cancel_right he)]
    exact ⟨congrArg₂ ElemTy.integer (by decide +kernel) (by decide +kernel), by decide⟩
  case inr.inr.inr.inr.inr.inl =>
    have he : "unsigned ".toList ++ "32".toList ++ " bit integer".toList = "unsigned ".toList ++ m ++ " bit integer".toList := he
    rw [← List.append_cancel_left (List.append_cancel_right he)]
    exact ⟨congrArg₂ ElemTy.integer (by decide +kernel) (by decide +kernel), by decide⟩
  case inr.inr.inr.inr.inr.inr.inr.inl =>
    have he : "unsigned ".toList ++ "64".toList ++ " bit integer".toList = "unsigned ".toList ++ m ++ " bit integer".toList := he
    rw [← List.append_cancel_left (List.append_cancel_right he)]
    exact ⟨congrArg₂ ElemTy.integer (by decide +kernel) (by decide +kernel), by decide⟩
  all_goals exact absurd hi (by decide)

theorem two_pow_pos (k : Nat) : (0 : Int) < 2 ^ k := by positivity

/-- C88: the limits in the message about a number out of range are those of the name. -/
theorem C88_limits_in_message (wd : Wording) (ndebug : Bool) (option text m : Str) (t : CppType) (ht : t ∈ plainTypes) :
    (t.name = "signed ".toList ++ m ++ " bit integer".toList → ∃ lo hi, DenotesInt (-2 ^ (decValue m - 1)) 0 lo (-2 ^ (decValue m - 1)) ∧
      DenotesInt 0 (2 ^ (decValue m - 1) - 1) hi (2 ^ (decValue m - 1) - 1) ∧
      throwOnInputErrorT wd ndebug false t.elem .overflowError option text = some (.userInputError, "Value parse failed for ".toList ++ option
        ++ ": ".toList ++ "Numeric argument ".toList ++ text ++ " is not in the valid range [".toList ++ lo ++ ",".toList ++ hi ++ "].".toList)) ∧
    (t.name = "unsigned ".toList ++ m ++ " bit integer".toList → ∃ hi, DenotesInt 0 (2 ^ decValue m - 1) hi (2 ^ decValue m - 1) ∧
      throwOnInputErrorT wd ndebug false t.elem .overflowError option text = some (.userInputError, "Value parse failed for ".toList ++ option
        ++ ": ".toList ++ "Numeric argument ".toList ++ text ++ " is not in the valid range [".toList ++ "0".toList ++ ",".toList ++ hi
        ++ "].".toList)) := by
  constructor
  · intro he
    obtain ⟨h1, h2⟩ := signed_limits t ht m he
    refine ⟨showInt (-2 ^ (decValue m - 1)), showInt (2 ^ (decValue m - 1) - 1), ?_, ?_, ?_⟩
    · obtain ⟨_, _, h⟩ := showInt_lower (-2 ^ (decValue m - 1))
      exact ⟨Int.le_refl _, by have := two_pow_pos (decValue m - 1); omega, h⟩
    · have h := showInt_upper (2 ^ (decValue m - 1) - 1)
      have : min (0 : Int) (2 ^ (decValue m - 1) - 1) = 0 := by
        have := two_pow_pos (decValue m - 1); omega
      rw [this] at h
      exact h
    · rw [h1]; rfl
  · intro he
    obtain ⟨h1, h2⟩ := unsigned_limits t ht m he
    refine ⟨showInt (2 ^ decValue m - 1), ?_, ?_⟩
    · have h := showInt_upper (2 ^ decValue m - 1)
      have : min (0 : Int) (2 ^ decValue m - 1) = 0 := by
        have := two_pow_pos (decValue m); omega
      rw [this] at h
      exact h
    · rw [h1]; rfl

/-- C88: different types have different names. -/
theorem C88_names_differ : (plainTypes ++ [CppType.char, CppType.path, CppType.longLong, CppType.unsignedLongLong]).Pairwise
    fun t u => t.name ≠ u.name := by
  have : ((plainTypes ++ [CppType.char, CppType.path, CppType.longLong, CppType.unsignedLongLong]).map CppType.name).Pairwise (· ≠ ·) := by decide +kernel
  exact List.pairwise_map.1 this

/-! ### Where the name promises something else -/

/-- C88 does not hold for `char`: a character is not accepted, unless it is a digit; and then the variable holds the character with that code. -/
theorem C88_char_is_read_as_number (c : Char) :
    PromisedBy CppType.char.name [c] ∧ (c ∉ digits → ∀ e, ¬ Denotes CppType.char.elem [c] e) ∧
    (c ∈ digits → ∃ v : Int, Denotes CppType.char.elem [c] (.int v) ∧ v < 10 ∧ v ≠ c.toNat) := by
  refine ⟨.char c rfl rfl, ?_, ?_⟩
  · rintro hc e ⟨v, -, -, -, ⟨h, -⟩ | ⟨-, ds, h, h', -⟩⟩
    · exact hc (h.2 c List.mem_cons_self)
    · injection h with _ h
      exact h'.1 h.symm
  · intro hc
    simp only [digits, List.mem_cons, List.not_mem_nil, or_false] at hc
    rcases hc with rfl | rfl | rfl | rfl | rfl | rfl | rfl | rfl | rfl | rfl
    · exact ⟨0, ⟨0, rfl, by decide, by decide, Or.inl ⟨by decide, by decide⟩⟩, by decide, by decide⟩
    · exact ⟨1, ⟨1, rfl, by decide, by decide, Or.inl ⟨by decide, by decide⟩⟩, by decide, by decide⟩
    · exact ⟨2, ⟨2, rfl, by decide, by decide, Or.inl ⟨by decide, by decide⟩⟩, by decide, by decide⟩
    · exact ⟨3, ⟨3, rfl, by decide, by decide, Or.inl ⟨by decide, by decide⟩⟩, by decide, by decide⟩
    · exact ⟨4, ⟨4, rfl, by decide, by decide, Or.inl ⟨by decide, by decide⟩⟩, by decide, by decide⟩
    · exact ⟨5, ⟨5, rfl, by decide, by decide, Or.inl ⟨by decide, by decide⟩⟩, by decide, by decide⟩
    · exact ⟨6, ⟨6, rfl, by decide, by decide, Or.inl ⟨by decide, by decide⟩⟩, by decide, by decide⟩
    · exact ⟨7, ⟨7, rfl, by decide, by decide, Or.inl ⟨by decide, by decide⟩⟩, by decide, by decide⟩
    · exact ⟨8, ⟨8, rfl, by decide, by decide, Or.inl ⟨by decide, by decide⟩⟩, by decide, by decide⟩
    · exact ⟨9, ⟨9, rfl, by decide, by decide, Or.inl ⟨by decide, by decide⟩⟩, by decide, by decide⟩

/-- ... conversely, what is accepted is no character: numbers of two digits and more. -/
theorem C88_char_accepts_numbers : Denotes CppType.char.elem "97".toList (.int 97) ∧ ¬ PromisedBy CppType.char.name "97".toList := by
  constructor
  · exact ⟨97, rfl, by decide, by decide, Or.inl ⟨by decide, by decide⟩⟩
  · intro h
    rcases promised_word _ _ (by decide) (by decide) h with ⟨h, -⟩ | h | h | ⟨-, c, h⟩ | ⟨h, -⟩ | ⟨h, -⟩
    case inr.inr.inr.inl => exact absurd (show (2 : Nat) = 1 from congrArg List.length h) (by decide)
    all_goals exact absurd h (by decide)

/-- C88 does not hold for paths: a name with a blank behind its first character is not accepted (C85). -/
theorem C88_path_with_blank (text : Str) (h : ∃ front c rest, text = front ++ c :: rest ∧ Nameable front ∧ c ∈ whiteSpace) :
    PromisedBy CppType.path.name text ∧ ∀ e, ¬ Denotes CppType.path.elem text e := by
  refine ⟨.path rfl, ?_⟩
  obtain ⟨front, c, rest, rfl, hf, hc⟩ := h
  intro e he
  have h1 : pathConv (front ++ c :: rest) = .ok e := he
  have h2 := pathConv_broken [] front rest c hf (by simp) hc
  rw [List.nil_append] at h2
  rw [h1] at h2
  cases h2

/-- `long long` accepts the same values as `int64_t` and is called otherwise. -/
theorem C88_long_long : CppType.longLong.elem = CppType.int64.elem ∧ CppType.unsignedLongLong.elem = CppType.uint64.elem ∧
    CppType.longLong.name = "long long".toList ∧ CppType.int64.name = "signed 64 bit integer".toList ∧
    CppType.unsignedLongLong.name = "unsigned long long".toList ∧ CppType.uint64.name = "unsigned 64 bit integer".toList :=
  ⟨rfl, rfl, rfl, rfl, rfl, rfl⟩

/-! ### Examples -/

example : CppType.int8 ∈ plainTypes ∧ PromisedBy CppType.int8.name "-128".toList ∧ ¬ PromisedBy CppType.int8.name "128".toList := by
  refine ⟨List.mem_cons_self, ?_, ?_⟩
  · exact (C88_name_tells_values_partial .int8 List.mem_cons_self _).1
      ⟨.int (-128), -128, rfl, by decide, by decide, Or.inr ⟨by decide, "128".toList, rfl, by decide, by decide⟩⟩
  · rw [← C88_name_tells_values_partial .int8 List.mem_cons_self]
    rintro ⟨e, v, -, -, h, ⟨-, h'⟩ | ⟨-, ds, h', -⟩⟩
    · have : v = 128 := h'.trans (by decide)
      omega
    · cases h'

/-- An environment for a program with one type. -/
def exNames (t : CppType) : TypeEnv where
  typeName _ := t.name
  kind _ := t.kind
  isPath _ := false
  showOther _ _ := []

example (t : CppType) : t.Describes (exNames t) ⟨fun _ _ => t.name, fun _ => []⟩ := ⟨rfl, fun _ => rfl, rfl⟩

example : '\\' ∉ CppType.uint16.name ∧ CppType.uint16.name = "unsigned ".toList ++ "16".toList ++ " bit integer".toList :=
  ⟨by decide, rfl⟩

/-- A program with an option of type `int8_t`. -/
def exByte (args : List String) : Prog Unit := exRun [.addOption { short := 'i' } 0 false CppType.int8.elem fun _ w => (true, w)] (args.map (·.toList))

example : (parse exEnv (exByte ["-i", "-128"])).1 = .returned ∧ (parse exEnv (exByte ["-i", "-128"])).2.store 0 = .one (.int (-128)) ∧
    (parse exEnv (exByte ["-i", "128"])).1 = .threw .userInputError ∧ (parse exEnv (exByte ["-i", "1.0"])).1 = .threw .userInputError := by
  refine ⟨?_, ?_, ?_, ?_⟩ <;> decide +kernel

example : ∃ front c rest, "my file".toList = front ++ c :: rest ∧ Nameable front ∧ c ∈ whiteSpace :=
  ⟨"my".toList, ' ', "file".toList, rfl, by decide, by decide⟩

end Sharg
