import Verif.Props.Texts
import Verif.Props.Values

/-!
# Property C66: types and default values on the help page
-/

namespace Sharg

open Spec

variable {W : Type}

/-- What a user takes from the help page as default value: the text behind `Default: `, without the quotes and escapes of `std::quoted` for texts. -/
def Spec.ShowsDefault (te : TypeEnv) (ty : ElemTy) (v : Val) (text : Str) : Prop :=
  match ty with
  | .string => defaultOfValue te ty v = " Default: ".toList ++ quoted text
  | _ => defaultOfValue te ty v = " Default: ".toList ++ text

/-- The value can be shown so that it can be read back: texts and truth values; integers of a type other than `char` that lie within the limits;
enumerators that have a name, if names are unique. -/
def Spec.Showable (te : TypeEnv) : ElemTy → Elem → Prop
  | .string, .str _ => True
  | .boolean, .bool _ => True
  | .integer lo hi, .int i => te.kind (.integer lo hi) ≠ .character ∧ lo ≤ i ∧ i ≤ hi
  | .enumeration names, .enumv tag => (names.map (·.1)).Nodup ∧ tag ∈ names.map (·.2)
  | _, _ => False

theorem toDigits_eq_showDigits (fuel : Nat) : ∀ n, n < fuel → Nat.toDigits 10 n = Spec.showDigits fuel n := by
  induction fuel with
  | zero => intro n h; omega
  | succ fuel ih =>
    intro n hn
    have hc : ∀ m < 10, Nat.digitChar m = digits.getD m '0' := by decide
    unfold Spec.showDigits
    by_cases h : n < 10
    · rw [if_pos h, Nat.toDigits_of_lt_base h, hc n h]
    · rw [if_neg h, Nat.toDigits_of_base_le (by omega) (by omega), ih (n / 10) (by omega), hc _ (by omega)]

theorem showInt_eq (i : Int) : Sharg.showInt i = Spec.showInt i := by
  unfold Sharg.showInt Spec.showInt Sharg.showNat Spec.showNat
  by_cases h : i < 0
  · rw [if_pos h, if_neg (by omega), toDigits_eq_showDigits _ _ (Nat.lt_succ_self _)]
    congr 2 <;> omega
  · rw [if_neg h, if_pos (by omega), toDigits_eq_showDigits _ _ (Nat.lt_succ_self _)]
    congr 1 <;> omega

/-- The text shown denotes the value. -/
theorem default_denotes (te : TypeEnv) (ty : ElemTy) (e : Elem) (h : Showable te ty e) (text : Str) (ht : ShowsDefault te ty (.one e) text) :
    Denotes ty text e := by
  cases ty with
  | string =>
    cases e with
    | str s =>
      have := quoted_injective (List.append_cancel_left ht)
      show Elem.str s = Elem.str text
      rw [← this]; rfl
    | _ => exact absurd h (by simp [Showable])
  | boolean =>
    cases e with
    | bool b =>
      have ht := List.append_cancel_left ht
      subst ht
      cases b
      · right; exact ⟨rfl, Or.inl rfl⟩
      · left; exact ⟨rfl, Or.inl rfl⟩
    | _ => exact absurd h (by simp [Showable])
  | integer lo hi =>
    cases e with
    | int i =>
      have ht := List.append_cancel_left ht
      subst ht
      have hs : toStringElem te (.integer lo hi) (.int i) = Sharg.showInt i := by
        unfold toStringElem
        cases hk : te.kind (.integer lo hi) with
        | character => exact absurd hk h.1
        | byte => rfl
        | wide => simp only [streamElem, hk]
      refine ⟨i, rfl, ?_⟩
      show DenotesInt lo hi (toStringElem te (.integer lo hi) (.int i)) i
      rw [hs, showInt_eq]
      exact showInt_denotes lo hi i h.2.1 h.2.2
    | _ => exact absurd h (by simp [Showable])
  | enumeration names =>
    cases e with
    | enumv tag =>
      have ht := List.append_cancel_left ht
      subst ht
      obtain ⟨hn, hm⟩ := h
      refine ⟨tag, rfl, ?_⟩
      have hs : toStringElem te (.enumeration names) (.enumv tag) = streamElem te (.enumeration names) (.enumv tag) := by
        unfold toStringElem
        cases te.kind (.enumeration names) <;> rfl
      show ∃ before after, names = before ++ (toStringElem te (.enumeration names) (.enumv tag), tag) :: after ∧ _
      rw [hs]
      cases hf : names.find? (fun p => p.2 = tag) with
      | none =>
        obtain ⟨p, hp, hpt⟩ := List.mem_map.1 hm
        exact absurd (List.find?_eq_none.1 hf p hp) (by simp [hpt])
      | some p =>
        have hp2 : p.2 = tag := by simpa using List.find?_some hf
        have hst : streamElem te (.enumeration names) (.enumv tag) = p.1 := by simp only [streamElem, hf]
        obtain ⟨before, after, hsplit⟩ := List.append_of_mem (List.mem_of_find?_eq_some hf)
        refine ⟨before, after, ?_, ?_⟩
        · rw [hst, hsplit, ← hp2]
        · intro q hq heq
          have heq : q.1 = p.1 := heq.trans (hs.trans hst)
          rw [hsplit, List.map_append, List.map_cons, List.nodup_append] at hn
          exact hn.2.2 q.1 (List.mem_map.2 ⟨q, hq, rfl⟩) p.1 List.mem_cons_self heq
    | _ => exact absurd h (by simp [Showable])
  | foreign a c => exact absurd h (by cases e <;> simp [Showable])

/-- C66, default values (partial): giving an option, in whatever spelling, the text that the help page shows as the default value of its type makes
the variable hold that value, if `parse()` returns. Missing: lists, `char`, enumerators without a name, types the model does not look into. -/
theorem C66_default_read_back_partial (env : Env W) (g g' : Prog W) (hg : Reachable env g) (items : List Item)
    (tail : Option (List Str)) (hl : LineGiven g items tail) (hok : LineOk (decls g) items tail)
    (hnd : env.ndebug = false ∨ ListsRepresentable (decls g) items tail) (hvars : VarsDistinct (decls g))
    (h : parse env g = (.returned, g')) (d : OptDecl W) (hd : d ∈ (decls g).options) (hs : d.isList = false) (te : TypeEnv) (e : Elem)
    (he : Showable te d.ty e) (text : Str) (ht : ShowsDefault te d.ty (.one e) text) (it : Item) (hit : it ∈ items)
    (hv : it.valueFor d = some text) : g'.store d.var = .one e := by
  obtain ⟨w₁, _, hm⟩ := C17_only_meaningful_lines_partial env g g' hg items tail hl hok hnd h
  have hdel := (line_delivered hvars hm).1
  have hmem : text ∈ given d items := List.mem_filterMap.2 ⟨it, hit, hv⟩
  have := hdel.value d hd (List.ne_nil_of_mem hmem)
  rw [hs] at this
  obtain ⟨t, e', ht', he', hde⟩ := this
  rw [ht', List.mem_singleton] at hmem
  subst hmem
  rw [he', denotes_unique hde (default_denotes te d.ty e he text ht)]

/-- C66 does not hold for `char`: the default value 'A' is shown as `A`, which is rejected as a value. -/
theorem C66_char_default_rejected (te : TypeEnv) (hk : te.kind (.integer (-128) 127) = .character) (ndebug : Bool) (x : VarId) (s : FState W) :
    ShowsDefault te (.integer (-128) 127) (.one (.int 65)) "A".toList ∧
    ∃ s', assignScalar ndebug (.integer (-128) 127) x "A".toList s = .err .userInputError s' := by
  constructor
  · show " Default: ".toList ++ toStringElem te (.integer (-128) 127) (.int 65) = _
    have : toStringElem te (.integer (-128) 127) (.int 65) = "A".toList := by
      simp only [toStringElem, streamElem, hk]
      decide +kernel
    rw [this]
  · refine (C29_integers_exact ndebug (-128) 127 x "A".toList s).2 ?_
    rintro ⟨v, -, -, h | h⟩
    · exact absurd h.1 (by decide)
    · obtain ⟨-, ds, h, -⟩ := h
      cases h

/-- C66 does not hold for enumerators without a name: the text shown is `<UNKNOWN_VALUE>`, which is rejected as a value (if it is no name). -/
theorem C66_unnamed_default_rejected (te : TypeEnv) (names : List (Str × Int)) (hne : names ≠ []) (tag : Int) (ht : tag ∉ names.map (·.2))
    (hu : "<UNKNOWN_VALUE>".toList ∉ names.map (·.1)) (ndebug : Bool) (x : VarId) (s : FState W) :
    ShowsDefault te (.enumeration names) (.one (.enumv tag)) "<UNKNOWN_VALUE>".toList ∧
    assignScalar ndebug (.enumeration names) x "<UNKNOWN_VALUE>".toList s = .err .userInputError s := by
  constructor
  · show " Default: ".toList ++ toStringElem te (.enumeration names) (.enumv tag) = _
    have hf : names.find? (fun p => p.2 = tag) = none := by
      rw [List.find?_eq_none]
      intro p hp h
      exact ht (List.mem_map.2 ⟨p, hp, by simpa using h⟩)
    have : toStringElem te (.enumeration names) (.enumv tag) = "<UNKNOWN_VALUE>".toList := by
      unfold toStringElem
      cases te.kind (.enumeration names) <;> simp only [streamElem, hf]
    rw [this]
  · exact (C30_enumerations_exact ndebug names hne x _ s).2 fun p hp h => hu (List.mem_map.2 ⟨p, hp, h⟩)

/-! ### Types and messages -/

/-- A text without font commands is printed as it is. -/
theorem toText_plain (ndebug tty : Bool) (s t : Str) (h : '\\' ∉ s) :
    toText ndebug tty (s ++ t) = prependTo s (toText ndebug tty t) := by
  induction s with
  | nil => cases ht : toText ndebug tty t <;> simp [prependTo, ht]
  | cons c s ih =>
    simp only [List.mem_cons, not_or] at h
    rw [List.cons_append, toText_char ndebug tty (Ne.symm h.1), ih h.2]
    cases toText ndebug tty t <;> rfl

/-- C66, types: in a file or a pipe the reader sees the name of the type in parentheses, with `List of` in front if several values can be given. -/
theorem C66_type_shown (ndebug : Bool) (te : TypeEnv) (ty : ElemTy) (hn : '\\' ∉ te.typeName ty) :
    toText ndebug false (typeInfo te true ty) = .ok ("(List of ".toList ++ te.typeName ty ++ ")".toList) ∧
    toText ndebug false (typeInfo te false ty) = .ok ("(".toList ++ te.typeName ty ++ ")".toList) := by
  have font : ∀ (c : Char) (t : Str), (c = 'I' ∨ c = 'P') → toText ndebug false ('\\' :: 'f' :: c :: t) = toText ndebug false t := by
    rintro c t hc
    rw [toText_font]
    rcases hc with rfl | rfl <;> cases toText ndebug false t <;> rfl
  have join : ∀ (u v : Str) (r : Except Exn Str), prependTo u (prependTo v r) = prependTo (u ++ v) r := by
    intro u v r
    cases r with
    | ok s => simp [prependTo]
    | error e => rfl
  have last : toText ndebug false "\\fP)".toList = .ok ")".toList := by
    show toText ndebug false ('\\' :: 'f' :: 'P' :: ([')'] ++ [])) = _
    rw [font _ _ (Or.inr rfl), toText_plain _ _ _ _ (by decide)]
    rfl
  constructor
  · have e : typeInfo te true ty = "(\\fIList\\fP of \\fI".toList ++ te.typeName ty ++ "\\fP)".toList := if_pos rfl
    rw [e, List.append_assoc]
    show toText ndebug false ("(".toList ++ '\\' :: 'f' :: 'I' :: ("List".toList ++ '\\' :: 'f' :: 'P' :: (" of ".toList ++ '\\' :: 'f' :: 'I' :: (te.typeName ty ++ "\\fP)".toList)))) = _
    rw [toText_plain _ _ _ _ (by decide), font _ _ (Or.inl rfl), toText_plain _ _ _ _ (by decide), font _ _ (Or.inr rfl),
      toText_plain _ _ _ _ (by decide), font _ _ (Or.inl rfl), toText_plain _ _ _ _ hn, last, join, join, join]
    rfl
  · have e : typeInfo te false ty = "(\\fI".toList ++ te.typeName ty ++ "\\fP)".toList := if_neg Bool.false_ne_true
    rw [e, List.append_assoc]
    show toText ndebug false ("(".toList ++ '\\' :: 'f' :: 'I' :: (te.typeName ty ++ "\\fP)".toList)) = _
    rw [toText_plain _ _ _ _ (by decide), font _ _ (Or.inl rfl), toText_plain _ _ _ _ hn, last, join]
    rfl

/-- C66, messages: a default message is shown behind `Default: `, as it is, or, for a single text or path, in quotes so that it can be recovered. -/
theorem C66_message_shown (te : TypeEnv) (isList : Bool) (ty : ElemTy) :
    (∀ m, defaultOfMessage te isList ty m = " Default: ".toList ++ m ∨ defaultOfMessage te isList ty m = " Default: ".toList ++ quoted m) ∧
    (∀ m, isList = true → defaultOfMessage te isList ty m = " Default: ".toList ++ m) ∧
    (∀ m, isList = false → (ty = .string ∨ te.isPath ty = true) → defaultOfMessage te isList ty m = " Default: ".toList ++ quoted m) ∧
    (∀ m m', defaultOfMessage te isList ty m = defaultOfMessage te isList ty m' → m = m') := by
  have key : (∀ m, defaultOfMessage te isList ty m = " Default: ".toList ++ m) ∨ (∀ m, defaultOfMessage te isList ty m = " Default: ".toList ++ quoted m) := by
    cases isList with
    | true => left; intro m; rfl
    | false =>
      cases hp : te.isPath ty with
      | true =>
        right; intro m
        unfold defaultOfMessage
        cases ty <;> simp [hp]
      | false =>
        cases ty with
        | string => right; intro m; rfl
        | _ => left; intro m; unfold defaultOfMessage; simp [hp]
  refine ⟨fun m => key.imp (· m) (· m), ?_, ?_, ?_⟩
  · rintro m rfl; rfl
  · rintro m rfl (rfl | hp)
    · rfl
    · unfold defaultOfMessage
      cases ty <;> simp [hp]
  · intro m m' h
    rcases key with k | k <;> rw [k, k] at h
    · exact List.append_cancel_left h
    · exact quoted_injective (List.append_cancel_left h)

/-! ### Lists -/

/-- The notation of lists: the elements in brackets, with commas in between; texts in quotes. -/
def Spec.ListNotation (ty : ElemTy) (texts : List Str) (shown : Str) : Prop :=
  shown = "[".toList ++ ", ".toList.intercalate (texts.map fun t => match ty with | .string => quoted t | _ => t) ++ "]".toList

theorem showList_eq (l : List Str) : showList l = "[".toList ++ ", ".toList.intercalate l ++ "]".toList := by
  cases l with
  | nil => rfl
  | cons x l =>
    have key : ∀ (x : Str) (l : List Str), ", ".toList.intercalate (x :: l) = x ++ l.flatMap fun y => [',', ' '] ++ y := by
      intro x l
      induction l generalizing x with
      | nil => simp [List.intercalate]
      | cons y l ih =>
        have : ", ".toList.intercalate (x :: y :: l) = x ++ ", ".toList ++ ", ".toList.intercalate (y :: l) := by
          simp [List.intercalate, List.append_assoc]
        rw [this, ih, List.flatMap_cons, List.append_assoc, List.append_assoc]
        rfl
    rw [key]
    show '[' :: _ = _
    simp

theorem defaultOfValue_many (te : TypeEnv) (ty : ElemTy) (es : List Elem) :
    ∃ shown, defaultOfValue te ty (.many es) = " Default: ".toList ++ shown ∧ ListNotation ty (es.map (streamElem te ty)) shown := by
  refine ⟨_, rfl, ?_⟩
  unfold ListNotation
  rw [← showList_eq, List.map_map]
  cases ty <;> rfl

theorem stream_denotes (te : TypeEnv) (ty : ElemTy) (hb : te.kind ty ≠ .byte) (es : List Elem) (h : ∀ e ∈ es, Showable te ty e) :
    DenoteAll ty (es.map (streamElem te ty)) es := by
  have hs : ∀ e, toStringElem te ty e = streamElem te ty e := by
    intro e
    unfold toStringElem
    cases hk : te.kind ty with
    | byte => exact absurd hk hb
    | _ => cases e <;> rfl
  induction es with
  | nil => trivial
  | cons e es ih =>
    refine ⟨default_denotes te ty e (h e List.mem_cons_self) _ ?_, ih fun e' he' => h e' (List.mem_cons_of_mem _ he')⟩
    cases ty with
    | string => rfl
    | _ =>
      show " Default: ".toList ++ toStringElem te _ e = _
      rw [hs]

/-- The default value of a list is shown element by element, each as the parser reads it. -/
theorem list_shown (te : TypeEnv) (ty : ElemTy) (hb : te.kind ty ≠ .byte) (es : List Elem) (h : ∀ e ∈ es, Showable te ty e) :
    ∃ texts shown, defaultOfValue te ty (.many es) = " Default: ".toList ++ shown ∧ ListNotation ty texts shown ∧ DenoteAll ty texts es := by
  obtain ⟨shown, h1, h2⟩ := defaultOfValue_many te ty es
  exact ⟨es.map (streamElem te ty), shown, h1, h2, stream_denotes te ty hb es h⟩

theorem denoteAll_same {ty : ElemTy} : ∀ {ts : List Str} {es es' : List Elem}, DenoteAll ty ts es → DenoteAll ty ts es' → es = es'
  | [], [], [], _, _ => rfl
  | _ :: _, _ :: _, _ :: _, h, h' => by rw [denotes_unique h.1 h'.1, denoteAll_same h.2 h'.2]
  | _ :: _, [], _, h, _ => h.elim
  | _ :: _, _ :: _, [], _, h => h.elim
  | [], _ :: _, _, h, _ => h.elim
  | [], [], _ :: _, _, h => h.elim

/-- C66, lists (partial): the texts between the brackets, given one after the other to a list option, make the variable hold the list that was
the default. Missing: lists of `char`, `int8_t` and `uint8_t`, enumerators without a name, types the model does not look into. -/
theorem C66_list_default_read_back_partial (env : Env W) (g g' : Prog W) (hg : Reachable env g) (items : List Item)
    (tail : Option (List Str)) (hl : LineGiven g items tail) (hok : LineOk (decls g) items tail)
    (hnd : env.ndebug = false ∨ ListsRepresentable (decls g) items tail) (hvars : VarsDistinct (decls g))
    (h : parse env g = (.returned, g')) (d : OptDecl W) (hd : d ∈ (decls g).options) (hs : d.isList = true) (te : TypeEnv) (es : List Elem)
    (hb : te.kind d.ty ≠ .byte) (he : ∀ e ∈ es, Showable te d.ty e) (hne : es ≠ []) :
    ∃ texts shown, defaultOfValue te d.ty (.many es) = " Default: ".toList ++ shown ∧ ListNotation d.ty texts shown ∧
      (given d items = texts → g'.store d.var = .many es) := by
  obtain ⟨texts, shown, h1, h2, h3⟩ := list_shown te d.ty hb es he
  refine ⟨texts, shown, h1, h2, ?_⟩
  rintro rfl
  obtain ⟨w₁, _, hm⟩ := C17_only_meaningful_lines_partial env g g' hg items tail hl hok hnd h
  have hdel := (line_delivered hvars hm).1
  have hgiven : given d items ≠ [] := by
    intro hx
    rw [hx] at h3
    cases es with
    | nil => exact hne rfl
    | cons => exact h3
  have := hdel.value d hd hgiven
  rw [hs] at this
  obtain ⟨es', he', hde⟩ := this
  rw [he', denoteAll_same hde h3]

/-- C66 does not hold for lists of `int8_t` and `uint8_t`: single values are shown as numbers, but the elements of a list as characters; the value 1
is shown as a control character, which is rejected as a value. -/
theorem C66_byte_list_rejected (te : TypeEnv) (hk : te.kind (.integer (-128) 127) = .byte) (ndebug : Bool) (x : VarId) (s : FState W) :
    defaultOfValue te (.integer (-128) 127) (.one (.int 1)) = " Default: 1".toList ∧
    ListNotation (.integer (-128) 127) ["\x01".toList] "[\x01]".toList ∧
    defaultOfValue te (.integer (-128) 127) (.many [.int 1]) = " Default: [\x01]".toList ∧
    ∃ s', assignScalar ndebug (.integer (-128) 127) x "\x01".toList s = .err .userInputError s' := by
  refine ⟨?_, by unfold ListNotation; decide +kernel, ?_, ?_⟩
  · show " Default: ".toList ++ toStringElem te (.integer (-128) 127) (.int 1) = _
    have : toStringElem te (.integer (-128) 127) (.int 1) = "1".toList := by
      simp only [toStringElem, hk]
      decide +kernel
    rw [this]
    decide
  · show " Default: ".toList ++ showList [streamElem te (.integer (-128) 127) (.int 1)] = _
    have : streamElem te (.integer (-128) 127) (.int 1) = "\x01".toList := by
      simp only [streamElem, hk]
      decide +kernel
    rw [this]
    decide
  · refine (C29_integers_exact ndebug (-128) 127 x "\x01".toList s).2 ?_
    rintro ⟨v, -, -, h | h⟩
    · exact absurd h.1 (by decide)
    · obtain ⟨-, ds, h, -⟩ := h
      cases h

/-! ### The whole entry -/

/-- The part of the description that tells the default: the message if there is one, in quotes for single texts and paths; otherwise the value,
but nothing for required options. -/
inductive Spec.DefaultPart (te : TypeEnv) (cfg : Config) (isList : Bool) (ty : ElemTy) (v : Val) : Str → Prop where
  | required (h : cfg.required = true) (hm : cfg.defaultMessage = []) : DefaultPart te cfg isList ty v []
  | one {text : Str} {e : Elem} (h : cfg.required = false) (hm : cfg.defaultMessage = []) (hv : v = .one e) (ht : ShowsDefault te ty v text) :
      DefaultPart te cfg isList ty v (" Default: ".toList ++ match ty with | .string => quoted text | _ => text)
  | many {texts : List Str} {shown : Str} {es : List Elem} (h : cfg.required = false) (hm : cfg.defaultMessage = []) (hv : v = .many es)
      (hl : texts.length = es.length) (he : te.kind ty ≠ .byte → (∀ e ∈ es, Showable te ty e) → DenoteAll ty texts es)
      (ht : ListNotation ty texts shown) : DefaultPart te cfg isList ty v (" Default: ".toList ++ shown)
  | message (hm : cfg.defaultMessage ≠ []) (hp : isList = true ∨ (ty ≠ .string ∧ te.isPath ty = false)) :
      DefaultPart te cfg isList ty v (" Default: ".toList ++ cfg.defaultMessage)
  | quotedMessage (hm : cfg.defaultMessage ≠ []) (hl : isList = false) (hp : ty = .string ∨ te.isPath ty = true) :
      DefaultPart te cfg isList ty v (" Default: ".toList ++ quoted cfg.defaultMessage)

/-- The message of the validator comes last. -/
def Spec.ValidatorPart (cfg : Config) (text : Str) : Prop :=
  (cfg.validatorMessage = [] ∧ text = []) ∨ (cfg.validatorMessage ≠ [] ∧ text = ". ".toList ++ cfg.validatorMessage)

theorem validatorPart_spec (cfg : Config) : ValidatorPart cfg (validatorPart cfg) := by
  unfold validatorPart
  by_cases h : cfg.validatorMessage = []
  · rw [if_neg (by simp [h])]; exact Or.inl ⟨h, rfl⟩
  · rw [if_pos h]; exact Or.inr ⟨h, rfl⟩

theorem defaultOfValue_part (te : TypeEnv) (cfg : Config) (isList : Bool) (ty : ElemTy) (v : Val) (hr : cfg.required = false)
    (hm : cfg.defaultMessage = []) : DefaultPart te cfg isList ty v (defaultOfValue te ty v) := by
  cases v with
  | one e =>
    cases ty with
    | string => exact DefaultPart.one (ty := .string) (text := streamElem te .string e) hr hm rfl (show _ = _ from rfl)
    | boolean => exact DefaultPart.one (ty := .boolean) (text := toStringElem te .boolean e) hr hm rfl (show _ = _ from rfl)
    | integer lo hi => exact DefaultPart.one (ty := .integer lo hi) (text := toStringElem te (.integer lo hi) e) hr hm rfl (show _ = _ from rfl)
    | enumeration ns => exact DefaultPart.one (ty := .enumeration ns) (text := toStringElem te (.enumeration ns) e) hr hm rfl (show _ = _ from rfl)
    | foreign a c => exact DefaultPart.one (ty := .foreign a c) (text := toStringElem te (.foreign a c) e) hr hm rfl (show _ = _ from rfl)
  | many es =>
    obtain ⟨shown, h1, h2⟩ := defaultOfValue_many te ty es
    rw [h1]
    exact .many hr hm rfl (by simp) (fun hb he => stream_denotes te ty hb es he) h2

/-- C66, the entry of an option on the page: identifiers and type, then description, default and the message of the validator, in this order. -/
theorem C66_option_entry (te : TypeEnv) (st : Store) (adv : Bool) (cfg : Config) (x : VarId) (isList : Bool) (ty : ElemTy)
    (v : Val → W → Bool × W) :
    (cfg.hidden = true ∨ (cfg.advanced = true ∧ adv = false)) ∧ setUpCall te st adv (.option cfg x isList ty v) = [] ∨
    ¬ (cfg.hidden = true ∨ (cfg.advanced = true ∧ adv = false)) ∧
      ∃ d m, setUpCall te st adv (.option cfg x isList ty v) =
          [.item (prepIdForHelp cfg.short cfg.long ++ " ".toList ++ typeInfo te isList ty) (cfg.description ++ d ++ m)] ∧
        DefaultPart te cfg isList ty (st x) d ∧ ValidatorPart cfg m := by
  have hd : DefaultPart te cfg isList ty (st x)
      (if cfg.defaultMessage = [] then (if cfg.required then [] else defaultOfValue te ty (st x))
        else defaultOfMessage te isList ty cfg.defaultMessage) := by
    by_cases hm : cfg.defaultMessage = []
    · rw [if_pos hm]
      cases hr : cfg.required with
      | true => exact .required hr hm
      | false => exact defaultOfValue_part te cfg isList ty (st x) hr hm
    · rw [if_neg hm]
      cases isList with
      | true => exact .message hm (Or.inl rfl)
      | false =>
        by_cases hp : ty = .string ∨ te.isPath ty = true
        · rw [(C66_message_shown te false ty).2.2.1 _ rfl hp]
          exact .quotedMessage hm rfl hp
        · have hp1 : ty ≠ .string := fun e => hp (Or.inl e)
          have hp2 : te.isPath ty = false := by
            cases hx : te.isPath ty with
            | false => rfl
            | true => exact absurd (Or.inr hx) hp
          have : defaultOfMessage te false ty cfg.defaultMessage = " Default: ".toList ++ cfg.defaultMessage := by
            unfold defaultOfMessage
            cases ty <;> first | exact absurd rfl hp1 | simp [hp2]
          rw [this]
          exact .message hm (Or.inr ⟨hp1, hp2⟩)
  by_cases hh : cfg.hidden = true ∨ (cfg.advanced = true ∧ adv = false)
  · left
    refine ⟨hh, ?_⟩
    show storeElement adv cfg.advanced cfg.hidden _ = []
    unfold storeElement
    rw [if_neg]
    rcases hh with hh | ⟨h1, h2⟩
    · simp [hh]
    · simp [h1, h2]
  · right
    refine ⟨hh, _, _, ?_, hd, validatorPart_spec cfg⟩
    show storeElement adv cfg.advanced cfg.hidden _ = _
    unfold storeElement
    rw [if_pos]
    · rfl
    · cases h1 : cfg.hidden <;> cases h2 : cfg.advanced <;> cases h3 : adv <;> simp_all

/-- C66, positional options: numbered, with the type; the default value is shown for lists only. -/
theorem C66_positional_entry (te : TypeEnv) (st : Store) (n : Nat) (cfg : Config) (x : VarId) (isList : Bool) (ty : ElemTy)
    (v : Val → W → Bool × W) (es : List (Entry W)) (hr : cfg.required = false) (hm : cfg.defaultMessage = []) :
    ∃ d m, positionalCalls te st n (.positional cfg x isList ty v :: es) =
        .item ("\\fBARGUMENT-".toList ++ showNat (n + 1) ++ "\\fP ".toList ++ typeInfo te isList ty) (cfg.description ++ d ++ m) ::
          positionalCalls te st (n + 1) es ∧
      (isList = false → d = []) ∧ (isList = true → DefaultPart te cfg true ty (st x) d) ∧ ValidatorPart cfg m := by
  refine ⟨if isList then defaultOfValue te ty (st x) else [], validatorPart cfg, rfl, ?_, ?_, validatorPart_spec cfg⟩
  · rintro rfl; rfl
  · rintro rfl
    exact defaultOfValue_part te cfg true ty (st x) hr hm

example (te : TypeEnv) : ∃ texts shown, defaultOfValue te .string (.many [.str "a".toList, .str "b c".toList]) = " Default: ".toList ++ shown ∧
    ListNotation .string texts shown ∧ DenoteAll .string texts [.str "a".toList, .str "b c".toList] := by
  obtain ⟨shown, h1, h2⟩ := defaultOfValue_many te .string [.str "a".toList, .str "b c".toList]
  exact ⟨_, shown, h1, h2, rfl, rfl, trivial⟩

example (te : TypeEnv) : defaultOfValue te .string (.many [.str "a".toList, .str "b c".toList]) = " Default: [\"a\", \"b c\"]".toList := by
  show " Default: ".toList ++ showList [quoted "a".toList, quoted "b c".toList] = _
  decide

example (te : TypeEnv) (h : te.kind (.integer 0 255) = .wide) : Showable te (.integer 0 255) (.int 7) ∧
    defaultOfValue te (.integer 0 255) (.many [.int 7, .int 12]) = " Default: [7, 12]".toList := by
  refine ⟨⟨by rw [h]; nofun, by decide, by decide⟩, ?_⟩
  show " Default: ".toList ++ showList [streamElem te _ _, streamElem te _ _] = _
  simp only [streamElem, h]
  decide +kernel

example (te : TypeEnv) : Showable te (.enumeration [("a".toList, 0), ("b".toList, 1)]) (.enumv 1) ∧
    ShowsDefault te (.enumeration [("a".toList, 0), ("b".toList, 1)]) (.one (.enumv 1)) "b".toList := by
  refine ⟨⟨by decide, by decide⟩, ?_⟩
  show " Default: ".toList ++ toStringElem te _ _ = _
  unfold toStringElem
  cases te.kind (.enumeration [("a".toList, 0), ("b".toList, 1)]) <;> rfl

end Sharg
