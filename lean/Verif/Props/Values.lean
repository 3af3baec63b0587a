import Verif.Props.Lists

/-!
# C29, C30: which texts are accepted for integers, booleans and enumerations
-/

set_option linter.unusedSimpArgs false

namespace Sharg

open Spec

variable {W : Type}

/-! ### Printing numbers -/

/-- Decimal digits of `n`, at most `fuel` many. -/
def Spec.showDigits : Nat → Nat → Str
  | 0, _ => []
  | fuel + 1, n => if n < 10 then [digits.getD n '0'] else showDigits fuel (n / 10) ++ [digits.getD (n % 10) '0']

/-- The decimal notation of a natural number. -/
def Spec.showNat (n : Nat) : Str := showDigits (n + 1) n

/-- The decimal notation of an integer. -/
def Spec.showInt (v : Int) : Str := if 0 ≤ v then showNat v.toNat else '-' :: showNat (-v).toNat

theorem decValue_append (a b : Str) : decValue (a ++ b) = decValue a * 10 ^ b.length + decValue b := by
  induction a with
  | nil => simp [decValue]
  | cons c a ih =>
    simp only [List.cons_append, decValue, ih, List.length_append, Nat.pow_add]
    grind

theorem getD_digits (n : Nat) (h : n < 10) : digits.getD n '0' ∈ digits ∧ digits.idxOf (digits.getD n '0') = n := by
  have : ∀ m < 10, digits.getD m '0' ∈ digits ∧ digits.idxOf (digits.getD m '0') = m := by decide
  exact this n h

theorem showDigits_spec (fuel : Nat) : ∀ n, n < fuel → IsDecimal (showDigits fuel n) ∧ decValue (showDigits fuel n) = n := by
  induction fuel with
  | zero => intro n h; omega
  | succ fuel ih =>
    intro n hn
    unfold showDigits
    by_cases h : n < 10
    · rw [if_pos h]
      obtain ⟨h1, h2⟩ := getD_digits n h
      exact ⟨⟨by simp, by simp only [List.mem_singleton]; rintro c rfl; exact h1⟩, by simp only [decValue, h2, List.length_nil, Nat.pow_zero]; omega⟩
    · rw [if_neg h]
      obtain ⟨⟨h1, h2⟩, h3⟩ := ih (n / 10) (by omega)
      obtain ⟨h4, h5⟩ := getD_digits (n % 10) (by omega)
      refine ⟨⟨by simp, ?_⟩, ?_⟩
      · intro c hc
        rcases List.mem_append.1 hc with hc | hc
        · exact h2 c hc
        · rw [List.mem_singleton.1 hc]; exact h4
      · rw [decValue_append, h3]
        simp only [decValue, h5, List.length_cons, List.length_nil, Nat.pow_zero]
        omega

theorem showNat_spec (n : Nat) : IsDecimal (showNat n) ∧ decValue (showNat n) = n := showDigits_spec _ n (by omega)

theorem showInt_denotes (lo hi v : Int) (h1 : lo ≤ v) (h2 : v ≤ hi) : DenotesInt lo hi (showInt v) v := by
  refine ⟨h1, h2, ?_⟩
  unfold showInt
  by_cases h : 0 ≤ v
  · rw [if_pos h]
    left
    obtain ⟨h3, h4⟩ := showNat_spec v.toNat
    exact ⟨h3, by rw [h4]; omega⟩
  · rw [if_neg h]
    right
    obtain ⟨h3, h4⟩ := showNat_spec (-v).toNat
    exact ⟨by omega, _, rfl, h3, by rw [h4]; omega⟩

theorem denotesInt_unique {lo hi : Int} {s : Str} {v w : Int} (h : DenotesInt lo hi s v) (h' : DenotesInt lo hi s w) : v = w := by
  have := (fromChars_ok lo hi s v).2 h
  rw [(fromChars_ok lo hi s w).2 h'] at this
  injection this with h1
  exact h1.symm

theorem denotes_unique {ty : ElemTy} {s : Str} {e e' : Elem} (h : Denotes ty s e) (h' : Denotes ty s e') : e = e' := by
  have := (readElem_iff ty s e).2 h
  rw [(readElem_iff ty s e').2 h'] at this
  injection this with h1
  exact h1.symm

/-! ### C29 -/

/-- C29: the text given for an integer option is accepted exactly if it denotes a number within the limits of the type,
which the variable then holds; otherwise `user_input_error` is thrown. Independently of the build kind, and for the text
of an option, of an option with attached value and of a positional option alike (all go through this function). -/
theorem C29_integers_exact (ndebug : Bool) (lo hi : Int) (x : VarId) (text : Str) (s : FState W) :
    (∀ v, DenotesInt lo hi text v →
      assignScalar ndebug (.integer lo hi) x text s = .ok () { s with store := s.store.set x (.one (.int v)) }) ∧
    ((¬ ∃ v, DenotesInt lo hi text v) → ∃ s', assignScalar ndebug (.integer lo hi) x text s = .err .userInputError s') := by
  unfold assignScalar
  simp only [parseElem, parseInteger]
  constructor
  · intro v hv
    rw [(fromChars_ok lo hi text v).2 hv]
    rfl
  · intro hv
    cases hf : fromChars lo hi text with
    | invalid => exact ⟨_, rfl⟩
    | outOfRange => exact ⟨_, rfl⟩
    | ok v rest =>
      by_cases hr : rest = []
      · subst hr
        exact absurd ⟨v, (fromChars_ok lo hi text v).1 hf⟩ hv
      · simp only [hr, if_false]
        exact ⟨_, rfl⟩

/-- C29, print and parse: giving an option, in whatever spelling, the decimal notation of a number that its type can
represent makes the variable hold that number, if `parse()` returns. -/
theorem C29_printed_number_read_back (env : Env W) (g g' : Prog W) (hg : Reachable env g) (items : List Item)
    (tail : Option (List Str)) (hl : LineGiven g items tail) (hok : LineOk (decls g) items tail)
    (hnd : env.ndebug = false ∨ ListsRepresentable (decls g) items tail) (hvars : VarsDistinct (decls g))
    (h : parse env g = (.returned, g')) (d : OptDecl W) (hd : d ∈ (decls g).options) (lo hi : Int)
    (hty : d.ty = .integer lo hi) (hs : d.isList = false) (it : Item) (hit : it ∈ items) (v : Int)
    (hv : it.valueFor d = some (showInt v)) (h1 : lo ≤ v) (h2 : v ≤ hi) : g'.store d.var = .one (.int v) := by
  obtain ⟨w₁, _, hm⟩ := C17_only_meaningful_lines_partial env g g' hg items tail hl hok hnd h
  have hdel := (line_delivered hvars hm).1
  have hmem : showInt v ∈ given d items := List.mem_filterMap.2 ⟨it, hit, hv⟩
  have := hdel.value d hd (List.ne_nil_of_mem hmem)
  rw [hs] at this
  obtain ⟨t, e, ht, he, hde⟩ := this
  rw [ht, List.mem_singleton] at hmem
  subst hmem
  rw [hty] at hde
  have hde' : Denotes (.integer lo hi) (showInt v) (.int v) := ⟨v, rfl, showInt_denotes lo hi v h1 h2⟩
  rw [he, denotes_unique hde hde']

example : showInt (-128) = "-128".toList ∧ showInt 0 = "0".toList ∧ showInt 70 = "70".toList := by decide

example (g' : Prog Unit) (h : parse exEnv exLine = (.returned, g')) : g'.store 0 = .one (.int 3) :=
  C29_printed_number_read_back exEnv exLine g' (exRun_reachable _ _) exItems exTail exLine_given exLine_ok (Or.inl rfl)
    (by decide +kernel) h
    ⟨'n', "num".toList, 0, false, .integer (-128) 127, false, fun _ w => (true, w)⟩ (by rw [exLine_decls]; exact .head _)
    (-128) 127 rfl rfl (.short 'n' .separate "3".toList) (by decide) 3 (by decide) (by decide) (by decide)

/-! ### C30 -/

/-- C30: a bool accepts exactly `0`, `false`, `1`, `true`; otherwise `user_input_error` and nothing is changed. -/
theorem C30_booleans_exact (ndebug : Bool) (x : VarId) (text : Str) (s : FState W) :
    assignScalar ndebug .boolean x text s =
      if text = "1".toList ∨ text = "true".toList then .ok () { s with store := s.store.set x (.one (.bool true)) }
      else if text = "0".toList ∨ text = "false".toList then .ok () { s with store := s.store.set x (.one (.bool false)) }
      else .err .userInputError s := by
  have e1 : "1".toList = ['1'] := by decide
  have e2 : "true".toList = ['t', 'r', 'u', 'e'] := by decide
  have e3 : "0".toList = ['0'] := by decide
  have e4 : "false".toList = ['f', 'a', 'l', 's', 'e'] := by decide
  rw [e1, e2, e3, e4]
  unfold assignScalar
  simp only [parseElem, parseBool]
  by_cases h0 : text = ['0']
  · subst h0; simp; rfl
  by_cases h1 : text = ['1']
  · subst h1; simp; rfl
  by_cases h2 : text = ['t', 'r', 'u', 'e']
  · subst h2; simp; rfl
  by_cases h3 : text = ['f', 'a', 'l', 's', 'e']
  · subst h3; simp; rfl
  simp only [h0, h1, h2, h3, if_false, or_self]
  rfl

/-- C30: an enumeration with names accepts exactly these, yielding the value associated first; otherwise
`user_input_error` and nothing is changed. -/
theorem C30_enumerations_exact (ndebug : Bool) (names : List (Str × Int)) (hne : names ≠ []) (x : VarId) (text : Str)
    (s : FState W) :
    (∀ before after tag, names = before ++ (text, tag) :: after → (∀ p ∈ before, p.1 ≠ text) →
      assignScalar ndebug (.enumeration names) x text s = .ok () { s with store := s.store.set x (.one (.enumv tag)) }) ∧
    ((∀ p ∈ names, p.1 ≠ text) → assignScalar ndebug (.enumeration names) x text s = .err .userInputError s) := by
  unfold assignScalar
  simp only [parseElem, parseEnum]
  constructor
  · intro b a tag h1 h2
    rw [(lookup_some_iff names text tag).2 ⟨b, a, h1, h2⟩]
    rfl
  · intro h
    cases hl : names.lookup text with
    | some tag =>
      obtain ⟨b, a, h1, _⟩ := (lookup_some_iff names text tag).1 hl
      exact absurd rfl (h (text, tag) (by rw [h1]; simp))
    | none =>
      simp only [List.isEmpty_iff, hne, if_false]
      rfl

end Sharg
