import Verif.Lemmas.Exact

/-!
# Deciding the hypotheses about lines

Used to show that concrete lines meet the hypotheses of the theorems.
-/

namespace Sharg

open Spec

variable {W : Type}

instance (v : Str) (c : Char) : Decidable (∃ t, v = '-' :: c :: t) :=
  decidable_of_iff (['-', c].isPrefixOf v = true) (by
    rw [List.isPrefixOf_iff_prefix]
    exact ⟨fun ⟨t, h⟩ => ⟨t, h.symm⟩, fun ⟨t, h⟩ => ⟨t, h.symm⟩⟩)

instance (v s : Str) : Decidable (∃ t, v = '-' :: '-' :: (s ++ '=' :: t)) :=
  decidable_of_iff (('-' :: '-' :: (s ++ ['='])).isPrefixOf v = true) (by
    rw [List.isPrefixOf_iff_prefix]
    exact ⟨fun ⟨t, h⟩ => ⟨t, by rw [← h]; simp⟩, fun ⟨t, h⟩ => ⟨t, by rw [h]; simp⟩⟩)

instance (D : Decls W) (v : Str) : Decidable (LooksLikeOption D v) :=
  inferInstanceAs (Decidable (∃ d ∈ D.options, _ ∨ _))

instance (D : Decls W) (v : Str) : Decidable (SeparateOk D v) := inferInstanceAs (Decidable (_ ∧ _))

instance (D : Decls W) (it : Item) : Decidable (it.Ok D) :=
  match it with
  | .short _ .attached _ => inferInstanceAs (Decidable (_ ∧ _ ∧ _))
  | .short _ .equals _ => inferInstanceAs (Decidable (_ ∧ _ ∧ _))
  | .short _ .separate _ => inferInstanceAs (Decidable (_ ∧ _ ∧ _))
  | .long _ true v => inferInstanceAs (Decidable (_ ∧ _ ∧ SeparateOk D v))
  | .long _ false v => inferInstanceAs (Decidable (_ ∧ _ ∧ v ≠ []))
  | .flags _ => inferInstanceAs (Decidable (_ ∧ _))
  | .longFlag _ => inferInstanceAs (Decidable (_ ∧ _))
  | .word _ => inferInstanceAs (Decidable (_ ∧ _))

instance (D : Decls W) (it : Item) : Decidable (it.Loose D) :=
  match it with
  | .short c f v => inferInstanceAs (Decidable (Item.Ok D (.short c f v)))
  | .long s p v => inferInstanceAs (Decidable (Item.Ok D (.long s p v)))
  | .flags cs => inferInstanceAs (Decidable (SeparateOk D ('-' :: cs)))
  | .longFlag s => inferInstanceAs (Decidable (SeparateOk D ('-' :: '-' :: s)))
  | .word w => inferInstanceAs (Decidable (SeparateOk D w))

instance (c : Char) (items : List Item) : Decidable (∃ form v, Item.short c form v ∈ items) :=
  decidable_of_iff (items.any (fun it => match it with | .short c' _ _ => c' == c | _ => false) = true) (by
    rw [List.any_eq_true]
    constructor
    · rintro ⟨it, hi, h⟩
      cases it <;> simp at h
      subst h; exact ⟨_, _, hi⟩
    · rintro ⟨form, v, h⟩
      exact ⟨_, h, by simp⟩)

instance (s : Str) (items : List Item) : Decidable (∃ sep v, Item.long s sep v ∈ items) :=
  decidable_of_iff (items.any (fun it => match it with | .long s' _ _ => s' == s | _ => false) = true) (by
    rw [List.any_eq_true]
    constructor
    · rintro ⟨it, hi, h⟩
      cases it <;> simp at h
      subst h; exact ⟨_, _, hi⟩
    · rintro ⟨form, v, h⟩
      exact ⟨_, h, by simp⟩)

instance (d : OptDecl W) (items : List Item) : Decidable (Uniform d items) := inferInstanceAs (Decidable (¬ (_ ∧ _)))

instance (c : Char) (w : Str) : Decidable (EatenBy c w) :=
  match w with
  | '-' :: y :: t => decidable_of_iff (y ≠ '-' ∧ c ∈ '-' :: y :: t) (by
      constructor
      · exact fun h => ⟨y, t, rfl, h⟩
      · rintro ⟨y', t', h, h'⟩; injection h with _ h; injection h with h1 h2; subst h1 h2; exact h')
  | [] => isFalse (by rintro ⟨y, t, h, _⟩; cases h)
  | [x] => isFalse (by rintro ⟨y, t, h, _⟩; injection h with _ h; cases h)
  | x :: y :: t =>
    if hx : x = '-' then
      decidable_of_iff (y ≠ '-' ∧ c ∈ x :: y :: t) (by
        subst hx
        constructor
        · exact fun h => ⟨y, t, rfl, h⟩
        · rintro ⟨y', t', h, h'⟩; injection h with _ h; injection h with h1 h2; subst h1 h2; exact h')
    else isFalse (by rintro ⟨y', t', h, _⟩; injection h with h _; exact hx h)

theorem tail_iff (tail : Option (List Str)) (P : Str → Prop) :
    (∀ ws, tail = some ws → ∀ w ∈ ws, P w) ↔ ∀ w ∈ tail.getD [], P w := by
  cases tail <;> simp

instance (D : Decls W) (items : List Item) (tail : Option (List Str)) : Decidable (LineOk D items tail) :=
  decidable_of_iff ((∀ it ∈ items, it.Ok D) ∧ (∀ f ∈ D.flags, mentions f items ≤ 1) ∧
      (∀ d ∈ D.options, d.isList = true → Uniform d items) ∧
      ∀ w ∈ tail.getD [], w ≠ [] ∧ ∀ f ∈ D.flags, ¬ EatenBy f.short w) (by
    constructor
    · rintro ⟨a, b, c, d⟩
      exact ⟨a, b, c, (tail_iff _ _).2 d⟩
    · rintro ⟨a, b, c, d⟩
      exact ⟨a, b, c, (tail_iff _ _).1 d⟩)

instance (a : Str) : Decidable (Reserved a) :=
  decidable_of_iff (a ∈ ["-h".toList, "--help".toList, "-hh".toList, "--advanced-help".toList, "--version".toList,
    "--copyright".toList, "--export-help".toList, "--version-check".toList] ∨ "--export-help=".toList.isPrefixOf a = true)
    (by
      unfold Reserved
      rw [List.isPrefixOf_iff_prefix]
      exact or_congr Iff.rfl ⟨fun ⟨t, h⟩ => ⟨t, h.symm⟩, fun ⟨t, h⟩ => ⟨t, h.symm⟩⟩)

instance (items : List Item) (tail : Option (List Str)) : Decidable (NotRequest items tail) :=
  decidable_of_iff (Item.longFlag "version-check".toList ∉ items ∧ ∀ w ∈ tail.getD [], ¬ Reserved w)
    (and_congr Iff.rfl (tail_iff _ _).symm)

instance (l args : List Str) : Decidable (∃ exe, l = exe :: args) :=
  decidable_of_iff (l ≠ [] ∧ l.tail = args) (by
    constructor
    · rintro ⟨h, rfl⟩
      cases l with
      | nil => exact absurd rfl h
      | cons x l => exact ⟨x, rfl⟩
    · rintro ⟨exe, rfl⟩; simp)

instance (g : Prog W) (items : List Item) (tail : Option (List Str)) : Decidable (LineGiven g items tail) :=
  decidable_of_iff (g.parser.parseWasCalled = false ∧ CleanName g.parser.appName ∧ g.parser.subcommands = [] ∧
      (∃ exe, g.parser.arguments = exe :: renderLine items tail) ∧ renderLine items tail ≠ [] ∧ NotRequest items tail)
    ⟨fun ⟨a, b, c, d, e, f⟩ => ⟨a, b, c, d, e, f⟩, fun ⟨a, b, c, d, e, f⟩ => ⟨a, b, c, d, e, f⟩⟩

instance (g : Prog W) (items : List Item) (tail : Option (List Str)) : Decidable (LooseGiven g items tail) :=
  decidable_of_iff (g.parser.parseWasCalled = false ∧ CleanName g.parser.appName ∧ g.parser.subcommands = [] ∧
      (∃ exe, g.parser.arguments = exe :: renderLine items tail) ∧ renderLine items tail ≠ [] ∧
      (∀ it ∈ items, it.Loose (declsOf g.parser.operations)) ∧
      (∀ it ∈ items, it.isOption = false → ∀ a ∈ it.render, ¬ Reserved a ∧ a ∉ g.parser.options) ∧
      ∀ w ∈ tail.getD [], ¬ Reserved w)
    ⟨fun ⟨a, b, c, d, e, f, h, i⟩ => ⟨a, b, c, d, e, f, h, (tail_iff _ _).2 i⟩,
     fun ⟨a, b, c, d, e, f, h, i⟩ => ⟨a, b, c, d, e, f, h, (tail_iff _ _).1 i⟩⟩

instance (D : Decls W) : Decidable (VarsDistinct D) := inferInstanceAs (Decidable (List.Nodup _))

/-- Set-up by calls that are all accepted. -/
theorem operations_of_length (env : Env W) (cs : List (Call W)) (g : Prog W)
    (h : (accepted env (cs.map .call) g).length = cs.length) :
    (runActions env (cs.map .call) g).parser.operations = g.parser.operations ++ cs.filterMap Call.entry? := by
  have key : ∀ (cs : List (Call W)) (g : Prog W), (accepted env (cs.map .call) g).length ≤ cs.length ∧
      ((accepted env (cs.map .call) g).length = cs.length → accepted env (cs.map .call) g = cs) := by
    intro cs
    induction cs with
    | nil => intro g; simp [accepted]
    | cons c cs ih =>
      intro g
      simp only [List.map_cons, accepted, List.length_cons]
      split
      · refine ⟨?_, ?_⟩
        · simp only [List.length_cons]; exact Nat.succ_le_succ (ih _).1
        · intro h
          simp only [List.length_cons, Nat.add_right_cancel_iff] at h
          rw [(ih _).2 h]
      · refine ⟨Nat.le_succ_of_le (ih _).1, fun h => ?_⟩
        exact absurd ((ih _).1) (by rw [h]; exact Nat.not_succ_le_self _)
  rw [operations_history, (key cs g).2 h]

end Sharg
