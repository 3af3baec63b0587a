import Verif.Model.TypeNames
import Verif.Spec.TypeNames
import Verif.Props.PathValue

/-!
# What the names of types promise
-/

namespace Sharg

open Spec

theorem promised_signed (m : Str) (hm : IsDecimal m) (h0 : 0 < decValue m) (text : Str) :
    PromisedBy ("signed ".toList ++ m ++ " bit integer".toList) text ↔ WholeNumber (-2 ^ (decValue m - 1)) (2 ^ (decValue m - 1) - 1) text := by
  constructor
  · intro h
    cases h with
    | signed bits n hn hb he h =>
      have := List.append_cancel_left (List.append_cancel_right he)
      subst this
      rw [hn.2]
      exact h
    | unsigned bits n hn hb he h =>
      have : (some 's' : Option Char) = some 'u' := congrArg (fun l => l[0]?) he
      exact absurd this (by decide)
    | bool he =>
      have : (some 's' : Option Char) = some 'b' := congrArg (fun l => l[0]?) he
      exact absurd this (by decide)
    | string he =>
      have : (some 'i' : Option Char) = some 't' := congrArg (fun l => l[1]?) he
      exact absurd this (by decide)
    | path he =>
      have : (some 'i' : Option Char) = some 't' := congrArg (fun l => l[1]?) he
      exact absurd this (by decide)
    | char c he =>
      have : (some 's' : Option Char) = some 'c' := congrArg (fun l => l[0]?) he
      exact absurd this (by decide)
    | float v he =>
      have : (some 's' : Option Char) = some 'f' := congrArg (fun l => l[0]?) he
      exact absurd this (by decide)
    | double v he =>
      have : (some 's' : Option Char) = some 'd' := congrArg (fun l => l[0]?) he
      exact absurd this (by decide)
  · exact fun h => .signed _ m ⟨hm, rfl⟩ h0 rfl h

theorem promised_unsigned (m : Str) (hm : IsDecimal m) (h0 : 0 < decValue m) (text : Str) :
    PromisedBy ("unsigned ".toList ++ m ++ " bit integer".toList) text ↔ WholeNumber 0 (2 ^ decValue m - 1) text := by
  constructor
  · intro h
    cases h with
    | signed bits n hn hb he h =>
      have : (some 'u' : Option Char) = some 's' := congrArg (fun l => l[0]?) he
      exact absurd this (by decide)
    | unsigned bits n hn hb he h =>
      have := List.append_cancel_left (List.append_cancel_right he)
      subst this
      rw [hn.2]
      exact h
    | bool he =>
      have : (some 'u' : Option Char) = some 'b' := congrArg (fun l => l[0]?) he
      exact absurd this (by decide)
    | string he =>
      have : (some 'u' : Option Char) = some 's' := congrArg (fun l => l[0]?) he
      exact absurd this (by decide)
    | path he =>
      have : (some 'u' : Option Char) = some 's' := congrArg (fun l => l[0]?) he
      exact absurd this (by decide)
    | char c he =>
      have : (some 'u' : Option Char) = some 'c' := congrArg (fun l => l[0]?) he
      exact absurd this (by decide)
    | float v he =>
      have : (some 'u' : Option Char) = some 'f' := congrArg (fun l => l[0]?) he
      exact absurd this (by decide)
    | double v he =>
      have : (some 'u' : Option Char) = some 'd' := congrArg (fun l => l[0]?) he
      exact absurd this (by decide)
  · exact fun h => .unsigned _ m ⟨hm, rfl⟩ h0 rfl h

/-- A name that does not begin with `si` or `u` says nothing about whole numbers. -/
theorem promised_word (name : Str) (text : Str) (h1 : name[1]? ≠ some 'i') (h2 : name[0]? ≠ some 'u') (h : PromisedBy name text) :
    (name = "bool".toList ∧ text ∈ ["0".toList, "1".toList, "true".toList, "false".toList]) ∨ name = "std::string".toList ∨
    name = "std::filesystem::path".toList ∨ (name = "char".toList ∧ ∃ c, text = [c]) ∨
    (name = "float".toList ∧ ∃ v, DenotesFloat ⟨23, 8, 149⟩ text v) ∨ (name = "double".toList ∧ ∃ v, DenotesFloat ⟨52, 11, 1074⟩ text v) := by
  cases h with
  | signed bits n hn hb he h => subst he; exact absurd rfl h1
  | unsigned bits n hn hb he h => subst he; exact absurd rfl h2
  | bool he h => exact Or.inl ⟨he, h⟩
  | string he => exact Or.inr (Or.inl he)
  | path he => exact Or.inr (Or.inr (Or.inl he))
  | char c he h => exact Or.inr (Or.inr (Or.inr (Or.inl ⟨he, c, h⟩)))
  | float v he h => exact Or.inr (Or.inr (Or.inr (Or.inr (Or.inl ⟨he, v, h⟩))))
  | double v he h => exact Or.inr (Or.inr (Or.inr (Or.inr (Or.inr ⟨he, v, h⟩))))

theorem denotes_integer (lo hi : Int) (text : Str) : (∃ e, Denotes (.integer lo hi) text e) ↔ WholeNumber lo hi text :=
  ⟨fun ⟨_, v, _, h⟩ => ⟨v, h⟩, fun ⟨v, h⟩ => ⟨.int v, v, rfl, h⟩⟩

/-- An integer type whose name and limits fit together. -/
theorem named_signed (t : CppType) (m : Str) (hn : t.name = "signed ".toList ++ m ++ " bit integer".toList) (hm : IsDecimal m)
    (h0 : 0 < decValue m) (he : t.elem = .integer (-2 ^ (decValue m - 1)) (2 ^ (decValue m - 1) - 1)) (text : Str) :
    (∃ e, Denotes t.elem text e) ↔ PromisedBy t.name text := by
  rw [hn, promised_signed m hm h0, he, denotes_integer]

theorem named_unsigned (t : CppType) (m : Str) (hn : t.name = "unsigned ".toList ++ m ++ " bit integer".toList) (hm : IsDecimal m)
    (h0 : 0 < decValue m) (he : t.elem = .integer 0 (2 ^ decValue m - 1)) (text : Str) :
    (∃ e, Denotes t.elem text e) ↔ PromisedBy t.name text := by
  rw [hn, promised_unsigned m hm h0, he, denotes_integer]

theorem named_bool (text : Str) : (∃ e, Denotes CppType.bool.elem text e) ↔ PromisedBy CppType.bool.name text := by
  constructor
  · rintro ⟨e, (⟨-, h | h⟩ | ⟨-, h | h⟩)⟩
    all_goals exact .bool rfl (by rw [h]; decide)
  · intro h
    rcases promised_word _ _ (by decide) (by decide) h with ⟨-, h⟩ | h | h | ⟨h, -⟩ | ⟨h, -⟩ | ⟨h, -⟩
    · simp only [List.mem_cons, List.not_mem_nil, or_false] at h
      rcases h with rfl | rfl | rfl | rfl
      · exact ⟨.bool false, Or.inr ⟨rfl, Or.inl rfl⟩⟩
      · exact ⟨.bool true, Or.inl ⟨rfl, Or.inl rfl⟩⟩
      · exact ⟨.bool true, Or.inl ⟨rfl, Or.inr rfl⟩⟩
      · exact ⟨.bool false, Or.inr ⟨rfl, Or.inr rfl⟩⟩
    all_goals exact absurd h (by decide)

theorem named_string (text : Str) : (∃ e, Denotes CppType.string.elem text e) ↔ PromisedBy CppType.string.name text :=
  ⟨fun _ => .string rfl, fun _ => ⟨.str text, rfl⟩⟩

theorem named_float (text : Str) : (∃ e, Denotes CppType.float.elem text e) ↔ PromisedBy CppType.float.name text := by
  constructor
  · rintro ⟨e, h⟩
    obtain ⟨v, -, h⟩ := (C83_accepted_exactly binary32 (by decide) text e).1 h
    exact .float v rfl h
  · intro h
    rcases promised_word _ _ (by decide) (by decide) h with ⟨h, -⟩ | h | h | ⟨h, -⟩ | ⟨-, v, h⟩ | ⟨h, -⟩
    case inr.inr.inr.inr.inl => exact ⟨_, (C83_accepted_exactly binary32 (by decide) text _).2 ⟨v, rfl, h⟩⟩
    all_goals exact absurd h (by decide)

theorem named_double (text : Str) : (∃ e, Denotes CppType.double.elem text e) ↔ PromisedBy CppType.double.name text := by
  constructor
  · rintro ⟨e, h⟩
    obtain ⟨v, -, h⟩ := (C83_accepted_exactly binary64 (by decide) text e).1 h
    exact .double v rfl h
  · intro h
    rcases promised_word _ _ (by decide) (by decide) h with ⟨h, -⟩ | h | h | ⟨h, -⟩ | ⟨h, -⟩ | ⟨-, v, h⟩
    case inr.inr.inr.inr.inr => exact ⟨_, (C83_accepted_exactly binary64 (by decide) text _).2 ⟨v, rfl, h⟩⟩
    all_goals exact absurd h (by decide)

end Sharg
