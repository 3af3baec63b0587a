import Verif.Spec.Grammar

/-!
# Specification: what the arguments of a successful `parse()` can be

For arbitrary argument vectors, well-formed or not.
-/

namespace Sharg.Spec

/-- The argument is exactly an identifier of the option. -/
def Bare {W : Type} (d : OptDecl W) (a : Str) : Prop :=
  (d.short ≠ '\x00' ∧ a = ['-', d.short]) ∨ (d.long ≠ [] ∧ a = '-' :: '-' :: d.long)

instance {W : Type} (d : OptDecl W) (a : Str) : Decidable (Bare d a) := inferInstanceAs (Decidable (_ ∨ _))

/-- The argument is an identifier of the option with a non-empty value attached: `-kV`, `-k=V` or `--key=V`. -/
def Attached {W : Type} (d : OptDecl W) (a : Str) : Prop :=
  ∃ v, v ≠ [] ∧
    ((d.short ≠ '\x00' ∧ (a = '-' :: d.short :: '=' :: v ∨ (v.head? ≠ some '=' ∧ a = '-' :: d.short :: v))) ∨
     (d.long ≠ [] ∧ a = '-' :: '-' :: (d.long ++ '=' :: v)))

/-- The argument names the option: `-k...`, `--key` or `--key=...`. -/
def Names {W : Type} (d : OptDecl W) (a : Str) : Prop :=
  (d.short ≠ '\x00' ∧ ['-', d.short] <+: a) ∨
  (d.long ≠ [] ∧ (a = '-' :: '-' :: d.long ∨ '-' :: '-' :: (d.long ++ ['=']) <+: a))

instance {W : Type} (d : OptDecl W) (a : Str) : Decidable (Names d a) := inferInstanceAs (Decidable (_ ∨ _))

/-- An identifier of some option, without value. -/
def BareAny {W : Type} (D : Decls W) (a : Str) : Prop := ∃ d ∈ D.options, Bare d a

instance {W : Type} (D : Decls W) (a : Str) : Decidable (BareAny D a) := inferInstanceAs (Decidable (∃ d ∈ _, _))

/-- How options use up arguments: from the given arguments to what they leave (used ones become empty). An
identifier followed by an argument that was used by another option is possible, see `orphan` (finding in C28). -/
inductive Uses {W : Type} (D : Decls W) : List Str → List Str → Prop where
  | nil : Uses D [] []
  /-- not used -/
  | keep (a : Str) {l l' : List Str} : Uses D l l' → Uses D (a :: l) (a :: l')
  /-- identifier with attached value -/
  | attached {d : OptDecl W} {a : Str} {l l' : List Str} : d ∈ D.options → Attached d a → Uses D l l' →
      Uses D (a :: l) ([] :: l')
  /-- identifier and value -/
  | pair {d : OptDecl W} {a : Str} (v : Str) {l l' : List Str} : d ∈ D.options → Bare d a → Uses D l l' →
      Uses D (a :: v :: l) ([] :: [] :: l')
  /-- identifier; the argument behind it is used as well -/
  | orphan {d : OptDecl W} {a : Str} {l l' : List Str} : d ∈ D.options → Bare d a → Uses D l ([] :: l') →
      Uses D (a :: l) ([] :: [] :: l')

/-- The arguments whose predecessor is not a bare option identifier, so that they cannot be the value of an option.
`prev`: the predecessor of the first one is. -/
def free {W : Type} (D : Decls W) : Bool → List Str → List Str
  | _, [] => []
  | prev, a :: l => if prev then free D (decide (BareAny D a)) l else a :: free D (decide (BareAny D a)) l

/-- How a short flag group (or, by accident, a word behind `--`) shrinks: `xs` are flag characters in it, `rest` is what
remains of it. -/
def Shrinks {W : Type} (D : Decls W) (t rest : Str) : Prop :=
  ∃ xs, (∀ x ∈ xs, ∃ f ∈ D.flags, f.short = x) ∧ t.Perm (xs ++ rest) ∧ rest.Sublist t

/-- How often an argument mentions a flag: in a group `-xyz` without further `-`, or as `--flag`. -/
def cellMentions (f : FlagDecl) : Str → Nat
  | '-' :: '-' :: s => if s = f.long ∧ f.long ≠ [] then 1 else 0
  | '-' :: t => if '-' ∈ t ∨ f.short = '\x00' then 0 else t.count f.short
  | _ => 0

/-- How often arguments mention a flag. -/
def argMentions (f : FlagDecl) (args : List Str) : Nat := (args.map (cellMentions f)).sum

/-- An argument made of flags: `--flag`; or `-` and short flags, possibly with the characters of `-flag` (a long flag
with one dash) in between: the parser removes the short flags one by one and then sees `--flag`. -/
def FlagArgument {W : Type} (D : Decls W) (a : Str) : Prop :=
  (∃ f ∈ D.flags, a = '-' :: '-' :: f.long) ∨
  (∃ t rest, a = '-' :: t ∧ t ≠ [] ∧ t.head? ≠ some '-' ∧ Shrinks D t rest ∧ (rest = [] ∨ ∃ f ∈ D.flags, rest = '-' :: f.long))

/-- How an argument may change when flags are taken out of it. Only the first and the last case occur in front of `--`
in a successful run. -/
inductive Becomes {W : Type} (D : Decls W) : Str → Str → Prop where
  | same (a : Str) : Becomes D a a
  | shrink {t rest : Str} : rest ≠ [] → t.head? ≠ some '-' → Shrinks D t rest → Becomes D ('-' :: t) ('-' :: rest)
  | gone {a : Str} : FlagArgument D a → Becomes D a []

/-- A word: `-` or something not starting with `-`; in particular not empty. -/
def IsWord (a : Str) : Prop := a ≠ [] ∧ (a = ['-'] ∨ a.head? ≠ some '-')

/-- What may remain of an argument in front of `--` when options and flags are taken out: it is untouched and a word
(or empty), or consisted of flags. -/
inductive Settled {W : Type} (D : Decls W) : Str → Str → Prop where
  | empty : Settled D [] []
  | word {a : Str} : IsWord a → Settled D a a
  | flags {a : Str} : FlagArgument D a → Settled D a []

/-- The arguments in front of the first `--`. -/
def before (args : List Str) : List Str := args.takeWhile (· ≠ ['-', '-'])

/-- The arguments behind the first `--`. -/
def behind (args : List Str) : List Str := (args.dropWhile (· ≠ ['-', '-'])).drop 1

/-- The arguments that are not empty. -/
def nonEmpty (l : List Str) : List Str := l.filter (· ≠ [])

/-- The number of words fits the positional options: one for each, at least one for a list at the end. -/
def Fits {W : Type} : List (PosDecl W) → Nat → Prop
  | [], n => n = 0
  | d :: ds, n => if d.isList then 0 < n ∧ ds = [] else ∃ m, n = m + 1 ∧ Fits ds m

/-- The argument is a group of short flags (or looks like one) containing the flag. -/
def InGroup (f : FlagDecl) (a : Str) : Prop := ∃ t, a = '-' :: t ∧ t.head? ≠ some '-' ∧ f.short ∈ t

/-- The argument can set the flag: it is `--flag`, or a group with the flag, or, by accident (see C24), a group that
becomes `--flag` when other short flags are removed from it. -/
def FlagSeen {W : Type} (D : Decls W) (f : FlagDecl) (a : Str) : Prop :=
  a = '-' :: '-' :: f.long ∨ InGroup f a ∨ ∃ t, a = '-' :: t ∧ t.head? ≠ some '-' ∧ Shrinks D t ('-' :: f.long)

/-- Two lists of the same length whose entries are related position by position. -/
inductive Pointwise {α β : Type} (R : α → β → Prop) : List α → List β → Prop where
  | nil : Pointwise R [] []
  | cons {a : α} {b : β} {l : List α} {m : List β} : R a b → Pointwise R l m → Pointwise R (a :: l) (b :: m)

end Sharg.Spec
