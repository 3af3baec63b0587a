import Verif.Model.FormatParse
import Verif.Spec.Values

/-!
# Specification: well-formed command lines and their meaning

A command line is a list of items (options in one of their spellings, flags, words), optionally followed by `--`
and further words. Nothing in this file refers to how the parser works; it only shares the declarations.
-/

namespace Sharg.Spec

/-- Spellings of an option value after a short identifier: `-kV`, `-k=V`, `-k V`. -/
inductive Form where
  | attached
  | equals
  | separate
  deriving DecidableEq, Repr

/-- What a user writes on the command line. `long s sep v` is `--s v` if `sep`, else `--s=v`. -/
inductive Item where
  | short (c : Char) (form : Form) (v : Str)
  | long (s : Str) (sep : Bool) (v : Str)
  | flags (cs : List Char)
  | longFlag (s : Str)
  | word (w : Str)
  deriving DecidableEq, Repr

/-- The arguments an item consists of. -/
def Item.render : Item → List Str
  | .short c .attached v => ['-' :: c :: v]
  | .short c .equals v => ['-' :: c :: '=' :: v]
  | .short c .separate v => [['-', c], v]
  | .long s false v => ['-' :: '-' :: (s ++ '=' :: v)]
  | .long s true v => ['-' :: '-' :: s, v]
  | .flags cs => ['-' :: cs]
  | .longFlag s => ['-' :: '-' :: s]
  | .word w => [w]

/-- The whole line; `tail` are the words behind `--`, if there is one. -/
def renderLine (items : List Item) (tail : Option (List Str)) : List Str :=
  items.flatMap Item.render ++ match tail with
    | none => []
    | some ws => ['-', '-'] :: ws

/-! ### Which set-ups and lines are considered -/

/-- Letters, digits, `_`, `@`, `-`. -/
def IsIdChar (c : Char) : Prop :=
  ('a' ≤ c ∧ c ≤ 'z') ∨ ('A' ≤ c ∧ c ≤ 'Z') ∨ ('0' ≤ c ∧ c ≤ '9') ∨ c = '_' ∨ c = '@' ∨ c = '-'

/-- All short identifiers in use (`'\0'` means none). -/
def shortIds {W : Type} (D : Decls W) : List Char :=
  (D.options.map (·.short) ++ D.flags.map (·.short)).filter (· ≠ '\x00')

/-- All long identifiers in use (the empty string means none). -/
def longIds {W : Type} (D : Decls W) : List Str :=
  (D.options.map (·.long) ++ D.flags.map (·.long)).filter (· ≠ [])

/-- Identifiers are unique and made of the allowed characters (this is what C01 guarantees). -/
structure IdsOk {W : Type} (D : Decls W) : Prop where
  shortNodup : (shortIds D).Nodup
  longNodup : (longIds D).Nodup
  shortChars : ∀ c ∈ shortIds D, IsIdChar c ∧ c ≠ '-'
  longChars : ∀ s ∈ longIds D, ∀ c ∈ s, IsIdChar c

/-- The text could be read as (the start of) a declared option: `-k...`, `--key` or `--key=...`. -/
def LooksLikeOption {W : Type} (D : Decls W) (v : Str) : Prop :=
  ∃ d ∈ D.options,
    (d.short ≠ '\x00' ∧ ∃ t, v = '-' :: d.short :: t) ∨
    (d.long ≠ [] ∧ (v = '-' :: '-' :: d.long ∨ ∃ t, v = '-' :: '-' :: (d.long ++ '=' :: t)))

/-- Restriction on a value given as an argument of its own. -/
def SeparateOk {W : Type} (D : Decls W) (v : Str) : Prop := ¬ LooksLikeOption D v ∧ v ≠ ['-', '-']

/-- The item uses declared identifiers and is written unambiguously. -/
def Item.Ok {W : Type} (D : Decls W) : Item → Prop
  | .short c form v => c ≠ '\x00' ∧ (∃ d ∈ D.options, d.short = c) ∧
      match form with
      | .attached => v ≠ [] ∧ v.head? ≠ some '='
      | .equals => v ≠ []
      | .separate => SeparateOk D v
  | .long s sep v => s ≠ [] ∧ (∃ d ∈ D.options, d.long = s) ∧ if sep then SeparateOk D v else v ≠ []
  | .flags cs => cs ≠ [] ∧ ∀ c ∈ cs, c ≠ '\x00' ∧ ∃ f ∈ D.flags, f.short = c
  | .longFlag s => s ≠ [] ∧ ∃ f ∈ D.flags, f.long = s
  | .word w => w ≠ [] ∧ (w = ['-'] ∨ w.head? ≠ some '-')

/-- Weaker than `Item.Ok`: option values are written unambiguously; anything else (unknown flags, misspelled options,
empty arguments ...) may occur as long as it could not be read as a declared option. -/
def Item.Loose {W : Type} (D : Decls W) : Item → Prop
  | .flags cs => SeparateOk D ('-' :: cs)
  | .longFlag s => SeparateOk D ('-' :: '-' :: s)
  | .word w => SeparateOk D w
  | it => it.Ok D

/-- The item gives a value to an option. -/
def Item.isOption : Item → Bool
  | .short _ _ _ => true
  | .long _ _ _ => true
  | _ => false

/-- How often an item mentions a flag. -/
def Item.mentions (f : FlagDecl) : Item → Nat
  | .flags cs => cs.count f.short
  | .longFlag s => if s = f.long then 1 else 0
  | _ => 0

/-- How often the line mentions a flag. -/
def mentions (f : FlagDecl) (items : List Item) : Nat := (items.map (Item.mentions f)).sum

/-- A word behind `--` that the parser would mistake for a group with the flag `c` (see C15). -/
def EatenBy (c : Char) (w : Str) : Prop := ∃ y t, w = '-' :: y :: t ∧ y ≠ '-' ∧ c ∈ w

/-- A well-formed line. -/
structure LineOk {W : Type} (D : Decls W) (items : List Item) (tail : Option (List Str)) : Prop where
  itemsOk : ∀ it ∈ items, it.Ok D
  /-- no flag is repeated -/
  flagsOnce : ∀ f ∈ D.flags, mentions f items ≤ 1
  /-- the values of a list option are all given with the same identifier -/
  listsUniform : ∀ d ∈ D.options, d.isList = true →
    ¬ ((∃ form v, Item.short d.short form v ∈ items) ∧ (∃ sep v, Item.long d.long sep v ∈ items))
  /-- the words behind `--` are non-empty and not mistaken for flags -/
  tailOk : ∀ ws, tail = some ws → ∀ w ∈ ws, w ≠ [] ∧ ∀ f ∈ D.flags, ¬ EatenBy f.short w

/-! ### Meaning -/

/-- The value an item gives to an option. -/
def Item.valueFor {W : Type} (d : OptDecl W) : Item → Option Str
  | .short c _ v => if c = d.short then some v else none
  | .long s _ v => if s = d.long then some v else none
  | _ => none

/-- All values given to an option, in command line order. -/
def given {W : Type} (d : OptDecl W) (items : List Item) : List Str := items.filterMap (Item.valueFor d)

def Item.word? : Item → Option Str
  | .word w => some w
  | _ => none

/-- The words, i.e. the positional arguments. -/
def words (items : List Item) (tail : Option (List Str)) : List Str :=
  items.filterMap Item.word? ++ tail.getD []

/-- No text given for a list is out of range (such texts are dropped silently by release builds, C31). -/
def ListsRepresentable {W : Type} (D : Decls W) (items : List Item) (tail : Option (List Str)) : Prop :=
  (∀ d ∈ D.options, d.isList = true → ∀ t ∈ given d items, ¬ OutOfRange d.ty t) ∧
  (∀ p ∈ D.positionals, p.isList = true → ∀ t ∈ words items tail, ¬ OutOfRange p.ty t)

/-- Each text denotes the corresponding element. -/
def DenoteAll (ty : ElemTy) : List Str → List Elem → Prop
  | [], [] => True
  | t :: ts, e :: es => Denotes ty t e ∧ DenoteAll ty ts es
  | _, _ => False

/-- The texts given for a variable denote the value `val`: all of them for a list, the only one otherwise. -/
def ValueOf (isList : Bool) (ty : ElemTy) (texts : List Str) (val : Val) : Prop :=
  if isList then ∃ es, val = .many es ∧ DenoteAll ty texts es
  else ∃ t e, texts = [t] ∧ val = .one e ∧ Denotes ty t e

/-- Effect of the options: each given option gets its value, which its validator accepts; the other ones are not
required and keep their value. `w` is the state of the world that validators may use. -/
def OptionsMean {W : Type} (items : List Item) : List (OptDecl W) → Store → W → Store → W → Prop
  | [], st, w, st', w' => st' = st ∧ w' = w
  | d :: ds, st, w, st', w' =>
    (given d items = [] ∧ d.required = false ∧ OptionsMean items ds st w st' w') ∨
    (given d items ≠ [] ∧ ∃ val w₁, ValueOf d.isList d.ty (given d items) val ∧ d.validator val w = (true, w₁) ∧
      OptionsMean items ds (st.set d.var val) w₁ st' w')

/-- Effect of the flags: the variables of the mentioned ones become true. -/
def setFlags (items : List Item) : List FlagDecl → Store → Store
  | [], st => st
  | f :: fs, st => setFlags items fs (if mentions f items = 0 then st else st.set f.var (.one (.bool true)))

/-- Effect of the words: one for each positional option; a list option at the end takes all remaining ones, at
least one. -/
def PositionalsMean {W : Type} : List (PosDecl W) → List Str → Store → W → Store → W → Prop
  | [], ws, st, w, st', w' => ws = [] ∧ st' = st ∧ w' = w
  | d :: ds, ws, st, w, st', w' =>
    if d.isList then
      ds = [] ∧ ws ≠ [] ∧ ∃ val, ValueOf true d.ty ws val ∧ d.validator val w = (true, w') ∧ st' = st.set d.var val
    else
      ∃ t ts val w₁, ws = t :: ts ∧ ValueOf false d.ty [t] val ∧ d.validator val w = (true, w₁) ∧
        PositionalsMean ds ts (st.set d.var val) w₁ st' w'

/-- Meaning of a line: final variables and world, if the line is acceptable. -/
def LineMeans {W : Type} (D : Decls W) (items : List Item) (tail : Option (List Str)) (st : Store) (w : W)
    (st' : Store) (w' : W) : Prop :=
  ∃ st₁ w₁, OptionsMean items D.options st w st₁ w₁ ∧
    PositionalsMean D.positionals (words items tail) (setFlags items D.flags st₁) w₁ st' w'

end Sharg.Spec
