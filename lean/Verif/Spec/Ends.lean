import Verif.Spec.Mixed

/-!
# Specification: how `parse()` ends on a line, and what it leaves in the variables

Unlike `LineMeans` this also covers lines with mistakes in the values, missing options, options or flags given twice and too few or too many
words. An ending is the content of the variables, the outside world and the exception (`none`: `parse()` returns).
-/

namespace Sharg.Spec

/-- The text begins with a number as it is written for the type. -/
def BeginsWithNumber (lo : Int) (t : Str) : Prop :=
  ∃ a b, t = a ++ b ∧ (IsDecimal a ∨ (lo < 0 ∧ ∃ ds, a = '-' :: ds ∧ IsDecimal ds))

/-- Reading a text for a variable that is no list: the element that is written to the variable, if any, and the exception, if any. -/
inductive ReadsTo : ElemTy → Str → Option Elem → Option Exn → Prop where
  | value {ty : ElemTy} {t : Str} {e : Elem} (h : Denotes ty t e) : ReadsTo ty t (some e) none
  | tooLarge {ty : ElemTy} {t : Str} (h : OutOfRange ty t) : ReadsTo ty t none (some .userInputError)
  /-- a number with something behind it: the number is written nevertheless -/
  | beginning {lo hi : Int} {a b : Str} {v : Int} (h : DenotesInt lo hi a v) (hb : b ≠ []) (hd : ∀ c, b.head? = some c → c ∉ digits) :
      ReadsTo (.integer lo hi) (a ++ b) (some (.int v)) (some .userInputError)
  | noNumber {lo hi : Int} {t : Str} (h : ¬ BeginsWithNumber lo t) : ReadsTo (.integer lo hi) t none (some .userInputError)
  | noTruth {t : Str} (h : ∀ e, ¬ Denotes .boolean t e) : ReadsTo .boolean t none (some .userInputError)
  | noName {names : List (Str × Int)} {t : Str} (hn : names ≠ []) (h : ∀ e, ¬ Denotes (.enumeration names) t e) :
      ReadsTo (.enumeration names) t none (some .userInputError)
  /-- an enumeration without names (C30) -/
  | noNames {t : Str} : ReadsTo (.enumeration []) t none (some .outOfRange)
  /-- types read by a function that is not part of sharg -/
  | unreadable {arith : Bool} {conv : Str → Conv} {t : Str} {o : Option Elem} (h : conv t = .fail o) :
      ReadsTo (.foreign arith conv) t o (some .userInputError)
  | strange {conv : Str → Conv} {t : Str} (h : conv t = .overflow) : ReadsTo (.foreign false conv) t none (some .userInputError)

/-- Reading texts for a list: the elements that are in the list then, and the exception, if any. `nd`: release build (C31). -/
inductive ElementsEnd (nd : Bool) (ty : ElemTy) : List Str → List Elem → Option Exn → Prop where
  | nil : ElementsEnd nd ty [] [] none
  | take {t : Str} {ts : List Str} {e : Elem} {es : List Elem} {r : Option Exn} (h : Denotes ty t e) (hr : ElementsEnd nd ty ts es r) :
      ElementsEnd nd ty (t :: ts) (e :: es) r
  | drop {t : Str} {ts : List Str} {es : List Elem} {r : Option Exn} (hn : nd = true) (h : OutOfRange ty t) (hr : ElementsEnd nd ty ts es r) :
      ElementsEnd nd ty (t :: ts) es r
  | assert {t : Str} {ts : List Str} (hn : nd = false) (h : OutOfRange ty t) : ElementsEnd nd ty (t :: ts) [] (some .assertFailed)
  | stop {t : Str} {ts : List Str} {o : Option Elem} {e : Exn} (h : ReadsTo ty t o (some e)) (hn : ¬ OutOfRange ty t) :
      ElementsEnd nd ty (t :: ts) [] (some e)

/-- Assigning texts to a variable one after the other, until one of them cannot be read. -/
inductive AssignEnds (ty : ElemTy) (x : VarId) : List Str → Store → Store → Option Exn → Prop where
  | nil {st : Store} : AssignEnds ty x [] st st none
  | next {t : Str} {ts : List Str} {st st' : Store} {r : Option Exn} {e : Elem} (h : Denotes ty t e)
      (hr : AssignEnds ty x ts (st.set x (.one e)) st' r) : AssignEnds ty x (t :: ts) st st' r
  | stopWritten {t : Str} {ts : List Str} {st : Store} {e : Elem} {exn : Exn} (h : ReadsTo ty t (some e) (some exn)) :
      AssignEnds ty x (t :: ts) st (st.set x (.one e)) (some exn)
  | stop {t : Str} {ts : List Str} {st : Store} {exn : Exn} (h : ReadsTo ty t none (some exn)) : AssignEnds ty x (t :: ts) st st (some exn)

/-- The texts given to an option by its short identifier. -/
def shortTexts {W : Type} (d : OptDecl W) (items : List Item) : List Str := items.filterMap fun
  | .short c _ v => if c = d.short then some v else none
  | _ => none

/-- The texts that are read for an option that is no list, although more than one is a mistake: the first one for each identifier, and no more
if the short identifier occurs twice. -/
def tried (short long : List Str) : List Str := if 2 ≤ short.length then short.take 1 else short ++ long.take 1

/-- An option that is no list. -/
def ScalarEnds (ty : ElemTy) (x : VarId) (short long : List Str) (st st' : Store) (r : Option Exn) : Prop :=
  ∃ r₁, AssignEnds ty x (tried short long) st st' r₁ ∧
    r = match r₁ with
      | some e => some e
      | none => if 2 ≤ short.length + long.length then some .optionDeclaredMultipleTimes else none

/-- A list option: the list is begun anew for each identifier (C23). -/
def ListEnds (nd : Bool) (ty : ElemTy) (x : VarId) (short long : List Str) (st st' : Store) (r : Option Exn) : Prop :=
  if long = [] then ∃ es, ElementsEnd nd ty short es r ∧ st' = st.set x (.many es)
  else ∃ es₁ r₁, ElementsEnd nd ty short es₁ r₁ ∧
    match r₁ with
    | some e => r = some e ∧ st' = st.set x (.many es₁)
    | none => ∃ es, ElementsEnd nd ty long es r ∧ st' = st.set x (.many es)

/-- Behind the reading of values comes the validator. -/
def CheckEnds {W : Type} (validator : Val → W → Bool × W) (x : VarId) (st₁ : Store) (r₁ : Option Exn) (w : W) (st' : Store) (w' : W)
    (r : Option Exn) : Prop :=
  st' = st₁ ∧
    match r₁ with
    | some e => w' = w ∧ r = some e
    | none => ∃ b, validator (st₁ x) w = (b, w') ∧ r = if b then none else some .validationError

/-- One option. -/
def OptionEnds {W : Type} (nd : Bool) (items : List Item) (d : OptDecl W) (st : Store) (w : W) (st' : Store) (w' : W) (r : Option Exn) : Prop :=
  if shortTexts d items = [] ∧ longTexts d items = [] then
    st' = st ∧ w' = w ∧ r = if d.required then some .requiredOptionMissing else none
  else ∃ st₁ r₁,
    (if d.isList then ListEnds nd d.ty d.var (shortTexts d items) (longTexts d items) st st₁ r₁
      else ScalarEnds d.ty d.var (shortTexts d items) (longTexts d items) st st₁ r₁) ∧
    CheckEnds d.validator d.var st₁ r₁ w st' w' r

/-- The options in the order of their registration, up to the first exception. -/
def OptionsEnd {W : Type} (nd : Bool) (items : List Item) : List (OptDecl W) → Store → W → Store → W → Option Exn → Prop
  | [], st, w, st', w', r => st' = st ∧ w' = w ∧ r = none
  | d :: ds, st, w, st', w', r => ∃ st₁ w₁ r₁, OptionEnds nd items d st w st₁ w₁ r₁ ∧
    match r₁ with
    | some e => st' = st₁ ∧ w' = w₁ ∧ r = some e
    | none => OptionsEnd nd items ds st₁ w₁ st' w' r

/-- The words and the positional options. -/
def PositionalsEnd {W : Type} (nd : Bool) : List (PosDecl W) → List Str → Store → W → Store → W → Option Exn → Prop
  | [], [], st, w, st', w', r => st' = st ∧ w' = w ∧ r = none
  | [], _ :: _, st, w, st', w', r => st' = st ∧ w' = w ∧ r = some .tooManyArguments
  | _ :: _, [], st, w, st', w', r => st' = st ∧ w' = w ∧ r = some .tooFewArguments
  | d :: ds, t :: ts, st, w, st', w', r =>
    if d.isList then ∃ es r₁, ElementsEnd nd d.ty (t :: ts) es r₁ ∧ CheckEnds d.validator d.var (st.set d.var (.many es)) r₁ w st' w' r
    else ∃ st₁ r₁ st₂ w₂ r₂, AssignEnds d.ty d.var [t] st st₁ r₁ ∧ CheckEnds d.validator d.var st₁ r₁ w st₂ w₂ r₂ ∧
      match r₂ with
      | some e => st' = st₂ ∧ w' = w₂ ∧ r = some e
      | none => PositionalsEnd nd ds ts st₂ w₂ st' w' r

/-- The items in question: options are declared and written unambiguously; flags and words may be anything that cannot be taken for an option.
Groups have no dashes and zero characters in them. -/
def Item.Said {W : Type} (D : Decls W) : Item → Prop
  | .flags cs => cs ≠ [] ∧ '-' ∉ cs ∧ '\x00' ∉ cs ∧ SeparateOk D ('-' :: cs)
  | .longFlag s => s ≠ [] ∧ SeparateOk D ('-' :: '-' :: s)
  | it => it.Ok D

/-- The flags of the item are declared. -/
def Item.Known {W : Type} (D : Decls W) : Item → Prop
  | .flags cs => ∀ c ∈ cs, ∃ f ∈ D.flags, f.short = c
  | .longFlag s => ∃ f ∈ D.flags, f.long = s
  | _ => True

/-- Some flag is repeated or unknown. -/
def Suspect {W : Type} (D : Decls W) (items : List Item) : Prop :=
  (∃ f ∈ D.flags, 2 ≤ mentions f items) ∨ ∃ it ∈ items, ¬ it.Known D

/-- The line: options, flags, words. Flags that are repeated or unknown are noticed when all flags have been set. -/
def LineEnds {W : Type} (nd : Bool) (D : Decls W) (items : List Item) (tail : Option (List Str)) (st : Store) (w : W) (st' : Store) (w' : W)
    (r : Option Exn) : Prop :=
  ∃ st₁ w₁ r₁, OptionsEnd nd items D.options st w st₁ w₁ r₁ ∧
    match r₁ with
    | some e => st' = st₁ ∧ w' = w₁ ∧ r = some e
    | none =>
      (Suspect D items ∧ st' = setFlags items D.flags st₁ ∧ w' = w₁ ∧ r = some .unknownOption) ∨
      (¬ Suspect D items ∧ PositionalsEnd nd D.positionals (words items tail) (setFlags items D.flags st₁) w₁ st' w' r)

/-- The lines in question: such items, and no word behind `--` that is mistaken for flags. -/
structure NeatLine {W : Type} (D : Decls W) (items : List Item) (tail : Option (List Str)) : Prop where
  itemsSaid : ∀ it ∈ items, it.Said D
  tailOk : ∀ ws, tail = some ws → ∀ w ∈ ws, w ≠ [] ∧ ∀ f ∈ D.flags, ¬ EatenBy f.short w

/-- Return or exception. -/
def endOutcome : Option Exn → Outcome
  | none => .returned
  | some e => .threw e

end Sharg.Spec
