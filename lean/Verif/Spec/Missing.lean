import Verif.Spec.Ends

/-!
# Specification: how `parse()` ends on a line with an option that has no value

The identifier is the last argument, or the last one in front of `--`, or has the form `-k=` or `--key=`.
-/

namespace Sharg.Spec

/-- An identifier without value, with or without `=`. -/
def wanting {W : Type} (d : OptDecl W) (short eq : Bool) : Str :=
  (if short then ['-', d.short] else '-' :: '-' :: d.long) ++ if eq then ['='] else []

/-- The program is given a line with an identifier without value between `items₁` and `items₂`. -/
structure MissingGiven {W : Type} (g : Prog W) (d : OptDecl W) (short eq : Bool) (items₁ items₂ : List Item) (tail : Option (List Str)) : Prop where
  notParsed : g.parser.parseWasCalled = false
  cleanName : CleanName g.parser.appName
  noSubcommands : g.parser.subcommands = []
  arguments : ∃ exe, g.parser.arguments = exe :: (items₁.flatMap Item.render ++ wanting d short eq :: renderLine items₂ tail)
  declared : d ∈ (declsOf g.parser.operations).options
  identifier : if short then d.short ≠ '\x00' else d.long ≠ []
  /-- without `=` the identifier comes last -/
  last : eq = false → items₂ = []
  itemsLoose : ∀ it ∈ items₁ ++ items₂, it.Loose (declsOf g.parser.operations)
  others : ∀ it ∈ items₁ ++ items₂, it.isOption = false → ∀ a ∈ it.render, ¬ Reserved a ∧ a ∉ g.parser.options
  tailPlain : ∀ ws, tail = some ws → ∀ w ∈ ws, ¬ Reserved w

/-- An identifier that has been given the texts `ts`, and then none: a list has taken the texts; otherwise the first text has been taken, and the
identifier without value is the second. -/
def WantingEnds {W : Type} (nd : Bool) (d : OptDecl W) (ts : List Str) (st st' : Store) (e : Exn) : Prop :=
  if d.isList then ∃ es r, ElementsEnd nd d.ty ts es r ∧ st' = st.set d.var (.many es) ∧ e = r.getD .tooFewArguments
  else if ts = [] then st' = st ∧ e = .tooFewArguments
  else ∃ r, AssignEnds d.ty d.var (ts.take 1) st st' r ∧ e = r.getD .optionDeclaredMultipleTimes

/-- What the short identifier leaves when the long one is without value. -/
def ShortEnds {W : Type} (nd : Bool) (d : OptDecl W) (ts : List Str) (st st' : Store) (r : Option Exn) : Prop :=
  if ts = [] then st' = st ∧ r = none
  else if d.isList then ∃ es, ElementsEnd nd d.ty ts es r ∧ st' = st.set d.var (.many es)
  else ∃ r₁, AssignEnds d.ty d.var (ts.take 1) st st' r₁ ∧
    r = match r₁ with
      | some e => some e
      | none => if 2 ≤ ts.length then some .optionDeclaredMultipleTimes else none

/-- The option without value. The long identifier is looked for when the values behind the short one have been read. -/
def MissingOptionEnds {W : Type} (nd : Bool) (d : OptDecl W) (short : Bool) (items₁ items₂ : List Item) (st st' : Store) (e : Exn) : Prop :=
  if short then WantingEnds nd d (shortTexts d items₁) st st' e
  else ∃ st₁ r₁, ShortEnds nd d (shortTexts d (items₁ ++ items₂)) st st₁ r₁ ∧
    match r₁ with
    | some e₁ => st' = st₁ ∧ e = e₁
    | none => WantingEnds nd d (longTexts d items₁) st₁ st' e

/-- The line: the options in front of `d` in the order of registration have their say first. -/
def MissingEnds {W : Type} (nd : Bool) (D : Decls W) (d : OptDecl W) (short : Bool) (items₁ items₂ : List Item) (st : Store) (w : W) (st' : Store)
    (w' : W) (e : Exn) : Prop :=
  ∃ front back st₁ r₁, D.options = front ++ d :: back ∧ OptionsEnd nd (items₁ ++ items₂) front st w st₁ w' r₁ ∧
    match r₁ with
    | some e₁ => st' = st₁ ∧ e = e₁
    | none => MissingOptionEnds nd d short items₁ items₂ st₁ st' e

end Sharg.Spec
