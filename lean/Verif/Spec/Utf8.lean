import Verif.Model.ErrorTexts
import Verif.Spec.Pages

/-!
# Specification: texts in UTF-8

The model keeps texts as lists of characters that stand for the bytes of a `std::string`. A text is valid UTF-8 if its bytes
are the encoding of some Unicode characters. The encoding is the one of Lean's `String`.
-/

namespace Sharg.Spec

/-- The bytes of a Unicode character. -/
def utf8Bytes (c : Char) : Str := (String.utf8EncodeChar c).map fun b => Char.ofNat b.toNat

/-- The bytes of Unicode text. -/
def utf8Text (u : List Char) : Str := u.flatMap utf8Bytes

/-- The bytes are the encoding of some Unicode text. -/
def Utf8 (s : Str) : Prop := ∃ u : List Char, s = utf8Text u

/-- A byte that is a character of its own. -/
def IsAscii (c : Char) : Prop := c.toNat < 128

instance (c : Char) : Decidable (IsAscii c) := inferInstanceAs (Decidable (_ < _))

/-- The texts in a value. -/
def valTexts : Val → List Str
  | .one (.str s) => [s]
  | .one _ => []
  | .many es => es.filterMap fun e => match e with
    | .str s => some s
    | _ => none

/-- All texts in variables are valid UTF-8. -/
def StoreUtf8 (st : Store) : Prop := ∀ x, ∀ s ∈ valTexts (st x), Utf8 s

/-- The text calls a single byte of a longer character a flag. -/
def BrokenFlag (t : Str) : Prop := ∃ a b c d, t = a ++ '-' :: b :: c :: d ∧ ¬ IsAscii b ∧ IsAscii c

/-- The element holds no invalid text. -/
def ElemUtf8 : Elem → Prop
  | .str s => Utf8 s
  | _ => True

/-- The names of an enumeration are valid, and a type of the developer's reads valid text as valid text. -/
def TypeUtf8 : ElemTy → Prop
  | .enumeration names => ∀ p ∈ names, Utf8 p.1
  | .foreign _ conv => ∀ s e, Utf8 s → conv s = .ok e ∨ conv s = .fail (some e) → ElemUtf8 e
  | _ => True

/-- The texts that depend on types are valid. -/
structure WordingUtf8 (wd : Wording) : Prop where
  typeName : ∀ l ty, Utf8 (wd.typeName l ty)
  maxText : ∀ ty, Utf8 (wd.maxText ty)

/-- The texts of a validator are valid when the value is. -/
def WhyUtf8 {W : Type} (why : Val → W → Str) : Prop := ∀ v w, (∀ s ∈ valTexts v, Utf8 s) → Utf8 (why v w)

/-- What the developer has to care for. -/
def EntryUtf8 {W : Type} (why : Entry W → Val → W → Str) : Entry W → Prop
  | .option cfg x l ty v => TypeUtf8 ty ∧ WhyUtf8 (why (.option cfg x l ty v))
  | .positional cfg x l ty v => TypeUtf8 ty ∧ WhyUtf8 (why (.positional cfg x l ty v))
  | _ => True

/-- The texts of a registration that the developer is free to choose: all but identifiers. The values are what is shown of
the variable as default value. -/
def chosenTexts {W : Type} (te : TypeEnv) (st : Store) : Entry W → List Str
  | .option cfg x _ ty _ =>
    [cfg.description, cfg.validatorMessage, cfg.defaultMessage, te.typeName ty] ++ cfg.validatorTags ++ valueTexts te ty (st x)
  | .flag cfg _ => [cfg.description]
  | .positional cfg x _ ty _ => [cfg.description, cfg.validatorMessage, te.typeName ty] ++ valueTexts te ty (st x)
  | .sec t _ => [t]
  | .subsec t _ => [t]
  | .line t _ _ => [t]
  | .listItem k d _ => [k, d]

/-- The meta data of the program. -/
def infoTexts (m : Meta) : List Str :=
  [m.version, m.shortDescription, m.author, m.email, m.date, m.url, m.shortCopyright, m.longCopyright, m.citation, m.manPageTitle]
    ++ m.description ++ m.synopsis ++ m.examples

/-- Everything that a developer (or the library) can put into a page. -/
def pageTexts {W : Type} (pe : PageEnv) (p : Parser W) (st : Store) : List Str :=
  [p.appName, pe.license, pe.build.shargVersion] ++ pe.build.seqanVersion.toList ++ p.subcommands ++ infoTexts pe.info
    ++ p.executableName ++ p.operations.flatMap (chosenTexts pe.types st)

/-- The texts of a parameter in a tool description. -/
def paramTexts (q : TdlParam) : List Str :=
  [q.name, q.description] ++ q.tags ++ match q.value with
    | .str s => [s]
    | _ => []

/-- The texts in a tree of commands. -/
def treeTexts : TdlTree → List Str
  | .params ps => ps.flatMap paramTexts
  | .command n c => n :: treeTexts c

/-- The texts in a tool description. -/
def toolTexts (i : ToolInfo) : List Str :=
  [i.version, i.name, i.docurl, i.description] ++ i.executableName.toList ++ treeTexts i.params ++ i.cliMapping.flatMap fun q => [q.1, q.2]

end Sharg.Spec
