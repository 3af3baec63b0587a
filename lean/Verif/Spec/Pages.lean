import Verif.Spec.Text
import Verif.Model.Pages

/-!
# Specification: what the developer supplies for help pages, and where it must appear
-/

namespace Sharg.Spec

/-- Values of this type are printed in quotes. -/
def isString : ElemTy → Bool
  | .string => true
  | _ => false

/-- The values an option shows as default: the text of each element. -/
def valueTexts (te : TypeEnv) (ty : ElemTy) : Val → List Str
  | .one e => [if isString ty then streamElem te ty e else toStringElem te ty e]
  | .many es => es.map (streamElem te ty)

/-- The texts of one registration, except for defaults in quotes. -/
def entryTexts {W : Type} (te : TypeEnv) (st : Store) : Entry W → List Str
  | .option cfg x l ty _ =>
    [cfg.long, [cfg.short], cfg.description, cfg.validatorMessage, te.typeName ty]
      ++ (if l || !(isString ty || te.isPath ty) then [cfg.defaultMessage] else [])
      ++ (if isString ty then [] else valueTexts te ty (st x))
  | .flag cfg _ => [cfg.long, [cfg.short], cfg.description]
  | .positional cfg x _ ty _ =>
    [cfg.description, cfg.validatorMessage, te.typeName ty] ++ (if isString ty then [] else valueTexts te ty (st x))
  | .sec t _ => [t]
  | .subsec t _ => [t]
  | .line t _ _ => [t]
  | .listItem k d _ => [k, d]

/-- The defaults of one registration that are printed in quotes. -/
def entryQuoted {W : Type} (te : TypeEnv) (st : Store) : Entry W → List Str
  | .option cfg x _ ty _ => [cfg.defaultMessage] ++ (if isString ty then valueTexts te ty (st x) else [])
  | .positional _ x _ ty _ => if isString ty then valueTexts te ty (st x) else []
  | _ => []

/-- Blank or tabulator. -/
def isGap (c : Char) : Bool := c = ' ' || c = '\t'

/-- The meta data shown on the pages. The first word of a synopsis line is printed in bold, so it counts as a text of its
own. -/
def metaTexts (m : Meta) : List Str :=
  [m.version, m.shortDescription, m.date, m.url, m.shortCopyright, m.author, m.email, m.citation]
    ++ m.description ++ m.examples
    ++ m.synopsis.flatMap fun s => [s.takeWhile (fun c => !isGap c), s.dropWhile (fun c => !isGap c)]

/-- All texts that the pages show, except for defaults in quotes. -/
def suppliedTexts {W : Type} (pe : PageEnv) (p : Parser W) (st : Store) : List Str :=
  [p.appName, pe.build.shargVersion] ++ pe.build.seqanVersion.toList ++ p.subcommands ++ metaTexts pe.info
    ++ p.operations.flatMap (entryTexts pe.types st)

/-- All defaults shown in quotes. -/
def suppliedQuoted {W : Type} (pe : PageEnv) (p : Parser W) (st : Store) : List Str :=
  p.operations.flatMap (entryQuoted pe.types st)

/-- Every line of the synopsis has a blank or tabulator. -/
def SynopsisOk (m : Meta) : Prop := ∀ s ∈ m.synopsis, ∃ c ∈ s, isGap c = true

end Sharg.Spec
