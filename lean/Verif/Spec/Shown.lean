import Verif.Spec.Pages
import Batteries.Data.List.Basic

/-!
# Specification: which registrations appear on which page, and how
-/

namespace Sharg.Spec

variable {W : Type}

/-- `config::hidden`; only options and flags can be hidden. -/
def isHidden : Entry W → Bool
  | .option cfg _ _ _ _ => cfg.hidden
  | .flag cfg _ => cfg.hidden
  | _ => false

/-- `config::advanced` of options and flags, the argument `advanced_only` of texts; positional options always are shown. -/
def isAdvanced : Entry W → Bool
  | .option cfg _ _ _ _ => cfg.advanced
  | .flag cfg _ => cfg.advanced
  | .positional _ _ _ _ _ => false
  | .sec _ a => a
  | .subsec _ a => a
  | .line _ _ a => a
  | .listItem _ _ a => a

/-- Positional options. -/
def isArgument : Entry W → Bool
  | .positional _ _ _ _ _ => true
  | _ => false

/-- Options and flags. -/
def hasIds : Entry W → Bool
  | .option _ _ _ _ _ => true
  | .flag _ _ => true
  | _ => false

/-- Pages that should show advanced entries (config.hpp lines 85-98: the advanced help page and every export). -/
def advancedDocumented : Format → Bool
  | .help a => a
  | .html | .man | .tdl _ => true
  | _ => false

/-- Pages that do. -/
def advancedShown : Format → Bool
  | .help a => a
  | .tdl _ => true
  | _ => false

/-- An entry is visible if it is not hidden, and not advanced unless these are shown. -/
def visible (showAdvanced : Bool) (e : Entry W) : Bool := !isHidden e && (!isAdvanced e || showAdvanced)

/-- The names of an option or flag in bold, e.g. `\fB-i\fP, \fB--int\fP`. -/
def namesTerm (cfg : Config) : Str :=
  joined ", ".toList (((if cfg.short = '\x00' then [] else ['-' :: [cfg.short]])
    ++ (if cfg.long = [] then [] else ['-' :: '-' :: cfg.long])).map fun n => "\\fB".toList ++ n ++ "\\fP".toList)

/-- What should be printed for an entry that is no positional option: a title, a text, or a term with its
description. -/
def callOf (te : TypeEnv) (st : Store) : Entry W → Block
  | .option cfg x l ty _ =>
    .item (namesTerm cfg ++ " ".toList ++ typeInfo te l ty)
      (cfg.description
        ++ (if cfg.defaultMessage ≠ [] then defaultOfMessage te l ty cfg.defaultMessage
            else if cfg.required then [] else defaultOfValue te ty (st x))
        ++ (if cfg.validatorMessage = [] then [] else ". ".toList ++ cfg.validatorMessage))
  | .flag cfg _ => .item (namesTerm cfg) cfg.description
  | .positional _ _ _ _ _ => .line [] false
  | .sec t _ => .sec t
  | .subsec t _ => .subsec t
  | .line t p _ => .line t p
  | .listItem k d _ => .item k d

/-- What should be printed for the `n`-th positional option. -/
def argumentCall (te : TypeEnv) (st : Store) (n : Nat) : Entry W → Block
  | .positional cfg x l ty _ =>
    .item ("\\fBARGUMENT-".toList ++ showNat n ++ "\\fP ".toList ++ typeInfo te l ty)
      (cfg.description ++ (if l then defaultOfValue te ty (st x) else [])
        ++ (if cfg.validatorMessage = [] then [] else ". ".toList ++ cfg.validatorMessage))
  | _ => .line [] false

/-- A text `s` appears on the page as `t`. -/
def Appears (pe : PageEnv) : Format → Str → Str → Prop
  | .help _, s, t => toText pe.build.ndebug pe.tty s = .ok t
  | .html, s, t => toHtml pe.build.ndebug s = .ok t
  | .man, s, t => t = s
  | _, _, _ => False

/-- The pieces of output that belong to a print call: on the console the words of a text, in HTML and man pages the
whole text; section titles are put in capitals except in HTML. -/
def Pieces (pe : PageEnv) : Format → Block → List Str → Prop
  | .help _, .sec t, ps => ps = [t.map upperChar]
  | .help _, .subsec t, ps => ps = [t]
  | .help a, .line t _, ps => List.Forall₂ (Appears pe (.help a)) (Sharg.words t) ps
  | .help a, .item k d, ps => ∃ k' ds, ps = k' :: ds ∧ Appears pe (.help a) k k' ∧
      List.Forall₂ (Appears pe (.help a)) (Sharg.words d) ds
  | .man, .sec t, ps => ps = [t.map upperChar]
  | .man, .subsec t, ps => ps = [t]
  | .man, .line t _, ps => ps = [t]
  | .man, .item k d, ps => ps = [k, d]
  | .html, .sec t, ps => ∃ t', ps = [t'] ∧ Appears pe .html t t'
  | .html, .subsec t, ps => ∃ t', ps = [t'] ∧ Appears pe .html t t'
  | .html, .line t _, ps => ∃ t', ps = [t'] ∧ Appears pe .html t t'
  | .html, .item k d, ps => ∃ k' d', ps = [k', d'] ∧ Appears pe .html k k' ∧ Appears pe .html d d'
  | _, _, _ => False

/-- The parameters in a tool description. -/
def parameters : TdlTree → List TdlParam
  | .params ps => ps
  | .command _ t => parameters t

/-- The long identifier of an option or flag. -/
def longId : Entry W → Str
  | .option cfg _ _ _ _ => cfg.long
  | .flag cfg _ => cfg.long
  | _ => []

/-- The description of an option or flag on the help pages. -/
def helpText (te : TypeEnv) (st : Store) (e : Entry W) : Str :=
  match callOf te st e with
  | .item _ d => d
  | _ => []

end Sharg.Spec
