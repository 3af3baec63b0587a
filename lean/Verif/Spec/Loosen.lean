import Verif.Spec.Upgrade
import Verif.Spec.Account
import Verif.Model.Validators

/-!
# Specification: a new release of a program demands less
-/

namespace Sharg.Spec

/-- The second validator accepts whatever the first one accepts, with the same effect on the world. -/
def Loosens {W : Type} (v v' : Val → W → Bool × W) : Prop := ∀ x w w', v x w = (true, w') → v' x w = (true, w')

/-- The second type has the values of the first one, under the same names. -/
inductive WiderType : ElemTy → ElemTy → Prop where
  | same (ty : ElemTy) : WiderType ty ty
  | integers {lo hi lo' hi' : Int} : lo' ≤ lo → hi ≤ hi' → WiderType (.integer lo hi) (.integer lo' hi')
  | names {names names' : List (Str × Int)} : (∀ s tag, names.lookup s = some tag → names'.lookup s = some tag) →
      WiderType (.enumeration names) (.enumeration names')

/-- The type of an option or positional option was widened; in release builds (`nd`) not that of a list, see
`C99_widened_list_changes_in_release`. -/
def Widened (nd isList : Bool) (ty ty' : ElemTy) : Prop := WiderType ty ty' ∧ (nd = true → isList = true → ty = ty')

/-- A call that only adds text to the pages. -/
def isText {W : Type} : Call W → Prop
  | .addSection _ _ | .addSubsection _ _ | .addLine _ _ _ | .addListItem _ _ _ => True
  | _ => False

/-- The set-up calls of the new release: the same options, flags, positional options and subcommands in the same order, for the same variables. Types
may be wider, validators looser, required options may have become optional. Descriptions and the other texts of the pages are arbitrary. -/
inductive Loosened {W : Type} (nd : Bool) : List (Call W) → List (Call W) → Prop where
  | nil : Loosened nd [] []
  | option {cs cs' : List (Call W)} {cfg cfg' : Config} {x : VarId} {isList : Bool} {ty ty' : ElemTy} {v v' : Val → W → Bool × W} :
      cfg'.short = cfg.short → cfg'.long = cfg.long → (cfg'.required = true → cfg.required = true ∧ cfg'.defaultMessage = []) →
      Widened nd isList ty ty' → Loosens v v' → Loosened nd cs cs' →
      Loosened nd (.addOption cfg x isList ty v :: cs) (.addOption cfg' x isList ty' v' :: cs')
  | flag {cs cs' : List (Call W)} {cfg cfg' : Config} {x : VarId} {value : Bool} :
      cfg'.short = cfg.short → cfg'.long = cfg.long → cfg'.defaultMessage = cfg.defaultMessage → Loosened nd cs cs' →
      Loosened nd (.addFlag cfg x value :: cs) (.addFlag cfg' x value :: cs')
  | positional {cs cs' : List (Call W)} {cfg cfg' : Config} {x : VarId} {isList : Bool} {ty ty' : ElemTy} {v v' : Val → W → Bool × W} :
      { cfg with description := cfg'.description, validatorMessage := cfg'.validatorMessage, validatorTags := cfg'.validatorTags } = cfg' →
      Widened nd isList ty ty' → Loosens v v' → Loosened nd cs cs' →
      Loosened nd (.addPositionalOption cfg x isList ty v :: cs) (.addPositionalOption cfg' x isList ty' v' :: cs')
  | subcommands {cs cs' : List (Call W)} (ns : List Str) : Loosened nd cs cs' →
      Loosened nd (.addSubcommands ns :: cs) (.addSubcommands ns :: cs')
  | textBefore {cs cs' : List (Call W)} {c : Call W} : isText c → Loosened nd cs cs' → Loosened nd (c :: cs) cs'
  | textAfter {cs cs' : List (Call W)} {c : Call W} : isText c → Loosened nd cs cs' → Loosened nd cs (c :: cs')

end Sharg.Spec
