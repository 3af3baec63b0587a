import Verif.Spec.Setup

/-!
# Specification: what the text of an exception during set-up has to say

Of the model only the calls, their configurations and the histories are used.
-/

namespace Sharg.Spec

/-- The name of the member function. -/
def functionName {W : Type} : Call W → Str
  | .addOption _ _ _ _ _ => "add_option".toList
  | .addFlag _ _ _ => "add_flag".toList
  | .addPositionalOption _ _ _ _ _ => "add_positional_option".toList
  | .addSection _ _ => "add_section".toList
  | .addSubsection _ _ => "add_subsection".toList
  | .addLine _ _ _ => "add_line".toList
  | .addListItem _ _ _ => "add_list_item".toList
  | .addSubcommands _ => "add_subcommands".toList

/-- The identifier is predefined, or an earlier call of the history - accepted or not - has it. -/
def MentionedBefore {W : Type} (as : List (Action W)) (s : Str) : Prop :=
  s ∈ predefined ∨ ∃ c cfg, Action.call c ∈ as ∧ idConfig c = some cfg ∧ s ∈ idsOf cfg

/-- The identifier is predefined or belongs to an option or flag of the parser: an accepted call has it. -/
def InUse {W : Type} (done : List (Call W)) (s : Str) : Prop := s ∈ predefined ∨ s ∈ allIds done

/-- The text `t` gives a reason why the call `c` is refused that is true for a parser constructed from `i` on which the actions
`as` were done before, of which the calls `done` were accepted. `used` tells which identifiers count as used before. -/
inductive SetupExplained {W : Type} (used : Str → Prop) (i : Init) (as : List (Action W)) (done : List (Call W)) :
    Call W → Str → Prop where
  | late (c : Call W) : Action.parse ∈ as →
      SetupExplained used i as done c (functionName c ++ " may only be used before calling parse().".toList)
  | noIdentifier (c : Call W) (cfg : Config) : idConfig c = some cfg → idsOf cfg = [] →
      SetupExplained used i as done c "Short and long identifiers may not both be empty.".toList
  | shortCharacter (c : Call W) (cfg : Config) : idConfig c = some cfg → [cfg.short] ∈ idsOf cfg → ¬ IsShortChar cfg.short →
      SetupExplained used i as done c "Short identifiers may only contain alphanumeric characters, '_', or '@'.".toList
  | shortUsed (c : Call W) (cfg : Config) : idConfig c = some cfg → [cfg.short] ∈ idsOf cfg → IsShortChar cfg.short →
      used [cfg.short] →
      SetupExplained used i as done c ("Short identifier '".toList ++ cfg.short :: "' was already used before.".toList)
  | longLength (c : Call W) (cfg : Config) : idConfig c = some cfg → cfg.long.length = 1 →
      SetupExplained used i as done c "Long identifiers must be either empty or longer than one character.".toList
  | longDash (c : Call W) (cfg : Config) : idConfig c = some cfg → cfg.long.head? = some '-' →
      SetupExplained used i as done c "Long identifiers may not use '-' as first character.".toList
  | longCharacter (c : Call W) (cfg : Config) (x : Char) : idConfig c = some cfg → x ∈ cfg.long → ¬ IsShortChar x → x ≠ '-' →
      SetupExplained used i as done c "Long identifiers may only contain alphanumeric characters, '_', '-', or '@'.".toList
  | longUsed (c : Call W) (cfg : Config) : idConfig c = some cfg → IsLongId cfg.long → used cfg.long →
      SetupExplained used i as done c ("Long identifier '".toList ++ cfg.long ++ "' was already used before.".toList)
  | requiredDefault (cfg : Config) (x : VarId) (l : Bool) (ty : ElemTy) (v : Val → W → Bool × W) :
      cfg.required = true → cfg.defaultMessage ≠ [] →
      SetupExplained used i as done (.addOption cfg x l ty v) "A required option cannot have a default message.".toList
  | flagDefault (cfg : Config) (x : VarId) (b : Bool) : cfg.defaultMessage ≠ [] →
      SetupExplained used i as done (.addFlag cfg x b)
        "A flag may not have a default message because the default is always `false`.".toList
  | flagSet (cfg : Config) (x : VarId) :
      SetupExplained used i as done (.addFlag cfg x true) "A flag's default value must be false.".toList
  | positionalIdentifier (cfg : Config) (x : VarId) (l : Bool) (ty : ElemTy) (v : Val → W → Bool × W) : idsOf cfg ≠ [] →
      SetupExplained used i as done (.addPositionalOption cfg x l ty v)
        ("Positional options are identified by their position on the command line. ".toList
          ++ "Short or long ids are not permitted!".toList)
  | positionalHidden (cfg : Config) (x : VarId) (l : Bool) (ty : ElemTy) (v : Val → W → Bool × W) :
      cfg.advanced = true ∨ cfg.hidden = true →
      SetupExplained used i as done (.addPositionalOption cfg x l ty v)
        "Positional options are always required and therefore cannot be advanced nor hidden!".toList
  | positionalSubcommand (cfg : Config) (x : VarId) (l : Bool) (ty : ElemTy) (v : Val → W → Bool × W) (name : Str) :
      (name ∈ i.subcommands ∨ ∃ ns, Call.addSubcommands ns ∈ done ∧ name ∈ ns) →
      SetupExplained used i as done (.addPositionalOption cfg x l ty v)
        "You may only specify flags and options for the top-level parser.".toList
  | positionalList (cfg cfg' : Config) (x x' : VarId) (l : Bool) (ty ty' : ElemTy) (v v' : Val → W → Bool × W) :
      Call.addPositionalOption cfg' x' true ty' v' ∈ done →
      SetupExplained used i as done (.addPositionalOption cfg x l ty v)
        ("You added a positional option with a list value before so you cannot add ".toList
          ++ "any other positional options.".toList)
  | positionalDefault (cfg : Config) (x : VarId) (l : Bool) (ty : ElemTy) (v : Val → W → Bool × W) :
      cfg.defaultMessage ≠ [] →
      SetupExplained used i as done (.addPositionalOption cfg x l ty v)
        "A positional option may not have a default message because it is always required.".toList

/-- The identifier is given as a string, not as a character. -/
def givenAsString : Id → Bool
  | .short _ => false
  | .long _ => true

/-- The same for a question of `is_option_set` about an identifier `s` (`long`: given as a string). -/
inductive QueryExplained {W : Type} (as : List (Action W)) (done : List (Call W)) (s : Str) (long : Bool) : Str → Prop where
  | early : Action.parse ∉ as →
      QueryExplained as done s long "You can only ask which options have been set after calling the function `parse()`.".toList
  | oneCharacter : long = true → s.length = 1 →
      QueryExplained as done s long ("Long option identifiers must be longer than one character! If ".toList ++ s
        ++ "' was meant to be a short identifier, please pass it as a char ('') not a string (\"\")!".toList)
  | notAdded : s ∉ predefined → s ∉ allIds done →
      QueryExplained as done s long
        "You can only ask for option identifiers that you added with add_option() before.".toList

end Sharg.Spec
