import Verif.Model.ErrorTexts

/-!
# The texts of exceptions during set-up

The set-up functions of `include/sharg/parser.hpp`, `is_option_set` and `get_sub_parser` once more, with the texts of the
exceptions that they throw. `Verif.Props.SetupTexts` proves that these functions are the ones of `Model/Setup.lean` when the
texts are forgotten.
-/

namespace Sharg

abbrev TPM (W α : Type) := TM (Parser W) α

/-- `check_parse_not_called`, parser.hpp lines 1076-1080. -/
def checkParseNotCalledT {W : Type} (function : Str) : TPM W Unit := fun p =>
  if p.parseWasCalled then .err .designError (function ++ " may only be used before calling parse().".toList) p else .ok () p

/-- `id_exists`, parser.hpp lines 971-977. -/
def idExistsT {W : Type} (id : Str) : TPM W Bool := fun p =>
  if id ∈ p.usedIds then .ok true p else .ok false { p with usedIds := id :: p.usedIds }

/-- The part of `verify_identifiers` for the short identifier, parser.hpp lines 999-1005. -/
def verifyShortT {W : Type} (c : Char) : TPM W Unit :=
  if c ≠ '\x00' then
    if c = '-' ∨ isValidIdChar c = false then
      TM.throw .designError "Short identifiers may only contain alphanumeric characters, '_', or '@'.".toList
    else TM.bind (idExistsT [c]) fun used =>
      if used then TM.throw .designError ("Short identifier '".toList ++ [c] ++ "' was already used before.".toList)
      else TM.pure ()
  else TM.pure ()

/-- The part of `verify_identifiers` for the long identifier, parser.hpp lines 1007-1017. -/
def verifyLongT {W : Type} (s : Str) : TPM W Unit :=
  if s ≠ [] then
    if s.length = 1 then
      TM.throw .designError "Long identifiers must be either empty or longer than one character.".toList
    else if s.head? = some '-' then TM.throw .designError "Long identifiers may not use '-' as first character.".toList
    else if s.all isValidIdChar = false then
      TM.throw .designError "Long identifiers may only contain alphanumeric characters, '_', '-', or '@'.".toList
    else TM.bind (idExistsT s) fun used =>
      if used then TM.throw .designError ("Long identifier '".toList ++ s ++ "' was already used before.".toList)
      else TM.pure ()
  else TM.pure ()

/-- `verify_identifiers`, parser.hpp lines 988-1018. -/
def verifyIdentifiersT {W : Type} (c : Char) (s : Str) : TPM W Unit :=
  if c = '\x00' ∧ s = [] then TM.throw .designError "Short and long identifiers may not both be empty.".toList
  else TM.bind (verifyShortT c) fun _ => verifyLongT s

/-- `verify_option_config`, parser.hpp lines 1021-1033. -/
def verifyOptionConfigT {W : Type} (cfg : Config) : TPM W Unit :=
  TM.bind (verifyIdentifiersT cfg.short cfg.long) fun _ =>
  TM.bind (TM.modify fun p => { p with
    options := (if cfg.short ≠ '\x00' then [(Id.short cfg.short).dashed] else [])
      ++ (if cfg.long ≠ [] then [(Id.long cfg.long).dashed] else []) ++ p.options }) fun _ =>
  if cfg.required = true ∧ cfg.defaultMessage ≠ [] then
    TM.throw .designError "A required option cannot have a default message.".toList
  else TM.pure ()

/-- `verify_flag_config`, parser.hpp lines 1036-1043. -/
def verifyFlagConfigT {W : Type} (cfg : Config) : TPM W Unit :=
  TM.bind (verifyIdentifiersT cfg.short cfg.long) fun _ =>
  if cfg.defaultMessage ≠ [] then
    TM.throw .designError "A flag may not have a default message because the default is always `false`.".toList
  else TM.pure ()

/-- `verify_positional_option_config`, parser.hpp lines 1046-1065. -/
def verifyPositionalOptionConfigT {W : Type} (cfg : Config) : TPM W Unit := fun p =>
  if cfg.short ≠ '\x00' ∨ cfg.long ≠ [] then .err .designError
    ("Positional options are identified by their position on the command line. ".toList
      ++ "Short or long ids are not permitted!".toList) p
  else if cfg.advanced = true ∨ cfg.hidden = true then .err .designError
    "Positional options are always required and therefore cannot be advanced nor hidden!".toList p
  else if p.subcommands ≠ [] then .err .designError "You may only specify flags and options for the top-level parser.".toList p
  else if p.hasPositionalListOption then .err .designError
    ("You added a positional option with a list value before so you cannot add ".toList
      ++ "any other positional options.".toList) p
  else if cfg.defaultMessage ≠ [] then .err .designError
    "A positional option may not have a default message because it is always required.".toList p
  else .ok () p

/-- `operations.push_back(...)`. -/
def pushOperationT {W : Type} (e : Entry W) : TPM W Unit :=
  TM.modify fun p => { p with operations := p.operations ++ [e] }

/-- `add_option`, parser.hpp lines 241-257. -/
def addOptionT {W : Type} (cfg : Config) (var : VarId) (isList : Bool) (ty : ElemTy)
    (validator : Val → W → Bool × W) : TPM W Unit :=
  TM.bind (checkParseNotCalledT "add_option".toList) fun _ =>
  TM.bind (verifyOptionConfigT cfg) fun _ =>
  pushOperationT (.option cfg var isList ty validator)

/-- `add_flag`, parser.hpp lines 274-293. -/
def addFlagT {W : Type} (cfg : Config) (var : VarId) (value : Bool) : TPM W Unit :=
  TM.bind (checkParseNotCalledT "add_flag".toList) fun _ =>
  TM.bind (verifyFlagConfigT cfg) fun _ =>
  if value then TM.throw .designError "A flag's default value must be false.".toList
  else pushOperationT (.flag cfg var)

/-- `add_positional_option`, parser.hpp lines 325-344. -/
def addPositionalOptionT {W : Type} (cfg : Config) (var : VarId) (isList : Bool) (ty : ElemTy)
    (validator : Val → W → Bool × W) : TPM W Unit :=
  TM.bind (checkParseNotCalledT "add_positional_option".toList) fun _ =>
  TM.bind (verifyPositionalOptionConfigT cfg) fun _ =>
  TM.bind (TM.modify fun p => { p with
    hasPositionalListOption := if isList then true else p.hasPositionalListOption }) fun _ =>
  pushOperationT (.positional cfg var isList ty validator)

/-- `add_section`, `add_subsection`, `add_line`, `add_list_item`, parser.hpp lines 532-639. -/
def addTextT {W : Type} (function : Str) (e : Entry W) : TPM W Unit :=
  TM.bind (checkParseNotCalledT function) fun _ => pushOperationT e

/-- Executes a set-up call. -/
def Call.runT {W : Type} : Call W → TPM W Unit
  | .addOption cfg x l ty v => addOptionT cfg x l ty v
  | .addFlag cfg x b => addFlagT cfg x b
  | .addPositionalOption cfg x l ty v => addPositionalOptionT cfg x l ty v
  | .addSection t a => addTextT "add_section".toList (.sec t a)
  | .addSubsection t a => addTextT "add_subsection".toList (.subsec t a)
  | .addLine t p a => addTextT "add_line".toList (.line t p a)
  | .addListItem k d a => addTextT "add_list_item".toList (.listItem k d a)
  | .addSubcommands ns => TM.modify fun p => { p with subcommands := addSubcommandsTo p.subcommands ns }

/-- `is_option_set`, parser.hpp lines 488-517. -/
def isOptionSetT {W : Type} (p : Parser W) (id : Id) : Except (Exn × Str) Bool :=
  if !p.parseWasCalled then
    .error (.designError, "You can only ask which options have been set after calling the function `parse()`.".toList)
  else if (match id with | .short _ => false | .long s => s.length == 1) then
    .error (.designError, "Long option identifiers must be longer than one character! If ".toList
      ++ (match id with | .short c => [c] | .long s => s)
      ++ "' was meant to be a short identifier, please pass it as a char ('') not a string".toList
      ++ " (\"\")!".toList)
  else if (match id with | .short c => [c] | .long s => s) ∉ p.usedIds then
    .error (.designError, "You can only ask for option identifiers that you added with add_option() before.".toList)
  else
    match findOptionId id (p.formatArguments.takeWhile (fun a => a ≠ endMarker)) with
    | (_, []) => .ok false
    | (_, _ :: _) => .ok true

/-- `get_sub_parser`, parser.hpp lines 448-456. -/
def getSubParserT {W : Type} (p : Parser W) : Except (Exn × Str) Init :=
  match p.subParser with
  | none => .error (.designError, "No subcommand was provided at the construction of the argument parser!".toList)
  | some i => .ok i

end Sharg
