import Verif.Model.FormatParse

/-!
# Setting up a parser

Models the state of `sharg::parser` and all member functions that set it up
(`include/sharg/parser.hpp`): `add_*`, `verify_*`, `add_subcommands`, and `is_option_set`.
-/

namespace Sharg

/-- `sharg::config`, `include/sharg/config.hpp` lines 42-138. Of the validator only its help page message is kept
here (`config.validator.get_help_page_message()`) and the tags that the tool description format derives from its
class (format_tdl.hpp lines 196-215); its check is a field of `Entry`. -/
structure Config where
  short : Char := '\x00'
  long : Str := []
  description : Str := []
  defaultMessage : Str := []
  advanced : Bool := false
  hidden : Bool := false
  required : Bool := false
  validatorMessage : Str := []
  validatorTags : List Str := []
  deriving DecidableEq, Repr

/-- One element of `operations` (parser.hpp line 779): a deferred call on the format that is chosen later. -/
inductive Entry (W : Type) where
  | option (cfg : Config) (var : VarId) (isList : Bool) (ty : ElemTy) (validator : Val → W → Bool × W)
  | flag (cfg : Config) (var : VarId)
  | positional (cfg : Config) (var : VarId) (isList : Bool) (ty : ElemTy) (validator : Val → W → Bool × W)
  | sec (title : Str) (advancedOnly : Bool)
  | subsec (title : Str) (advancedOnly : Bool)
  | line (text : Str) (isParagraph advancedOnly : Bool)
  | listItem (key desc : Str) (advancedOnly : Bool)

/-- What is needed to construct a parser (parser.hpp lines 175-190) and, for a sub-parser, the executable names
inserted in front (lines 838-846). `notify` is `update_notifications::on`. -/
structure Init where
  appName : Str
  arguments : List Str
  notify : Bool
  subcommands : List Str
  executableName : List Str
  deriving DecidableEq, Repr

/-- The member variables of `sharg::parser` (parser.hpp lines 713-779) that matter for parsing. The sub-parser
is represented by the arguments of its construction. The two `unordered_set`s are lists without order
significance. -/
structure Parser (W : Type) where
  appName : Str
  parseWasCalled : Bool
  hasPositionalListOption : Bool
  notify : Bool
  userDecision : Option Bool
  subParser : Option Init
  subcommands : List Str
  usedIds : List Str
  formatArguments : List Str
  arguments : List Str
  executableName : List Str
  options : List Str
  operations : List (Entry W)

abbrev PM (W α : Type) := M (Parser W) α

/-- Initial content of `used_ids`, parser.hpp line 764. -/
def builtinIds : List Str :=
  [['h'], ['h','h'], ['h','e','l','p'],
   ['a','d','v','a','n','c','e','d','-','h','e','l','p'],
   ['e','x','p','o','r','t','-','h','e','l','p'],
   ['v','e','r','s','i','o','n'], ['c','o','p','y','r','i','g','h','t']]

/-- Lexicographic `operator<` of `std::string`. -/
def strLt : Str → Str → Bool
  | _, [] => false
  | [], _ :: _ => true
  | a :: s, b :: t => if a.toNat < b.toNat then true else if b.toNat < a.toNat then false else strLt s t

/-- Insertion into a sorted list, the step of the sort below. -/
def insertSorted (x : Str) : List Str → List Str
  | [] => [x]
  | y :: l => if strLt y x then y :: insertSorted x l else x :: y :: l

/-- `std::ranges::sort` (any sorting algorithm gives the same list for a total order). -/
def sortStr (l : List Str) : List Str := l.foldr insertSorted []

/-- `std::ranges::unique` + `erase`: of each run of equal neighbours only the first stays. -/
def dedupAdjacent : List Str → List Str
  | [] => []
  | x :: l =>
    match dedupAdjacent l with
    | [] => [x]
    | y :: l' => if x = y then y :: l' else x :: y :: l'

/-- `add_subcommands`, parser.hpp lines 652-660 (no check whether `parse()` was called). -/
def addSubcommandsTo (current new : List Str) : List Str := dedupAdjacent (sortStr (current ++ new))

/-- `add_subcommands` on the parser object, parser.hpp lines 652-660. -/
def addSubcommands {W : Type} (names : List Str) : PM W Unit :=
  M.modify fun p => { p with subcommands := addSubcommandsTo p.subcommands names }

/-- The constructor, parser.hpp lines 181-190. -/
def mkParser {W : Type} (i : Init) : Parser W where
  appName := i.appName
  parseWasCalled := false
  hasPositionalListOption := false
  notify := i.notify
  userDecision := none
  subParser := none
  subcommands := addSubcommandsTo [] i.subcommands
  usedIds := builtinIds
  formatArguments := []
  arguments := i.arguments
  executableName := i.executableName
  options := []
  operations := []

/-- `check_parse_not_called`, parser.hpp lines 1076-1080. -/
def checkParseNotCalled {W : Type} : PM W Unit := fun p =>
  if p.parseWasCalled then .err .designError p else .ok () p

/-- The lambda `is_valid` in `verify_identifiers`, parser.hpp lines 990-994. -/
def isValidIdChar (c : Char) : Bool :=
  decide ('a'.toNat ≤ c.toNat ∧ c.toNat ≤ 'z'.toNat) || decide ('A'.toNat ≤ c.toNat ∧ c.toNat ≤ 'Z'.toNat)
    || decide ('0'.toNat ≤ c.toNat ∧ c.toNat ≤ '9'.toNat) || c == '@' || c == '_' || c == '-'

/-- `id_exists`, parser.hpp lines 971-977: inserts the identifier and tells whether it was there before. -/
def idExists {W : Type} (id : Str) : PM W Bool := fun p =>
  if id ∈ p.usedIds then .ok true p else .ok false { p with usedIds := id :: p.usedIds }

/-- The part of `verify_identifiers` for the short identifier, parser.hpp lines 999-1005. -/
def verifyShort {W : Type} (c : Char) : PM W Unit :=
  if c ≠ '\x00' then
    if c = '-' ∨ isValidIdChar c = false then M.throw .designError
    else M.bind (idExists [c]) fun used => if used then M.throw .designError else M.pure ()
  else M.pure ()

/-- The part of `verify_identifiers` for the long identifier, parser.hpp lines 1007-1017. -/
def verifyLong {W : Type} (s : Str) : PM W Unit :=
  if s ≠ [] then
    if s.length = 1 then M.throw .designError
    else if s.head? = some '-' then M.throw .designError
    else if s.all isValidIdChar = false then M.throw .designError
    else M.bind (idExists s) fun used => if used then M.throw .designError else M.pure ()
  else M.pure ()

/-- `verify_identifiers`, parser.hpp lines 988-1018. -/
def verifyIdentifiers {W : Type} (c : Char) (s : Str) : PM W Unit :=
  if c = '\x00' ∧ s = [] then M.throw .designError
  else M.bind (verifyShort c) fun _ => verifyLong s

/-- `verify_option_config`, parser.hpp lines 1021-1033. -/
def verifyOptionConfig {W : Type} (cfg : Config) : PM W Unit :=
  M.bind (verifyIdentifiers cfg.short cfg.long) fun _ =>
  M.bind (M.modify fun p => { p with
    options := (if cfg.short ≠ '\x00' then [(Id.short cfg.short).dashed] else [])
      ++ (if cfg.long ≠ [] then [(Id.long cfg.long).dashed] else []) ++ p.options }) fun _ =>
  if cfg.required = true ∧ cfg.defaultMessage ≠ [] then M.throw .designError else M.pure ()

/-- `verify_flag_config`, parser.hpp lines 1036-1043. -/
def verifyFlagConfig {W : Type} (cfg : Config) : PM W Unit :=
  M.bind (verifyIdentifiers cfg.short cfg.long) fun _ =>
  if cfg.defaultMessage ≠ [] then M.throw .designError else M.pure ()

/-- `verify_positional_option_config`, parser.hpp lines 1046-1065. -/
def verifyPositionalOptionConfig {W : Type} (cfg : Config) : PM W Unit := fun p =>
  if cfg.short ≠ '\x00' ∨ cfg.long ≠ [] then .err .designError p
  else if cfg.advanced = true ∨ cfg.hidden = true then .err .designError p
  else if p.subcommands ≠ [] then .err .designError p
  else if p.hasPositionalListOption then .err .designError p
  else if cfg.defaultMessage ≠ [] then .err .designError p
  else .ok () p

/-- `operations.push_back(...)`. -/
def pushOperation {W : Type} (e : Entry W) : PM W Unit :=
  M.modify fun p => { p with operations := p.operations ++ [e] }

/-- `add_option`, parser.hpp lines 241-257. -/
def addOption {W : Type} (cfg : Config) (var : VarId) (isList : Bool) (ty : ElemTy)
    (validator : Val → W → Bool × W) : PM W Unit :=
  M.bind checkParseNotCalled fun _ =>
  M.bind (verifyOptionConfig cfg) fun _ =>
  pushOperation (.option cfg var isList ty validator)

/-- `add_flag`, parser.hpp lines 274-293. `value` is the content of the variable at the time of the call. -/
def addFlag {W : Type} (cfg : Config) (var : VarId) (value : Bool) : PM W Unit :=
  M.bind checkParseNotCalled fun _ =>
  M.bind (verifyFlagConfig cfg) fun _ =>
  if value then M.throw .designError
  else pushOperation (.flag cfg var)

/-- `add_positional_option`, parser.hpp lines 325-344. -/
def addPositionalOption {W : Type} (cfg : Config) (var : VarId) (isList : Bool) (ty : ElemTy)
    (validator : Val → W → Bool × W) : PM W Unit :=
  M.bind checkParseNotCalled fun _ =>
  M.bind (verifyPositionalOptionConfig cfg) fun _ =>
  M.bind (M.modify fun p => { p with
    hasPositionalListOption := if isList then true else p.hasPositionalListOption }) fun _ =>
  pushOperation (.positional cfg var isList ty validator)

/-- `add_section`, `add_subsection`, `add_line`, `add_list_item`, parser.hpp lines 532-639. -/
def addText {W : Type} (e : Entry W) : PM W Unit :=
  M.bind checkParseNotCalled fun _ => pushOperation e

/-- A set-up call on a parser. -/
inductive Call (W : Type) where
  | addOption (cfg : Config) (var : VarId) (isList : Bool) (ty : ElemTy) (validator : Val → W → Bool × W)
  | addFlag (cfg : Config) (var : VarId) (value : Bool)
  | addPositionalOption (cfg : Config) (var : VarId) (isList : Bool) (ty : ElemTy)
      (validator : Val → W → Bool × W)
  | addSection (title : Str) (advancedOnly : Bool)
  | addSubsection (title : Str) (advancedOnly : Bool)
  | addLine (text : Str) (isParagraph advancedOnly : Bool)
  | addListItem (key desc : Str) (advancedOnly : Bool)
  | addSubcommands (names : List Str)

/-- Executes a set-up call. -/
def Call.run {W : Type} : Call W → PM W Unit
  | .addOption cfg x l ty v => Sharg.addOption cfg x l ty v
  | .addFlag cfg x b => Sharg.addFlag cfg x b
  | .addPositionalOption cfg x l ty v => Sharg.addPositionalOption cfg x l ty v
  | .addSection t a => addText (.sec t a)
  | .addSubsection t a => addText (.subsec t a)
  | .addLine t p a => addText (.line t p a)
  | .addListItem k d a => addText (.listItem k d a)
  | .addSubcommands ns => Sharg.addSubcommands ns

/-- The character class of `app_name_regex`, parser.hpp line 735. -/
def isNameChar (c : Char) : Bool :=
  decide ('a'.toNat ≤ c.toNat ∧ c.toNat ≤ 'z'.toNat) || decide ('A'.toNat ≤ c.toNat ∧ c.toNat ≤ 'Z'.toNat)
    || decide ('0'.toNat ≤ c.toNat ∧ c.toNat ≤ '9'.toNat) || c == '_' || c == '-'

/-- `std::regex_match(name, "^[a-zA-Z0-9_-]+$")`. -/
def matchesNameRegex (s : Str) : Bool := !s.isEmpty && s.all isNameChar

/-- `verify_app_and_subcommand_names`, parser.hpp lines 1089-1107. -/
def verifyAppAndSubcommandNames {W : Type} : PM W Unit := fun p =>
  if matchesNameRegex p.appName = false then .err .designError p
  else if p.subcommands.any (fun s => !matchesNameRegex s) then .err .designError p
  else .ok () p

/-- `is_option_set`, parser.hpp lines 488-517. `Id.short` is the overload for `char`, `Id.long` the one for
strings. `find_option_id` is called on the untouched copy `format_arguments`. -/
def isOptionSet {W : Type} (p : Parser W) (id : Id) : Except Exn Bool :=
  if !p.parseWasCalled then .error .designError
  else if (match id with | .short _ => false | .long s => s.length == 1) then .error .designError
  else if (match id with | .short c => [c] | .long s => s) ∉ p.usedIds then .error .designError
  else
    match findOptionId id (p.formatArguments.takeWhile (fun a => a ≠ endMarker)) with
    | (_, []) => .ok false
    | (_, _ :: _) => .ok true

/-- `get_sub_parser`, parser.hpp lines 448-456. -/
def getSubParser {W : Type} (p : Parser W) : Except Exn Init :=
  match p.subParser with
  | none => .error .designError
  | some i => .ok i

end Sharg
